import Verif.Lemmas.TreeEncode
import Verif.Spec.SkTree
/-
Helper lemmas: the arrays of a scikit-learn tree encode it.
-/
namespace PurePredict
open Spec
variable {F C : Type} [Arith F]

theorem SkTree.layout_length (s : SkTree F) (n : Nat) : (s.layout n).length = s.size := by
  induction s generalizing n with
  | leaf v => rfl
  | split v f thr l r ihl ihr => simp [SkTree.layout, SkTree.size, ihl, ihr]; omega

theorem SkTree.layout_values (s : SkTree F) (n : Nat) :
    (s.layout n).map SkNode.value = s.values := by
  induction s generalizing n with
  | leaf v => rfl
  | split v f thr l r ihl ihr => simp [SkTree.layout, SkTree.values, ihl, ihr]

theorem SkTree.reach_first (s : SkTree F) (x : Nat → Option F) :
    s.first.eval x = (s.reach x).map fun v => v.headD [] := by
  induction s with
  | leaf v => rfl
  | split v f thr l r ihl ihr =>
    simp only [SkTree.first, DTree.eval, SkTree.reach]
    cases x f with
    | none => rfl
    | some a => simp only [ihl, ihr]; split <;> rfl

theorem SkTree.first_features (s : SkTree F) : s.first.features = s.features := by
  induction s with
  | leaf v => rfl
  | split v f thr l r ihl ihr => simp [SkTree.first, DTree.features, SkTree.features, ihl, ihr]

theorem SkTree.first_leaves (s : SkTree F) : ∀ v ∈ s.first.leaves, ∃ a ∈ s.values, v = a.headD [] := by
  induction s with
  | leaf v => intro w hw; simp only [SkTree.first, DTree.leaves, List.mem_singleton] at hw; exact ⟨v, by simp [SkTree.values], hw⟩
  | split v f thr l r ihl ihr =>
    intro w hw
    simp only [SkTree.first, DTree.leaves, List.mem_append] at hw
    rcases hw with hw | hw
    · obtain ⟨a, ha, rfl⟩ := ihl w hw
      exact ⟨a, by simp [SkTree.values, ha], rfl⟩
    · obtain ⟨a, ha, rfl⟩ := ihr w hw
      exact ⟨a, by simp [SkTree.values, ha], rfl⟩

theorem prefix_head {α : Type} {L : List α} {n : Nat} {a : α} {l : List α}
    (h : (a :: l) <+: L.drop n) : L[n]? = some a := by
  obtain ⟨r, hr⟩ := h
  have : (L.drop n)[0]? = some a := by rw [← hr]; rfl
  simpa using this

theorem prefix_tail {α : Type} {L : List α} {n : Nat} {a : α} {l : List α}
    (h : (a :: l) <+: L.drop n) : l <+: L.drop (n + 1) := by
  obtain ⟨r, hr⟩ := h
  refine ⟨r, ?_⟩
  rw [← List.tail_drop, ← hr]
  rfl

theorem prefix_append {α : Type} {L : List α} {n : Nat} {l m : List α}
    (h : (l ++ m) <+: L.drop n) : l <+: L.drop n ∧ m <+: L.drop (n + l.length) := by
  obtain ⟨r, hr⟩ := h
  refine ⟨⟨m ++ r, by rw [← hr, List.append_assoc]⟩, ⟨r, ?_⟩⟩
  rw [← List.drop_drop, ← hr, List.append_assoc, List.drop_left]

/-- Arrays holding the layout of `s` at position `n` encode output 0 of `s` there. -/
theorem SkTree.encodes (t : Tree F C) (L : List (SkNode F))
    (hl : t.childrenLeft = L.map SkNode.left) (hr : t.childrenRight = L.map SkNode.right)
    (hf : t.feature = L.map SkNode.feature) (ht : t.threshold = L.map SkNode.threshold)
    (hv : t.value = L.map fun a => a.value.headD []) (s : SkTree F) (n : Nat)
    (h : s.layout n <+: L.drop n) : t.Encodes n s.first := by
  induction s generalizing n with
  | leaf v =>
    have h0 := prefix_head h
    exact .leaf (a := -1) (by simp [hl, h0]) (by simp [hr, h0]) (by simp [hv, h0])
  | split v f thr l r ihl ihr =>
    have h0 := prefix_head h
    obtain ⟨h1, h2⟩ := prefix_append (prefix_tail h)
    rw [SkTree.layout_length] at h2
    refine .node (by simp [hl, h0]) (by simp [hr, h0]) ?_ (by simp [hf, h0]) (by simp [ht, h0])
      (ihl _ h1) (ihr _ h2)
    have : 0 < l.size := by cases l <;> simp [SkTree.size]
    omega

/-- Conversion of a fitted tree succeeds and encodes output 0. -/
theorem Tree.ofSklearn_encodes (s : SkTree F) (hs : ∀ v ∈ s.values, v ≠ [])
    (classes : Option (List C)) (d : List C) :
    ∃ t : Tree F C, Tree.ofSklearn ((s.layout 0).map SkNode.left) ((s.layout 0).map SkNode.right)
      ((s.layout 0).map SkNode.feature) ((s.layout 0).map SkNode.threshold)
      ((s.layout 0).map SkNode.value) classes d = .ok t ∧ t.Encodes 0 s.first ∧
      t.classes = classes.getD d := by
  have hv : (((s.layout 0).map SkNode.value).mapM fun a => pyGet a 0) =
      .ok ((s.layout 0).map fun a => a.value.headD []) := by
    rw [SkTree.layout_values]
    rw [show ((s.layout 0).map fun a => a.value.headD []) = s.values.map fun v => v.headD [] by
      rw [← SkTree.layout_values s 0, List.map_map]; rfl]
    apply mapM_ok_map
    intro v hv
    obtain ⟨a, as, rfl⟩ := List.exists_cons_of_ne_nil (hs v hv)
    exact pyGet_zero_cons _ _
  refine ⟨_, by simp only [Tree.ofSklearn, hv, py_ok_bind]; rfl, ?_, rfl⟩
  exact SkTree.encodes _ (s.layout 0) rfl rfl rfl rfl rfl s 0 (by simp)

end PurePredict
