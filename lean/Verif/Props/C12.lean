import Verif.Lemmas.Tree
import Verif.Lemmas.Links
import Verif.Lemmas.Rounded
/-
C12: tree probabilities.
-/
namespace PurePredict
open Spec
variable {C : Type}

theorem DTree.eval_mem_leaves {F : Type} [Arith F] {dt : DTree F} {x : Nat → Option F} {v : List F}
    (h : dt.eval x = some v) : v ∈ dt.leaves := by
  induction dt with
  | leaf w => simp [DTree.eval] at h; simp [DTree.leaves, h]
  | node f thr l r ihl ihr =>
    simp only [DTree.eval] at h
    cases hx : x f with
    | none => simp [hx] at h
    | some a =>
      simp only [hx] at h
      split at h
      · simp [DTree.leaves, ihl h]
      · simp [DTree.leaves, ihr h]

/-- Reading the leaves of a batch. -/
theorem Tree.leaves_batch {F : Type} [Arith F] {t : Tree F C} {dt : DTree F}
    (henc : t.Encodes 0 dt) {M : List (List F)} {g : List F → List F}
    (hg : ∀ x ∈ M, dt.eval (Row.list x).look = some (g x)) :
    ∃ k : List F → Nat, (M.map Row.list).mapM t.getLeafNode = .ok (M.map fun x => (k x : Int)) ∧
      ∀ x ∈ M, pyGet t.value (k x : Int) = .ok (g x) := by
  have hleaf : ∀ x ∈ M, ∃ k : Nat, t.getLeafNode (.list x) = .ok (k : Int) ∧
      t.value[k]? = some (g x) := by
    intro x hx
    have := Tree.getLeafNode_encodes henc (.list x)
    rwa [hg x hx] at this
  choose! k hk1 hk2 using hleaf
  refine ⟨k, ?_, fun x hx => pyGet_ok_nat.2 (hk2 x hx)⟩
  rw [mapM_map', mapM_ok_map (g := fun x => (k x : Int)) fun x hx => hk1 x hx]

/-- **C12**, exact arithmetic: if every leaf holds `k` non-negative class counts that are not all
zero, then for every batch of records with enough features both methods succeed; `predict_proba`
gives the reached leaf's counts divided by their sum, a distribution over the `k` classes, and
`predict` the label of the first most probable class. -/
theorem C12_tree_probabilities (t : Tree Ex C) (dt : DTree Ex) (henc : t.Encodes 0 dt) (k : Nat)
    (hcls : t.classes.length = k)
    (hleaves : ∀ v ∈ dt.leaves, ∃ c : List ℝ, v = fins c ∧ c.length = k ∧ (∀ a ∈ c, 0 ≤ a) ∧
      0 < c.sum)
    (M : List (List Ex)) (hM : M ≠ []) (hw : ∀ x ∈ M, ∀ f ∈ dt.features, f < x.length) :
    ∃ (counts : List (List ℝ)) (labels : List C),
      List.Forall₂ (fun x c => dt.eval (Row.list x).look = some (fins c)) M counts ∧
      t.predictProba (.ofMat M) = .ok (counts.map fun c => fins (c.map fun a => a / c.sum)) ∧
      (∀ c ∈ counts, IsDist k (c.map fun a => a / c.sum)) ∧
      t.predict (.ofMat M) = .ok labels ∧
      List.Forall₂ (fun c l => ∃ i, IsFirstMax (c.map fun a => a / c.sum) i ∧
        t.classes[i]? = some l) counts labels := by
  have hex : ∀ x ∈ M, ∃ c : List ℝ, dt.eval (Row.list x).look = some (fins c) ∧ c.length = k ∧
      (∀ a ∈ c, 0 ≤ a) ∧ 0 < c.sum := by
    intro x hx
    obtain ⟨v, hv⟩ : ∃ v, dt.eval (Row.list x).look = some v := by
      have hall : ∀ (d : DTree Ex), (∀ f ∈ d.features, f < x.length) →
          ∃ v, d.eval (Row.list x).look = some v := by
        intro d
        induction d with
        | leaf v => exact fun _ => ⟨v, rfl⟩
        | node f thr l r ihl ihr =>
          intro hd
          have hf : f < x.length := hd f (by simp [DTree.features])
          simp only [DTree.eval, Row.look, List.getElem?_eq_getElem hf]
          split
          · exact ihl fun g hg => hd g (by simp [DTree.features, hg])
          · exact ihr fun g hg => hd g (by simp [DTree.features, hg])
      exact hall dt (hw x hx)
    obtain ⟨c, rfl, h⟩ := hleaves v (DTree.eval_mem_leaves hv)
    exact ⟨c, hv, h⟩
  choose! c hc1 hc2 hc3 hc4 using hex
  obtain ⟨n, hn1, hn2⟩ := Tree.leaves_batch henc hc1
  have hlab : ∀ x ∈ M, ∃ l i, argmax (fins (c x)) = .ok i ∧
      IsFirstMax ((c x).map fun a => a / (c x).sum) i ∧ t.classes[i]? = some l := by
    intro x hx
    have hne : c x ≠ [] := by
      intro h0
      have := hc4 x hx
      rw [h0] at this
      simp at this
    obtain ⟨i, hi⟩ := argmax_total (l := fins (c x)) (by simpa [fins] using hne)
    have hlt : i < t.classes.length := by
      have := argmax_lt hi
      rw [hcls, ← hc2 x hx]; simpa using this
    refine ⟨t.classes[i], i, hi, ?_, List.getElem?_eq_getElem hlt⟩
    rw [isFirstMax_map (f := fun a : ℝ => a / (c x).sum)
      (fun a b h => (div_lt_div_iff_of_pos_right (hc4 x hx)).2 h)]
    exact argmax_fins.1 hi
  have : Nonempty C ∨ M = [] := by
    by_cases hM' : M = []
    · exact .inr hM'
    · obtain ⟨x, hx⟩ := List.exists_mem_of_ne_nil M hM'
      obtain ⟨l, _⟩ := hlab x hx
      exact .inl ⟨l⟩
  rcases this with hC | h0
  swap
  · exact absurd h0 hM
  choose! l i hl1 hl2 hl3 using hlab
  refine ⟨M.map c, M.map l, ?_, ?_, ?_, ?_, ?_⟩
  · rw [List.forall₂_map_right_iff, List.forall₂_same]; exact hc1
  · simp only [Tree.predictProba, checkArray_ofMat hM, py_ok_bind, rows_ofMat, hn1]
    rw [mapM_map', List.map_map]
    apply mapM_ok_map
    intro x hx
    simp only [Tree.probaFromLeaf, hn2 x hx, py_ok_bind, pySum_fins]
    exact mapM_fins fun a _ => XR.div_exact a (hc4 x hx).ne'
  · intro d hd
    obtain ⟨x, hx, rfl⟩ := List.mem_map.1 hd
    have := isDist_div (hc3 x hx) (hc4 x hx)
    rwa [hc2 x hx] at this
  · simp only [Tree.predict, checkArray_ofMat hM, py_ok_bind, rows_ofMat, hn1]
    rw [mapM_map', mapM_ok_map (g := i)]
    · simp only [py_ok_bind]
      rw [mapM_map']
      exact mapM_ok_map fun x hx => pyGet_ok_nat.2 (hl3 x hx)
    · intro x hx
      simp only [Tree.predFromLeaf, hn2 x hx, py_ok_bind, hl1 x hx]
  · rw [List.forall₂_map_left_iff, List.forall₂_map_right_iff, List.forall₂_same]
    exact fun x hx => ⟨i x, hl2 x hx, hl3 x hx⟩

/-- **C12**, floating point: in every sound arithmetic, for a leaf of non-negative representable
counts whose computed sum is finite and not 0, every probability lies in [0,1], and the class
`predict` chooses has a probability that no other class exceeds. -/
theorem C12_leaf_probabilities_rounded (fp : FP) (hs : fp.Sound) (t : Tree (XR fp) C) (nd : Int)
    (v : List ℝ) (hv : pyGet t.value nd = .ok (v.map XR.fin))
    (hnn : ∀ a ∈ v, 0 ≤ a ∧ fp.rnd a = (a : EReal)) (S : ℝ)
    (hS : pySum (v.map XR.fin : List (XR fp)) = .fin S) (hS0 : S ≠ 0) :
    ∃ p i, t.probaFromLeaf nd = .ok p ∧ p.length = v.length ∧ (∀ q ∈ p, XR.Unit q) ∧
      t.predFromLeaf nd = .ok i ∧ ∃ hi : i < p.length, ∀ q ∈ p, XR.toE q ≤ XR.toE p[i] := by
  have hNN : ∀ x ∈ (v.map XR.fin : List (XR fp)), XR.NN x := by
    intro x hx
    obtain ⟨a, ha, rfl⟩ := List.mem_map.1 hx
    exact XR.NN.fin (hnn a ha).1 (hnn a ha).2
  obtain ⟨h1, h2⟩ := XR.pySum_NN hs hNN
  rw [hS] at h1 h2
  have hSpos : 0 < S := by
    have : (0 : EReal) ≤ (S : EReal) := h1.2.1
    exact lt_of_le_of_ne (by exact_mod_cast this) hS0.symm
  have hne : v ≠ [] := by
    rintro rfl
    simp only [List.map_nil, pySum, List.foldl_nil, XR.ofInt_zero hs] at hS
    exact hS0 (XR.fin_inj.1 hS).symm
  have hp : t.probaFromLeaf nd = .ok (v.map fun a => XR.round (a / S)) := by
    simp only [Tree.probaFromLeaf, hv, py_ok_bind, hS]
    rw [mapM_map']
    apply mapM_ok_map
    intro a _
    rw [XR.div_fin, if_neg hS0]
  obtain ⟨i, hi⟩ := argmax_total (l := (v.map XR.fin : List (XR fp))) (by simpa using hne)
  have hmax := (argmax_iff XR.toE (XR.ordOn_toE (by simp))).1 hi
  refine ⟨_, i, hp, by simp, ?_, ?_, ?_⟩
  · intro q hq
    obtain ⟨a, ha, rfl⟩ := List.mem_map.1 hq
    have hle : (a : EReal) ≤ (S : EReal) := h2 _ (List.mem_map.2 ⟨a, ha, rfl⟩)
    obtain ⟨q', hq', hu, _⟩ := XR.div_unit hs (hnn a ha).1 hSpos (by exact_mod_cast hle)
    rw [XR.div_fin, if_neg hS0] at hq'
    cases hq'
    exact hu
  · simp only [Tree.predFromLeaf, hv, py_ok_bind, hi]
  · obtain ⟨hlt, hge, _⟩ := hmax
    have hlt' : i < v.length := by simpa using hlt
    refine ⟨by simpa using hlt', ?_⟩
    intro q hq
    obtain ⟨j, hj, rfl⟩ := List.getElem_of_mem hq
    have hj' : j < v.length := by simpa using hj
    have := hge j (by simpa using hj')
    simp only [List.getElem_map] at this ⊢
    have hle : v[j] ≤ v[i] := by
      have h' : ((v[j] : ℝ) : EReal) ≤ ((v[i] : ℝ) : EReal) := this
      exact_mod_cast h'
    rw [XR.toE_round, XR.toE_round]
    exact hs.mono ((div_le_div_iff_of_pos_right hSpos).2 hle)

/-- Non-vacuity: a stump with counts (3,1) and (0,4). -/
example (t : Tree Ex String)
    (ht : t = ⟨[1, -1, -1], [2, -1, -1], [0, -2, -2], [.fin 5, .fin 0, .fin 0],
      [fins [3, 5], fins [3, 1], fins [0, 4]], ["a", "b"]⟩) :
    ∃ (counts : List (List ℝ)) (labels : List String),
      t.predictProba (.ofMat [[.fin 1], [.fin 9]]) =
        .ok (counts.map fun c => fins (c.map fun a => a / c.sum)) ∧
      t.predict (.ofMat [[.fin 1], [.fin 9]]) = .ok labels := by
  subst ht
  obtain ⟨c, l, _, h1, _, h2, _⟩ := C12_tree_probabilities
    (⟨[1, -1, -1], [2, -1, -1], [0, -2, -2], [.fin 5, .fin 0, .fin 0],
      [fins [3, 5], fins [3, 1], fins [0, 4]], ["a", "b"]⟩ : Tree Ex String)
    (.node 0 (.fin 5) (.leaf (fins [3, 1])) (.leaf (fins [0, 4])))
    (.node (l := 1) (r := 2) rfl rfl (by decide) rfl rfl (.leaf (a := -1) rfl rfl rfl)
      (.leaf (a := -1) rfl rfl rfl)) 2 rfl
    (by
      intro v hv
      simp [DTree.leaves] at hv
      rcases hv with rfl | rfl
      · exact ⟨[3, 1], rfl, rfl, by simp, by norm_num⟩
      · exact ⟨[0, 4], rfl, rfl, by simp, by norm_num⟩)
    [[.fin 1], [.fin 9]] (by simp) (by
      intro x hx f hf
      simp [DTree.features] at hf
      simp at hx
      rcases hx with rfl | rfl <;> simp [hf])
  exact ⟨c, l, h1, h2⟩

end PurePredict
