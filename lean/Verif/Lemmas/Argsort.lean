import Verif.Model.FastText
import Verif.Lemmas.Argmax
import Mathlib.Data.List.Perm.Basic
/-
The stable sort of positions by key.
-/
namespace PurePredict
variable {F : Type} [Arith F] {α : Type} [LinearOrder α]

/-- Position `i` comes before `j`: smaller key, or equal keys and smaller index. -/
def Before (s : Nat → α) (i j : Nat) : Prop := s i < s j ∨ s i = s j ∧ i < j

theorem Before.trans' {s : Nat → α} {i j k : Nat} (h1 : Before s i j) (h2 : Before s j k) : Before s i k := by
  rcases h1 with h1 | ⟨h1, h1'⟩ <;> rcases h2 with h2 | ⟨h2, h2'⟩
  · exact .inl (h1.trans h2)
  · exact .inl (h2 ▸ h1)
  · exact .inl (h1 ▸ h2)
  · exact .inr ⟨h1.trans h2, h1'.trans h2'⟩

theorem insertKey_perm (key : Nat → F) (i : Nat) (l : List Nat) : (FT.insertKey key i l).Perm (i :: l) := by
  induction l with
  | nil => exact List.Perm.refl _
  | cons j l ih =>
    simp only [FT.insertKey]
    split
    · exact List.Perm.refl _
    · exact (ih.cons j).trans (List.Perm.swap i j l)

theorem insertKey_sorted {key : Nat → F} {s : Nat → α} {i : Nat} {l : List Nat}
    (hk : ∀ j ∈ l, (key i <ₚ key j) = decide (s i < s j)) (hi : ∀ j ∈ l, j < i)
    (hl : l.Pairwise (Before s)) : (FT.insertKey key i l).Pairwise (Before s) := by
  induction l with
  | nil => simp [FT.insertKey]
  | cons j l ih =>
    simp only [FT.insertKey, hk j (by simp), decide_eq_true_eq]
    have hl' := List.pairwise_cons.1 hl
    split
    · rename_i hlt
      refine List.pairwise_cons.2 ⟨?_, hl⟩
      intro a ha
      rcases List.mem_cons.1 ha with rfl | ha
      · exact .inl hlt
      · exact Before.trans' (.inl hlt) (hl'.1 a ha)
    · rename_i hlt
      refine List.pairwise_cons.2 ⟨?_, ih (fun a ha => hk a (by simp [ha])) (fun a ha => hi a (by simp [ha])) hl'.2⟩
      intro a ha
      rcases List.mem_cons.1 ((insertKey_perm key i l).subset ha) with rfl | ha
      · rcases lt_or_eq_of_le (not_lt.1 hlt) with h | h
        · exact .inl h
        · exact .inr ⟨h, hi j (by simp)⟩
      · exact hl'.1 a ha

/-- `argsort` is the permutation of the positions ordered by key, ties by position. -/
theorem argsort_spec (key : F → α) {seq : List F} (h : OrdOn key seq) :
    (FT.argsort seq).Perm (List.range seq.length) ∧
    (FT.argsort seq).Pairwise (Before fun i => key (seq.getD i (ofInt 0))) := by
  have main : ∀ n, n ≤ seq.length →
      ((List.range n).foldl (fun acc i => FT.insertKey (fun j => seq.getD j (ofInt 0)) i acc) []).Perm
        (List.range n) ∧
      ((List.range n).foldl (fun acc i => FT.insertKey (fun j => seq.getD j (ofInt 0)) i acc) []).Pairwise
        (Before fun i => key (seq.getD i (ofInt 0))) := by
    intro n
    induction n with
    | zero => intro _; simp
    | succ n ih =>
      intro hn
      obtain ⟨h1, h2⟩ := ih (by omega)
      rw [List.range_succ, List.foldl_append, List.foldl_cons, List.foldl_nil]
      have hmem : ∀ i, i < seq.length → seq.getD i (ofInt 0) ∈ seq := by
        intro i hi
        rw [List.getD_eq_getElem?_getD, List.getElem?_eq_getElem hi]
        exact List.getElem_mem hi
      constructor
      · refine (insertKey_perm _ _ _).trans ?_
        exact (h1.cons n).trans (List.perm_append_singleton n (List.range n)).symm
      · apply insertKey_sorted
        · intro j hj
          have hj' : j < n := by simpa using h1.subset hj
          exact h.lt _ (hmem n (by omega)) _ (hmem j (by omega))
        · intro j hj
          simpa using h1.subset hj
        · exact h2
  exact main _ le_rfl

end PurePredict
