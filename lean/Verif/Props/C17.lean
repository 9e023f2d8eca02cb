import Verif.Lemmas.Xgb
import Verif.Lemmas.XR
/-
C17: which column a converted booster split tests.  The parser keeps only the last digit of the
column number, so the claim fails from column 10 on.
-/
namespace PurePredict
open Spec
variable {F C : Type} [Arith F]

/-- The claim: converting the printed data frame of a booster tree gives a tree that predicts what
the booster predicts, on records for which no tested value is equal to its split value. -/
def XgbConversionFaithful (F C : Type) [Arith F] : Prop :=
  ∀ (e : XgbFrame F) (tid : Nat) (xt : XTree F), e.Printed tid → e.Describes tid 0 xt →
    ∃ t : Tree F C, Tree.ofXgb e = .ok t ∧
      ∀ (M : List (List F)) (g : List F → F), M ≠ [] →
        (∀ r ∈ M, xt.eval (fun f => r[f]?) = some (g r)) →
        (∀ r ∈ M, ∀ s ∈ xt.splits, ∀ v, r[s.1]? = some v → (v ≤ₚ s.2) = (v <ₚ s.2)) →
        t.predictReg (.ofMat M) = .ok (M.map g)

/-- What the feature parser does, for every column: it returns the last decimal digit. -/
theorem C17_last_digit (k : Nat) : parseFeature (featName k) = .ok ((k % 10 : Nat) : Int) :=
  parseFeature_featName k

/-- Hence the parser is right exactly for single-digit columns. -/
theorem C17_feature_right_iff (k : Nat) : parseFeature (featName k) = .ok (k : Int) ↔ k < 10 := by
  rw [parseFeature_featName]
  constructor
  · intro h
    have : ((k % 10 : Nat) : Int) = k := Except.ok.inj h
    omega
  · intro h
    rw [Nat.mod_eq_of_lt h]

/-- Child ids are parsed right for every tree and node number. -/
theorem C17_child_right (t n : Nat) : parseChild (some (nodeId t n)) = .ok (n : Int) :=
  parseChild_nodeId t n

/-- **C17, partial**: a booster tree whose splits all use columns 0..9 is converted faithfully,
for records without a tie at a split.  Missing: columns from 10 on (false) and ties (C59). -/
theorem C17_single_digit_partial (e : XgbFrame F) (tid : Nat) (xt : XTree F) (hp : e.Printed tid)
    (hd : e.Describes tid 0 xt) (h10 : ∀ s ∈ xt.splits, s.1 < 10) :
    ∃ t : Tree F C, Tree.ofXgb e = .ok t ∧
      ∀ (M : List (List F)) (g : List F → F), M ≠ [] →
        (∀ r ∈ M, xt.eval (fun f => r[f]?) = some (g r)) →
        (∀ r ∈ M, ∀ s ∈ xt.splits, ∀ v, r[s.1]? = some v → (v ≤ₚ s.2) = (v <ₚ s.2)) →
        t.predictReg (.ofMat M) = .ok (M.map g) := by
  obtain ⟨t, ht, henc⟩ := ofXgb_encodes (C := C) hp
  refine ⟨t, ht, fun M g hM hg hties => predictReg_encodes (henc 0 xt hd) hM fun r hr => ?_⟩
  rw [converted_eval xt h10 (hties r hr), hg r hr]
  rfl

/-- A stump on column `k`: below 1/2 predict 1, otherwise predict 2. -/
noncomputable def stumpFrame (k : Nat) : XgbFrame Ex where
  split := [.fin (1 / 2), .nan, .nan]
  gain := [.fin 7, .fin 1, .fin 2]
  yes := [some (nodeId 0 1), none, none]
  no := [some (nodeId 0 2), none, none]
  feature := [featName k, "Leaf".toList, "Leaf".toList]

noncomputable def stump (k : Nat) : XTree Ex :=
  .split k (.fin (1 / 2)) (.leaf (.fin 1)) (.leaf (.fin 2))

theorem stumpFrame_printed (k : Nat) : (stumpFrame k).Printed 0 where
  yes := by intro c hc; simp [stumpFrame] at hc; aesop
  no := by intro c hc; simp [stumpFrame] at hc; aesop
  feature := by intro c hc; simp [stumpFrame] at hc; aesop

theorem stumpFrame_describes (k : Nat) : (stumpFrame k).Describes 0 0 (stump k) :=
  .split (l := 1) (r := 2) rfl rfl (by simp) rfl rfl rfl (.leaf rfl rfl rfl) (.leaf rfl rfl rfl)

/-- **C17 is false**: for every column from 10 on there is a booster and a record on which the
converted tree predicts something else. -/
theorem C17_false_from_ten (k : Nat) (hk : 10 ≤ k) :
    ∃ (e : XgbFrame Ex) (xt : XTree Ex) (r : List Ex), e.Printed 0 ∧ e.Describes 0 0 xt ∧
      xt.splits = [(k, .fin (1 / 2))] ∧ r[k]? = some (.fin 0) ∧ xt.eval (fun f => r[f]?) = some (.fin 1) ∧
      ∀ t : Tree Ex String, Tree.ofXgb e = .ok t →
        t.predictReg (.ofMat [r]) = .ok [.fin 2] := by
  let r : List Ex := (List.range (k + 1)).map fun i => if i = k then .fin 0 else .fin 1
  have hr1 : r[k]? = some (.fin 0) := by simp [r]
  have hlt : k % 10 < k := lt_of_lt_of_le (Nat.mod_lt k (by norm_num)) hk
  have hr2 : r[k % 10]? = some (.fin 1) := by
    have h1 : k % 10 < k + 1 := by omega
    have h2 : k % 10 ≠ k := by omega
    simp [r, h1, h2]
  refine ⟨stumpFrame k, stump k, r, stumpFrame_printed k, stumpFrame_describes k, rfl, hr1, ?_, ?_⟩
  · simp only [stump, XTree.eval, hr1, XR.lt_fin]
    norm_num
  · intro t ht
    obtain ⟨t', ht', henc⟩ := ofXgb_encodes (C := String) (stumpFrame_printed k)
    rw [ht] at ht'
    cases ht'
    refine (predictReg_encodes (henc 0 _ (stumpFrame_describes k)) (M := [r]) (by simp)
      (g := fun _ => .fin 2) ?_)
    intro r' hr'
    rw [List.mem_singleton] at hr'
    subst hr'
    simp only [stump, XTree.converted, DTree.eval, hr2, XR.le_fin]
    norm_num

theorem C17_conversion_faithful_false : ¬ XgbConversionFaithful Ex String := by
  intro h
  obtain ⟨e, xt, r, hp, hd, hs, h0, he, hbad⟩ := C17_false_from_ten 12 (by norm_num)
  obtain ⟨t, ht, hgood⟩ := h e 0 xt hp hd
  have := hbad t ht
  rw [hgood [r] (fun _ => .fin 1) (by simp) (by
    intro r' hr'
    rw [List.mem_singleton] at hr'
    subst hr'
    exact he)] at this
  · have h12 : (XR.fin 1 : Ex) = .fin 2 := by simpa using Except.ok.inj this
    have := XR.fin_inj.1 h12
    norm_num at this
  · intro r' hr' s hs' v hv
    rw [List.mem_singleton] at hr'
    subst hr'
    rw [hs, List.mem_singleton] at hs'
    subst hs'
    rw [h0] at hv
    cases hv
    simp

/-- Non-vacuity of the partial theorem: the stump on column 3. -/
example : (stumpFrame 3).Printed 0 ∧ (stumpFrame 3).Describes 0 0 (stump 3) ∧
    ∀ s ∈ (stump 3).splits, s.1 < 10 :=
  ⟨stumpFrame_printed 3, stumpFrame_describes 3, by simp [stump, XTree.splits]⟩

end PurePredict
