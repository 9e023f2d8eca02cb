import Verif.Props.C17
/-
C59: ties at a booster split.  xgboost goes to the `Yes` child when the value is below the split
value; the converted tree also does when they are equal.
-/
namespace PurePredict
open Spec
variable {F C : Type} [Arith F]

/-- The claim: the converted tree predicts what the booster predicts (columns 0..9). -/
def XgbSplitsFaithful (F C : Type) [Arith F] : Prop :=
  ∀ (e : XgbFrame F) (tid : Nat) (xt : XTree F), e.Printed tid → e.Describes tid 0 xt →
    (∀ s ∈ xt.splits, s.1 < 10) →
    ∃ t : Tree F C, Tree.ofXgb e = .ok t ∧
      ∀ (M : List (List F)) (g : List F → F), M ≠ [] →
        (∀ r ∈ M, xt.eval (fun f => r[f]?) = some (g r)) →
        t.predictReg (.ofMat M) = .ok (M.map g)

/-- What the converted tree does on every record: it goes to `Yes` also at equality. -/
theorem C59_converted_semantics (e : XgbFrame F) (tid : Nat) (xt : XTree F) (hp : e.Printed tid)
    (hd : e.Describes tid 0 xt) :
    ∃ t : Tree F C, Tree.ofXgb e = .ok t ∧ t.Encodes 0 (XTree.converted xt) := by
  obtain ⟨t, ht, henc⟩ := ofXgb_encodes (C := C) hp
  exact ⟨t, ht, henc 0 xt hd⟩

/-- **C59 is false**: stump `x0 < 1/2 ? 1 : 2` on the record `x0 = 1/2`; the booster predicts 2,
the converted tree 1. -/
theorem C59_ties_false : ¬ XgbSplitsFaithful Ex String := by
  intro h
  obtain ⟨t, ht, hgood⟩ := h (stumpFrame 0) 0 (stump 0) (stumpFrame_printed 0)
    (stumpFrame_describes 0) (by simp [stump, XTree.splits])
  have h1 := hgood [[.fin (1 / 2)]] (fun _ => .fin 2) (by simp) (by
    intro r hr
    rw [List.mem_singleton] at hr
    subst hr
    simp [stump, XTree.eval])
  obtain ⟨t', ht', henc⟩ := ofXgb_encodes (C := String) (stumpFrame_printed 0)
  rw [ht] at ht'
  cases ht'
  have h2 := predictReg_encodes (henc 0 _ (stumpFrame_describes 0)) (M := [[.fin (1 / 2)]]) (by simp)
    (g := fun _ => .fin 1) (by
      intro r hr
      rw [List.mem_singleton] at hr
      subst hr
      simp [stump, XTree.converted, DTree.eval])
  rw [h1] at h2
  have h12 : (XR.fin 2 : Ex) = .fin 1 := by simpa using Except.ok.inj h2
  have := XR.fin_inj.1 h12
  norm_num at this

/-- **C59, partial**: without ties the predictions agree (floating point included: `<=` and `<`
differ only at equality, as `hties` says). -/
theorem C59_no_ties_partial (e : XgbFrame F) (tid : Nat) (xt : XTree F) (hp : e.Printed tid)
    (hd : e.Describes tid 0 xt) (h10 : ∀ s ∈ xt.splits, s.1 < 10) :
    ∃ t : Tree F C, Tree.ofXgb e = .ok t ∧
      ∀ (M : List (List F)) (g : List F → F), M ≠ [] →
        (∀ r ∈ M, xt.eval (fun f => r[f]?) = some (g r)) →
        (∀ r ∈ M, ∀ s ∈ xt.splits, ∀ v, r[s.1]? = some v → (v ≤ₚ s.2) = (v <ₚ s.2)) →
        t.predictReg (.ofMat M) = .ok (M.map g) :=
  C17_single_digit_partial e tid xt hp hd h10

/-- Reals without a tie meet the hypothesis `hties`. -/
example (v s : ℝ) (h : v ≠ s) : ((XR.fin v : Ex) ≤ₚ .fin s) = ((XR.fin v : Ex) <ₚ .fin s) := by
  simp only [XR.le_fin, XR.lt_fin]
  exact decide_eq_decide.2 ⟨fun h' => lt_of_le_of_ne h' h, le_of_lt⟩

end PurePredict
