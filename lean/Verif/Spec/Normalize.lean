import Mathlib.Analysis.SpecialFunctions.Sqrt
/-
Specification of row normalisation.
-/
namespace PurePredict.Spec

/-- Sum of absolute values. -/
def l1norm (x : List ℝ) : ℝ := (x.map fun a => |a|).sum

/-- Euclidean norm. -/
noncomputable def l2norm (x : List ℝ) : ℝ := Real.sqrt (x.map fun a => a ^ 2).sum

/-- A row divided by its norm; a row of norm zero is left alone. -/
noncomputable def unitBy (N : List ℝ → ℝ) (x : List ℝ) : List ℝ :=
  if N x = 0 then x else x.map fun a => a / N x

/-- `m` is the largest value of the row. -/
def IsMax (x : List ℝ) (m : ℝ) : Prop := m ∈ x ∧ ∀ a ∈ x, a ≤ m

end PurePredict.Spec
