import Mathlib.Data.Real.Basic
/-
Specification of the scalers: what happens to the value `x` in column `j`.
-/
namespace PurePredict.Spec

/-- Standardisation. -/
noncomputable def stdEntry (withMean withStd : Bool) (mean scale : Nat → ℝ) (j : Nat) (x : ℝ) : ℝ :=
  (x - if withMean then mean j else 0) / if withStd then scale j else 1

/-- Min-max scaling. -/
noncomputable def minMaxEntry (scale min : Nat → ℝ) (j : Nat) (x : ℝ) : ℝ := x * scale j + min j

/-- Max-abs scaling. -/
noncomputable def maxAbsEntry (scale : Nat → ℝ) (j : Nat) (x : ℝ) : ℝ := x / scale j

/-- Apply a column function to every record of `w` columns. -/
def onColumns {α : Type} (d : α) (w : Nat) (f : Nat → α → α) (R : List (List α)) : List (List α) :=
  R.map fun x => (List.range w).map fun j => f j (x.getD j d)

end PurePredict.Spec
