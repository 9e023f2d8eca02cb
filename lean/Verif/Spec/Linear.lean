import Mathlib.Algebra.BigOperators.Group.Finset.Basic
import Mathlib.Data.Real.Basic
import Mathlib.Analysis.SpecialFunctions.Exp
/-
Specification of linear scores and of the link functions, over the reals.
-/
namespace PurePredict.Spec
open Finset

/-- Score of class `c`: inner product of the record with `coef_[c]` plus `intercept_[c]`. -/
noncomputable def linScore (w : Nat) (W : List (List ℝ)) (b : List ℝ) (x : List ℝ) (c : Nat) : ℝ :=
  ∑ i ∈ range w, x.getD i 0 * (W.getD c []).getD i 0 + b.getD c 0

/-- The logistic function. -/
noncomputable def sigmoid (x : ℝ) : ℝ := 1 / (1 + Real.exp (-x))

/-- The probabilities of the two classes of a binary logistic model with score `s`. -/
noncomputable def logisticPair (s : ℝ) (c : Nat) : ℝ := if c = 0 then 1 - sigmoid s else sigmoid s

/-- Softmax of `k` scores. -/
noncomputable def softmax (k : Nat) (s : Nat → ℝ) (c : Nat) : ℝ :=
  Real.exp (s c) / ∑ j ∈ range k, Real.exp (s j)

/-- One-vs-rest probabilities: normalised logistic functions. -/
noncomputable def ovr (k : Nat) (s : Nat → ℝ) (c : Nat) : ℝ :=
  sigmoid (s c) / ∑ j ∈ range k, sigmoid (s j)

/-- A list is a probability distribution over `k` classes. -/
def IsDist (k : Nat) (p : List ℝ) : Prop :=
  p.length = k ∧ (∀ x ∈ p, 0 ≤ x) ∧ p.sum = 1

end PurePredict.Spec
