import Verif.Spec.Ensemble
import Mathlib.Analysis.SpecialFunctions.Log.Basic
/-
Specification of gradient boosting: initial scores and the additive model.
-/
namespace PurePredict.Spec
open Finset

/-- The code's smallest probability, `1.1920929e-07`. -/
noncomputable def eps : ℝ := 11920929 / 100000000000000

/-- A probability moved into `[eps, 1 - eps]`. -/
noncomputable def clampP (p : ℝ) : ℝ := max eps (min p (1 - eps))

/-- Log-odds. -/
noncomputable def logit (p : ℝ) : ℝ := Real.log (p / (1 - p))

/-- The loss functions of a gradient boosting classifier. -/
inductive GBLoss
  | multinomial
  | binomial
  | exponential

/-- Initial score of class `c` from the init estimator's probabilities `q`. -/
noncomputable def initScore : GBLoss → (Nat → ℝ) → Nat → ℝ
  | .multinomial, q, c => Real.log (clampP (q c))
  | .binomial, q, _ => logit (clampP (q 1))
  | .exponential, q, _ => 1 / 2 * logit (clampP (q 1))

/-- The additive model: initial score plus learning rate times the sum over the stages. -/
noncomputable def boosted (init lr : ℝ) (S : Nat) (t : Nat → ℝ) : ℝ :=
  init + lr * ∑ s ∈ range S, t s

end PurePredict.Spec
