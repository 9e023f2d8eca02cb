import Verif.Spec.Linear
import Mathlib.Analysis.SpecialFunctions.Log.Basic
import Mathlib.Analysis.SpecialFunctions.Trigonometric.Basic
/-
Specification of the joint log likelihoods of naive Bayes models.
-/
namespace PurePredict.Spec
open Finset

/-- log of the normal density with mean `μ` and variance `v`. -/
noncomputable def logNormal (x μ v : ℝ) : ℝ :=
  -(1 / 2) * Real.log (2 * Real.pi * v) - (x - μ) ^ 2 / (2 * v)

/-- Gaussian model: log prior plus the log densities of the `w` features. -/
noncomputable def gaussJll (w : Nat) (prior : Nat → ℝ) (θ σ : Nat → Nat → ℝ) (x : List ℝ)
    (c : Nat) : ℝ :=
  Real.log (prior c) + ∑ i ∈ range w, logNormal (x.getD i 0) (θ c i) (σ c i)

/-- Multinomial model: log prior plus counts times log probabilities. -/
noncomputable def multiJll (w : Nat) (lp : Nat → ℝ) (f : Nat → Nat → ℝ) (x : List ℝ) (c : Nat) : ℝ :=
  lp c + ∑ i ∈ range w, x.getD i 0 * f c i

/-- Complement model: weights; the prior is used only when there is a single class. -/
noncomputable def compJll (w k : Nat) (lp : Nat → ℝ) (f : Nat → Nat → ℝ) (x : List ℝ) (c : Nat) : ℝ :=
  ∑ i ∈ range w, x.getD i 0 * f c i + if k = 1 then lp c else 0

end PurePredict.Spec
