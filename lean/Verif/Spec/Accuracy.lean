import Mathlib.Data.Real.Basic
import Mathlib.Algebra.BigOperators.Group.Finset.Basic
import Mathlib.Algebra.Order.Group.Abs
/-
Independent vocabulary for accuracy: how far a floating point result may be from the exact one.
-/
namespace PurePredict.Spec

/-- How far a computed linear score may be from the exact one when each rounding has relative error
`u` and absolute error `η` near zero: `w + 1` roundings relative to the sum of the magnitudes of the
terms, and `w` underflows. -/
noncomputable def scoreErr (u η : ℝ) (w : Nat) (W : List (List ℝ)) (b x : List ℝ) (c : Nat) : ℝ :=
  ((1 + u) ^ (w + 1) - 1) *
    (∑ i ∈ Finset.range w, |x.getD i 0 * (W.getD c []).getD i 0| + |b.getD c 0|) +
  (1 + u) ^ (w + 1) * (w * η)

/-- The same for IEEE double precision, in closed form: `w + 1` units of `2⁻⁵²` relative to the sum
of the magnitudes of the terms, and `w` of the smallest positive doubles. -/
noncomputable def scoreErr64 (w : Nat) (W : List (List ℝ)) (b x : List ℝ) (c : Nat) : ℝ :=
  (w + 1) * (2 : ℝ) ^ (-52 : ℤ) *
    (∑ i ∈ Finset.range w, |x.getD i 0 * (W.getD c []).getD i 0| + |b.getD c 0|) +
  w * (2 : ℝ) ^ (-1074 : ℤ)

/-- The terms of every score of every record add up to at most `2¹⁰⁰⁰` in magnitude. -/
def Moderate (w k : Nat) (W : List (List ℝ)) (b : List ℝ) (R : List (List ℝ)) : Prop :=
  ∀ x ∈ R, ∀ c < k,
    ∑ i ∈ Finset.range w, |x.getD i 0 * (W.getD c []).getD i 0| + |b.getD c 0| ≤ 2 ^ (1000 : ℤ)

/-- `v` is `x` up to `n` roundings to double precision relative to the magnitude `mag`, and `z` of
the smallest positive doubles. -/
def Within64 (n : Nat) (mag : ℝ) (z : Nat) (v x : ℝ) : Prop :=
  |v - x| ≤ n * (2 : ℝ) ^ (-52 : ℤ) * mag + z * (2 : ℝ) ^ (-1074 : ℤ)

/-- `NearDist k ε p`: `p` is `k` numbers in [0, 1] whose exact sum is within `ε` of 1. -/
def NearDist (k : Nat) (ε : ℝ) (p : List ℝ) : Prop :=
  p.length = k ∧ (∀ x ∈ p, 0 ≤ x ∧ x ≤ 1) ∧ |p.sum - 1| ≤ ε

/-- Scores whose exponentials neither overflow nor all vanish: none exceeds 600 and at least one is
not below -600. -/
def Tame (r : List ℝ) : Prop := (∀ x ∈ r, x ≤ 600) ∧ ∃ x ∈ r, -600 ≤ x

/-- `q` is the `k` numbers `p 0, …, p (k-1)`, each up to `ε`. -/
def Near (k : Nat) (ε : ℝ) (q : List ℝ) (p : Nat → ℝ) : Prop :=
  q.length = k ∧ ∀ c < k, |q.getD c 0 - p c| ≤ ε

end PurePredict.Spec
