import Mathlib.Analysis.SpecialFunctions.Sqrt
/-
Specification of cosine similarity.
-/
namespace PurePredict.Spec

/-- Inner product. -/
def inner (x y : List ℝ) : ℝ := (List.zipWith (· * ·) x y).sum

/-- Euclidean length. -/
noncomputable def len2 (x : List ℝ) : ℝ := Real.sqrt (inner x x)

/-- Cosine of the angle between two vectors; 0 if one of them is zero. -/
noncomputable def cosine (x y : List ℝ) : ℝ :=
  if len2 x = 0 ∨ len2 y = 0 then 0 else inner x y / (len2 x * len2 y)

end PurePredict.Spec
