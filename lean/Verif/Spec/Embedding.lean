import Verif.Spec.Text
import Mathlib.Data.Real.Basic
/-
Specification of fastText word and sentence vectors.
-/
namespace PurePredict.Spec

/-- The mean of a list of vectors of length `dim`. -/
noncomputable def meanVec (dim : Nat) (vs : List (List ℝ)) : List ℝ :=
  (List.range dim).map fun j => (vs.map fun v => v.getD j 0).sum / vs.length

/-- The row of the embedding matrix `W` of a word of the vocabulary `V` (zero vector if unknown). -/
def wordVec (V : List (List Char)) (W : List (List ℝ)) (dim : Nat) (w : List Char) : List ℝ :=
  if w ∈ V then W.getD (V.idxOf w) [] else List.replicate dim 0

end PurePredict.Spec
