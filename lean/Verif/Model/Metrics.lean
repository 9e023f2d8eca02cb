import Verif.Model.Preprocessing
import Verif.Model.Ensemble
/-
Model of `pure_sklearn/metrics/pairwise.py`.
-/
namespace PurePredict
variable {F : Type} [Arith F]

/-- The second argument: `None`, the very same object as `X`, or another object. -/
inductive YArg (F : Type)
  | none
  | same
  | other (Y : Arr F)

/-- metrics/pairwise.py:32-33: `Y` after the default -/
def YArg.val (X : Arr F) : YArg F → Arr F
  | .none => X
  | .same => X
  | .other Y => Y

/-- `X is Y or Y is None` (metrics/pairwise.py:47, 60) -/
def YArg.isX : YArg F → Bool
  | .none => true
  | .same => true
  | .other _ => false

/-- The rows of the second factor of `dot_2d`, each a list (other rows: TypeError,
simplification). -/
def matRows (X : Arr F) : Py (List (List F)) := do
  (← X.rows).mapM fun r => match r with
    | .list xs => .ok xs
    | _ => .error .typeError

/-- metrics/pairwise.py:31-40 `_check_pairwise_arrays` -/
def checkPairwise (X : Arr F) (Y : YArg F) : Py (Arr F × Arr F) := do
  let Y := Y.val X
  if (← X.ndim) != 2 then .error .valueError
  else if (← Y.ndim) != 2 then .error .valueError
  else if (← X.width) != (← Y.width) then .error .valueError
  else if Y.issparse then .error .valueError
  else return (X, Y)

/-- metrics/pairwise.py:43-52 `cosine_similarity_pure` -/
def cosineSimilarity (X : Arr F) (Y : YArg F) : Py (List (List F)) := do
  let (X, Y') ← checkPairwise X Y
  let Xn ← normalizePure X
  let Yn ← if Y.isX then pure Xn else normalizePure Y'
  dot2d Xn (← matRows Yn)

/-- metrics/pairwise.py:23-28 `_set_diag` -/
def setDiag (S : List (List F)) (v : F) : List (List F) :=
  S.zipIdx.map fun p => p.1.zipIdx.map fun q => if p.2 = q.2 then v else q.1

/-- metrics/pairwise.py:55-62 `cosine_distances_pure` -/
def cosineDistances (X : Arr F) (Y : YArg F) : Py (List (List F)) := do
  let S ← cosineSimilarity X Y
  let S ← apply2d (.ofMat S) fun x =>
    .ok (clip (Arith.neg x +ₚ ofInt 1) (ofInt 0) (ofInt 2))
  return if Y.isX then setDiag S (ofInt 0) else S

/-- metrics/pairwise.py:65-68 `linear_kernel_pure` -/
def linearKernel (X : Arr F) (Y : YArg F) : Py (List (List F)) := do
  let (X, Y) ← checkPairwise X Y
  dot2d X (← matRows Y)

end PurePredict
