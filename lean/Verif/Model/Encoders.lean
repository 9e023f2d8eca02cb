import Verif.Model.Base
/-
Model of `pure_sklearn/preprocessing/_encoders.py` and `_label.py`.
Category values are elements of a type `C` with decidable equality (Python `==`/hash equality on
strings and numbers; NaN categories are not modelled).
-/
namespace PurePredict
variable {F C : Type} [DecidableEq C]

/-- preprocessing/_label.py:11: `{val: i for i, val in enumerate(uniques)}` -/
def encodeTable (uniques : List C) : Dict C Nat :=
  Dict.ofList (uniques.zipIdx)

/-- preprocessing/_label.py:6-27 `_encode(values, uniques, encode=True)`: KeyError becomes
ValueError (line 14-15) -/
def encodeValues (values uniques : List C) : Py (List Nat) :=
  values.mapM fun v => match (encodeTable uniques).get? v with
    | some i => .ok i
    | none => .error .valueError

/-- preprocessing/_label.py:30-41 `_encode_check_unknown(..., return_mask=True)`: the mask
(`diff` is used for the error message only) -/
def checkUnknownMask (values uniques : List C) : List Bool :=
  if values.all (fun v => uniques.contains v) then values.map fun _ => true
  else values.map fun v => uniques.contains v

/-- Attributes of a fitted encoder; preprocessing/_encoders.py:23-33.  `handleUnknownError` is
`handle_unknown == "error"`. -/
structure Encoder (C : Type) where
  categories : List (List C)
  dtype : DType
  sparse : Bool
  handleUnknownError : Bool

/-- preprocessing/_encoders.py:29-30: `drop` is refused at construction -/
def Encoder.ofFitted (categories : List (List C)) (dtype : DType) (sparse : Bool)
    (handleUnknownError dropGiven : Bool) : Py (Encoder C) :=
  if dropGiven then .error .valueError
  else .ok { categories, dtype, sparse, handleUnknownError }

/-- preprocessing/_encoders.py:35-46 `_check_X`: columns, n_samples, n_features.  Unpacking the
shape of a 1-D list into two names raises ValueError. -/
def Encoder.checkX (X : Arr C) : Py (List (List C) × Nat × Nat) := do
  let X ← checkArray X
  match ← X.shape with
  | .d1 _ => .error .valueError
  | .d2 _ none => .error .typeError
  | .d2 n (some w) =>
    let rs ← X.rows
    let cols ← (List.range w).mapM fun (i : Nat) => rs.mapM fun r => r.getItem (i : Int)
    return (cols, n, w)

/-- preprocessing/_encoders.py:79-85 / 94-97: replace column `i` by `col`
(`[[col[j] if idx == i else M[j][idx] for idx in range(n_features)] for j in range(n_samples)]`) -/
def setColumn {α : Type} (M : List (List α)) (i nFeatures nSamples : Nat) (col : List α) :
    Py (List (List α)) :=
  (List.range nSamples).mapM fun (j : Nat) =>
    (List.range nFeatures).mapM fun (idx : Nat) =>
      if idx = i then pyGet col (j : Int) else do pyGet (← pyGet M (j : Int)) (idx : Int)

/-- preprocessing/_encoders.py:65-97: the loop over the features -/
def Encoder.transformLoop (e : Encoder C) (unknownIsError : Bool) (cols : List (List C))
    (nSamples nFeatures : Nat) : List Nat → List (List Nat) → List (List Bool) →
    Py (List (List Nat) × List (List Bool))
  | [], xi, xm => .ok (xi, xm)
  | i :: is, xInt, xMask => do
    let Xi ← pyGet cols (i : Int)
    let cats ← pyGet e.categories (i : Int)
    let mask := checkUnknownMask Xi cats
    let (Xi, xMask) ←
      if mask.all id then pure (Xi, xMask)
      else if unknownIsError then .error .valueError
      else do
        let xMask ← setColumn xMask i nFeatures nSamples mask
        let Xi ← (List.zip Xi mask).mapM fun p =>
          if p.2 then pure p.1 else pyGet cats 0
        pure (Xi, xMask)
    let encoded ← encodeValues Xi cats
    let xInt ← setColumn xInt i nFeatures nSamples encoded
    e.transformLoop unknownIsError cols nSamples nFeatures is xInt xMask

/-- preprocessing/_encoders.py:48-98 `_transform` -/
def Encoder.transform_ (e : Encoder C) (X : Arr C) (unknownIsError : Bool) :
    Py (List (List Nat) × List (List Bool)) := do
  let (cols, n, w) ← Encoder.checkX X
  if w ≠ e.categories.length then .error .valueError
  else
    e.transformLoop unknownIsError cols n w (List.range w)
      (List.replicate n (List.replicate w 0)) (List.replicate n (List.replicate w true))

/-- preprocessing/_encoders.py:109-112 `OrdinalEncoderPure.transform` -/
def Encoder.ordinal [Arith F] (e : Encoder C) (X : Arr C) : Py (List (List F)) := do
  let (xInt, _) ← e.transform_ X true
  let M : Arr F := .ofMat (xInt.map fun r => r.map fun (i : Nat) => ofInt (i : Int))
  apply2d M (castTo e.dtype)

/-- preprocessing/_encoders.py:131-137: the dict of one record.  The offset of feature `i` is
`n_values[i]` (not the cumulative `feature_indices[i]`). -/
def oneHotRow [Arith F] (nValues : List Nat) (one : F) (nFeatures : Nat) (xi : List Nat)
    (xm : List Bool) : Py (Dict Int F) := do
  let items ← (List.range nFeatures).mapM fun (i : Nat) => do
    if ← pyGet xm (i : Int) then
      return some (((← pyGet nValues (i : Int)) + (← pyGet xi (i : Int)) : Nat), one)
    else return none
  return Dict.ofList ((items.filterMap id).map fun p => ((p.1 : Int), p.2))

/-- preprocessing/_encoders.py:123-144 `OneHotEncoderPure.transform` -/
def Encoder.oneHot [Arith F] (e : Encoder C) (X : Arr C) : Py (Arr F) := do
  let (xInt, xMask) ← e.transform_ X e.handleUnknownError
  let nSamples := xInt.length
  let nFeatures := (xInt.headD []).length
  let nValues := 0 :: e.categories.map List.length
  let featureIndices := accumu nValues
  let one ← castTo e.dtype (ofInt 1 : F)
  let data ← (List.range nSamples).mapM fun (j : Nat) => do
    oneHotRow nValues one nFeatures (← pyGet xInt (j : Int)) (← pyGet xMask (j : Int))
  let out ← sparseList (.list (data.map Row.dict)) (some (featureIndices.getLastD 0))
    (some e.dtype)
  if !e.sparse then todense out else return out

end PurePredict
