import Verif.Model.Base
/-
Model of `pure_sklearn/pipeline.py`.
-/
namespace PurePredict

/-- A converted estimator as the pipeline sees it: the methods it has (`none` = attribute absent).
`D` is the type of data objects passed between steps, `L` of labels, `P` of probabilities. -/
structure Est (D L P : Type) where
  transform : Option (D → Py D)
  predict : Option (D → Py L)
  predictProba : Option (D → Py P)
  predictLogProba : Option (D → Py P)

/-- pipeline.py:75-81: steps by name; `none` stands for `None`/`"passthrough"` (which conversion
cannot produce: map.py:51-55 has no entry for them, but `_iter` filters them). -/
structure Pipeline (D L P : Type) where
  steps : List (String × Option (Est D L P))

namespace Pipeline
variable {D L P : Type}

/-- pipeline.py:107-108, 115-116, 123-124, 140-141: apply the `transform` of each step that is
not None/passthrough; a step without `transform` raises AttributeError when reached. -/
def applyAll : List (String × Option (Est D L P)) → D → Py D
  | [], x => .ok x
  | (_, none) :: ss, x => applyAll ss x
  | (_, some e) :: ss, x =>
    match e.transform with
    | none => .error .attributeError
    | some f => do applyAll ss (← f x)

/-- `_iter(with_final=False)` (pipeline.py:83-97): all steps but the last -/
def front (p : Pipeline D L P) : List (String × Option (Est D L P)) := p.steps.dropLast

/-- pipeline.py:148-151 `_final_estimator` (`none` = the string "passthrough"); IndexError for an
empty pipeline -/
def finalEstimator (p : Pipeline D L P) : Py (Option (Est D L P)) :=
  match p.steps.getLast? with
  | none => .error .indexError
  | some s => .ok s.2

/-- pipeline.py:33-48: reading `self.<method>` first evaluates the final estimator's attribute
(AttributeError when absent; the string "passthrough" has none of the methods).  For a pipeline
without steps `_final_estimator` raises IndexError, which `attrgetter` passes on. -/
def delegated {R : Type} (p : Pipeline D L P) (m : Est D L P → Option (D → Py R)) :
    Py (D → Py R) := do
  match ← p.finalEstimator with
  | none => .error .attributeError
  | some e => match m e with
    | none => .error .attributeError
    | some f => return f

/-- pipeline.py:103-109 `predict` (attribute access, then call) -/
def predict (p : Pipeline D L P) (X : D) : Py L := do
  let f ← p.delegated Est.predict
  f (← applyAll p.front X)

/-- pipeline.py:111-117 -/
def predictProba (p : Pipeline D L P) (X : D) : Py P := do
  let f ← p.delegated Est.predictProba
  f (← applyAll p.front X)

/-- pipeline.py:119-125 -/
def predictLogProba (p : Pipeline D L P) (X : D) : Py P := do
  let f ← p.delegated Est.predictLogProba
  f (← applyAll p.front X)

/-- pipeline.py:127-142 `transform`: a property that touches the final estimator's `transform`
unless it is "passthrough", then `_transform` -/
def transform (p : Pipeline D L P) (X : D) : Py D := do
  match ← p.finalEstimator with
  | some e => if e.transform.isNone then .error .attributeError else applyAll p.steps X
  | none => applyAll p.steps X

/-- A pipeline as a step of another pipeline: which attributes it has (pipeline.py:33-48, 127-137:
reading one evaluates the attribute of the final estimator), and what they do.  A pipeline without
steps raises IndexError instead of AttributeError on access; it is given no methods here. -/
def asEst (p : Pipeline D L P) : Est D L P where
  transform := match p.finalEstimator with
    | .ok (some e) => if e.transform.isNone then none else some p.transform
    | .ok none => some p.transform
    | .error _ => none
  predict := match p.delegated Est.predict with
    | .ok _ => some p.predict
    | .error _ => none
  predictProba := match p.delegated Est.predictProba with
    | .ok _ => some p.predictProba
    | .error _ => none
  predictLogProba := match p.delegated Est.predictLogProba with
    | .ok _ => some p.predictLogProba
    | .error _ => none

end Pipeline

/-! ### FeatureUnion -/
variable {F : Type} [Arith F]

/-- pipeline.py:162-176 on numeric requests; each transformer has a `transform`.
`weights = none` when `transformer_weights` is None. -/
structure FeatureUnion (F : Type) where
  transformers : List (String × (Arr F → Py (Arr F)))
  weights : Option (Dict String F)

/-- pipeline.py:59-64 `_transform_one` -/
def transformOne {D : Type} (t : D → Py (Arr F)) (X : D) (weight : Option F) : Py (Arr F) := do
  let res ← t X
  match weight with
  | none => return res
  | some w => return .ofMat (← apply2d res fun x => .ok (x *ₚ w))

/-- pipeline.py:209: shift the keys of one block's row -/
def shiftKeys (start : Nat) (d : Dict Int F) : Dict Int F :=
  Dict.ofList (d.map fun kv => (kv.1 + (start : Int), kv.2))

/-- A block of the union as a `sparse_list` (pipeline.py:200). -/
def toBlock (X : Arr F) : Py (List (Dict Int F) × Nat) := do
  let s ← if X.issparse then pure X else tosparse X
  match s with
  | .sparse rs (some n) _ => return (rs, n)
  | _ => .error .typeError

/-- pipeline.py:207-213: one row of the sparse union: concatenate the shifted items of the blocks
(`reduce(add, …)`), then `dict(...)` -/
def unionRow (blocks : List (List (Dict Int F) × Nat)) (starts : List Nat) (index : Nat) :
    Py (Dict Int F) := do
  let parts ← (List.zip blocks starts).mapM fun p => do
    return shiftKeys p.2 (← pyGet p.1.1 (index : Int))
  return Dict.ofList parts.flatten

/-- A row as an operand of `add` next to other rows (pipeline.py:217): only lists. -/
def Row.asList : Row F → Py (List F)
  | .list xs => .ok xs
  | _ => .error .typeError

/-- pipeline.py:216-218: one row of the dense union.  Adding anything but lists raises TypeError
(a single dict row would become the list of its keys). -/
def unionDenseRow (Xs : List (List (Row F))) (index : Nat) : Py (List F) := do
  let rs ← Xs.mapM fun X => pyGet X (index : Int)
  match rs with
  | [r] => r.iter
  | _ => do
    let ls ← rs.mapM Row.asList
    return ls.flatten

/-- pipeline.py:179: `(self.transformer_weights or {}).get(name)` -/
def FeatureUnion.weightOf (u : FeatureUnion F) (name : String) : Option F :=
  match u.weights with
  | none => none
  | some ws => ws.get? name

/-- pipeline.py:196-218: put the outputs `Xs` of the transformers side by side; `len` and `shape` are
those of the request.  Simplification: a block whose `size` is None raises TypeError (at
`accumu`/`sum`) before rows are concatenated. -/
def unionOf (len : Py Nat) (shape : Py Shape) (Xs : List (Arr F)) : Py (Arr F) := do
  if Xs.isEmpty then
    match ← shape with
    | .d1 _ => .error .indexError
    | .d2 n (some w) => return .ofMat (List.replicate n (List.replicate w (ofInt 0)))
    | .d2 _ none => .error .typeError
  else if Xs.any Arr.issparse then
    let blocks ← Xs.mapM toBlock
    let sizes := blocks.map (·.2)
    let starts := 0 :: accumu sizes
    let rows ← (List.range (← len)).mapM fun (i : Nat) => unionRow blocks starts i
    sparseList (.list (rows.map Row.dict)) (some sizes.sum) (some .float)
  else
    let mats ← Xs.mapM Arr.rows
    let rows ← (List.range (← len)).mapM fun (i : Nat) => unionDenseRow mats i
    return .ofMat rows

/-- pipeline.py:186-218 `transform` -/
def FeatureUnion.transform (u : FeatureUnion F) (X : Arr F) : Py (Arr F) := do
  let X ← checkArray X .allow
  let Xs ← u.transformers.mapM fun t =>
    transformOne t.2 X (u.weightOf t.1)
  unionOf X.len X.shape Xs

/-- pipeline.py:162-176 on text requests: the transformers take lists of documents. -/
structure TextUnion (F : Type) where
  transformers : List (String × (List (List Char) → Py (Arr F)))
  weights : Option (Dict String F)

/-- pipeline.py:179 -/
def TextUnion.weightOf (u : TextUnion F) (name : String) : Option F :=
  match u.weights with
  | none => none
  | some ws => ws.get? name

/-- pipeline.py:186-218 `transform` on a list of documents: `check_array` accepts any list, `shape` is
`(len,)`.  For an empty list `check_array` returns an exception object, over which no transformer can
iterate: TypeError (transformers that refuse for another reason first are not distinguished). -/
def TextUnion.transform (u : TextUnion F) (docs : List (List Char)) : Py (Arr F) := do
  if docs.isEmpty then .error .typeError
  else do
    let Xs ← u.transformers.mapM fun t => transformOne t.2 docs (u.weightOf t.1)
    unionOf (.ok docs.length) (.ok (.d1 docs.length)) Xs

end PurePredict
