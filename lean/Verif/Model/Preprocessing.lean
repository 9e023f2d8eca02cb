import Verif.Model.Base
/-
Model of `pure_sklearn/preprocessing/_data.py`.
-/
namespace PurePredict
variable {F : Type} [Arith F]

/-- preprocessing/_data.py:12-21 `_handle_zeros_in_scale` on a list -/
def handleZeros (scale : List F) : List F :=
  scale.map fun s => if s ==ₚ ofInt 0 then ofInt 1 else s

/-- preprocessing/_data.py:24-31 `_row_norms` -/
def rowNorms (X : Arr F) : Py (List F) := do
  let XX ← matmultSameDim X X
  let norms ← match XX with
    | .sparse rs _ _ => pure (rs.map fun x => pySum x.values)
    | _ => applyAxis2d XX (fun a => .ok (pySum a))
  norms.mapM Arith.sqrt

/-- The `norm` argument; `bad` stands for every other string. -/
inductive Norm | l1 | l2 | max | bad
  deriving DecidableEq, Repr

/-- preprocessing/_data.py:55-60: norms of a sparse matrix's rows -/
def sparseNorms (n : Norm) (X : Arr F) (rs : List (Dict Int F)) : Py (List F) :=
  match n with
  | .l1 => .ok (rs.map fun x => pySum (x.values.map Arith.abs))
  | .l2 => rowNorms X
  | .max => rs.mapM fun x => pyMax (x.values ++ [ofInt 0])
  | .bad => .error .valueError

/-- preprocessing/_data.py:68-73: norms of a dense matrix's rows -/
def denseNorms (n : Norm) (X : Arr F) : Py (List F) :=
  match n with
  | .l1 => do
    let A ← apply2d X (fun x => .ok (Arith.abs x))
    applyAxis2d (.ofMat A) (fun a => .ok (pySum a))
  | .l2 => rowNorms X
  | .max => applyAxis2d X pyMax
  | .bad => .error .valueError

/-- preprocessing/_data.py:48-78: normalise the rows; returns the matrix and the norms -/
def normalizeRows (X : Arr F) (n : Norm) : Py (Arr F × List F) :=
  match X with
  | .sparse rs size dt => do
    let norms := handleZeros (← sparseNorms n X rs)
    let rs' ← (List.zip rs norms).mapM fun p =>
      p.1.mapM fun kv => do return (kv.1, ← kv.2 /ₚ p.2)
    return (← sparseList (.list (rs'.map Row.dict)) size (some dt), norms)
  | _ => do
    let norms := handleZeros (← denseNorms n X)
    let rs' ← (List.zip (← X.rows) norms).mapM fun p => do
      (← p.1.iter).mapM fun a => a /ₚ p.2
    return (.ofMat rs', norms)

/-- preprocessing/_data.py:34-86 `normalize_pure` with the norms it may return (`copy` has no
effect).  `axis` is any integer. -/
def normalizePure' (X : Arr F) (n : Norm := .l2) (axis : Int := 1) (returnNorm : Bool := false) :
    Py (Arr F × List F) := do
  if axis == 0 && X.issparse then .error .valueError
  else if n = .bad then .error .valueError
  else if !(axis == 0 || axis == 1) then .error .valueError
  else
    let X ← checkArray X .allow
    let X ← if axis == 0 then do pure (Arr.ofMat (← transpose X)) else pure X
    if X.issparse && returnNorm && (n = .l1 || n = .l2) then .error .notImplementedError
    else
      let (Y, norms) ← normalizeRows X n
      let Y ← if axis == 0 then do pure (Arr.ofMat (← transpose Y)) else pure Y
      return (Y, norms)

/-- `normalize_pure(X, norm, axis)` with `return_norm=False` -/
def normalizePure (X : Arr F) (n : Norm := .l2) (axis : Int := 1) : Py (Arr F) := do
  return (← normalizePure' X n axis).1

/-- preprocessing/_data.py:103-107 `NormalizerPure.transform` -/
def normalizerTransform (n : Norm) (X : Arr F) : Py (Arr F) := do
  normalizePure (← checkArray X .allow) n 1

/-- preprocessing/_data.py:118-130 -/
structure StandardScaler (F : Type) where
  withMean : Bool
  withStd : Bool
  scale : Option (List F)
  mean : Option (List F)

/-- `self.attr` used as a sequence when it may be `None` (TypeError). -/
def notNone {α : Type} (o : Option α) : Py α :=
  match o with
  | some a => .ok a
  | none => .error .typeError

/-- `[{k: (v / self.scale_[k]) for k, v in x.items()} for x in X]`
(preprocessing/_data.py:143, 215) -/
def scaleDicts (scale : Option (List F)) (rs : List (Dict Int F)) : Py (List (Dict Int F)) :=
  rs.mapM fun x => x.mapM fun kv => do
    return (kv.1, ← kv.2 /ₚ (← pyGet (← notNone scale) kv.1))

/-- `[[f(x[i], p[i]) for i in range(len(p))] for x in X]` (preprocessing/_data.py:147, 149-151,
218): columns beyond `len(p)` are dropped, missing ones raise IndexError. -/
def columnwise (p : List F) (f : F → F → Py F) (rs : List (Row F)) : Py (List (Row F)) :=
  rs.mapM fun x => do
    return .list (← (List.range p.length).mapM fun (i : Nat) => do
      f (← x.getItem (i : Int)) (← pyGet p (i : Int)))

/-- preprocessing/_data.py:132-152 `StandardScalerPure.transform`.  The exception object `check_array`
makes of an empty list is returned as it is when there is nothing to do. -/
def StandardScaler.transform (s : StandardScaler F) (X : Arr F) : Py (Arr F) := do
  match ← checkArray X .allow with
  | .sparse rs size dt =>
    if s.withMean then .error .valueError
    else match s.scale with
      | some sc => sparseList (.list ((← scaleDicts (some sc) rs).map Row.dict)) size (some dt)
      | none => return .sparse rs size dt
  | .errObj => if s.withMean || s.withStd then .error .typeError else return .errObj
  | X =>
    let rs ← X.rows
    let rs ← if s.withMean then
        columnwise (← notNone s.mean) (fun a b => .ok (a -ₚ b)) rs else pure rs
    let rs ← if s.withStd then columnwise (← notNone s.scale) Arith.div rs else pure rs
    return .list rs

/-- preprocessing/_data.py:163-174 -/
structure MinMaxScaler (F : Type) where
  scale : Option (List F)
  min : Option (List F)

/-- preprocessing/_data.py:176-187 `MinMaxScalerPure.transform` -/
def MinMaxScaler.transform (s : MinMaxScaler F) (X : Arr F) : Py (Arr F) := do
  if X.issparse then .error .typeError
  else
    let X ← checkArray X
    let rs ← (← X.rows).mapM fun x => do
      let sc ← notNone s.scale
      (List.range sc.length).mapM fun (i : Nat) => do
        return ((← x.getItem (i : Int)) *ₚ (← pyGet sc (i : Int)))
          +ₚ (← pyGet (← notNone s.min) (i : Int))
    return .ofMat rs

/-- preprocessing/_data.py:198-209 -/
structure MaxAbsScaler (F : Type) where
  scale : Option (List F)
  maxAbs : Option (List F)

/-- preprocessing/_data.py:211-219 `MaxAbsScalerPure.transform` -/
def MaxAbsScaler.transform (s : MaxAbsScaler F) (X : Arr F) : Py (Arr F) := do
  match ← checkArray X .allow with
  | .sparse rs size dt =>
    sparseList (.list ((← scaleDicts s.scale rs).map Row.dict)) size (some dt)
  | X =>
    let sc ← notNone s.scale
    return .list (← columnwise sc Arith.div (← X.rows))

end PurePredict
