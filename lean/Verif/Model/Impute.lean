import Verif.Model.Base
/-
Model of `pure_sklearn/impute/_base.py` (numeric data; a string `missing_values` makes
`math.isnan` raise TypeError and is not modelled).
-/
namespace PurePredict
variable {F : Type} [Arith F]

/-- impute/_base.py:11-15 `_to_impute` -/
def toImpute (val missing : F) : Bool :=
  if Arith.isnan missing then Arith.isnan val else val ==ₚ missing

/-- impute/_base.py:26-37; `missingOnly` is `features == "missing-only"` (the only other value
sklearn accepts is "all") -/
structure MissingIndicator (F : Type) where
  missingOnly : Bool
  features : List Nat
  nFeatures : Nat
  missing : F
  errorOnNew : Bool

/-- impute/_base.py:66, the mask of one row -/
def maskRow (missing : F) (r : Row F) : Py (List Bool) := do
  return (← r.iter).map fun x => toImpute x missing

/-- impute/_base.py:64-74 `_get_missing_features_info`.  For "missing-only" the second component
is the list of non-zero *counts* `n_missing` (sic), not of feature indices. -/
def MissingIndicator.info (m : MissingIndicator F) (X : Arr F) :
    Py (List (List Bool) × List Nat) := do
  if X.issparse then .error .valueError
  else
    let mask ← (← X.rows).mapM (maskRow m.missing)
    if m.missingOnly then
      let nMissing := (zipStar mask).map fun col => (col.filter id).length
      return (mask, nMissing.filter (· != 0))
    else
      match ← X.width with
      | some w => return (mask, List.range w)
      | none => .error .typeError

/-- impute/_base.py:39-62 `transform`; booleans are the numbers 0/1 -/
def MissingIndicator.transform (m : MissingIndicator F) (X : Arr F) : Py (List (List F)) := do
  let X ← checkArray X
  if (← X.width) != some m.nFeatures then .error .valueError
  else
    let (mask, feats) ← m.info X
    if m.missingOnly then
      if m.errorOnNew && feats.any (fun c => !m.features.contains c) then .error .valueError
      else if m.features.length < m.nFeatures then
        return mask.map fun a =>
          ((a.zipIdx.filter fun p => m.features.contains p.2).map fun p => ofBool p.1)
      else return mask.map fun a => a.map ofBool
    else return mask.map fun a => a.map ofBool

/-- impute/_base.py:85-101.  `indicator` is present when the fitted imputer has one; its
`error_on_new` is forced to False (line 100). -/
structure SimpleImputer (F : Type) where
  statistics : List F
  constant : Bool
  addIndicator : Bool
  missing : F
  indicator : Option (MissingIndicator F)

/-- impute/_base.py:98-100 -/
def SimpleImputer.ofFitted (statistics : List F) (constant addIndicator : Bool) (missing : F)
    (indicator : Option (MissingIndicator F)) : SimpleImputer F :=
  { statistics, constant, addIndicator, missing
    indicator := indicator.map fun i => { i with errorOnNew := false } }

/-- impute/_base.py:118-129 `_transform_indicator` -/
def SimpleImputer.transformIndicator (s : SimpleImputer F) (X : Arr F) :
    Py (Option (List (List F))) := do
  if s.addIndicator then
    match s.indicator with
    | none => .error .valueError
    | some i => return some (← i.transform X)
  else return none

/-- impute/_base.py:152-157: keep the positions not listed in `to_remove` -/
def dropIdx {α : Type} (toRemove : List Nat) (a : List α) : List α :=
  (a.zipIdx.filter fun p => !toRemove.contains p.2).map (·.1)

/-- impute/_base.py:161-166: impute one row -/
def imputeRow (stats : List F) (missing : F) (a : List F) : Py (List F) :=
  a.zipIdx.mapM fun p =>
    if !toImpute p.1 missing then .ok p.1 else pyGet stats (p.2 : Int)

/-- A row used through `len(a)` and `a[i]` for all `i < len(a)` (impute/_base.py:152, 166). -/
def Row.elems (r : Row F) : Py (List F) := do
  (List.range (← r.len)).mapM fun (i : Nat) => r.getItem (i : Int)

/-- impute/_base.py:131-167 `transform` -/
def SimpleImputer.transform (s : SimpleImputer F) (X : Arr F) : Py (Arr F) := do
  let X ← checkArray X
  let ind ← s.transformIndicator X
  let w ← X.width
  if s.statistics.isEmpty then .error .indexError
  else if w != some s.statistics.length then .error .valueError
  else
    let toRemove := if s.constant then [] else
      (s.statistics.zipIdx.filter fun p => Arith.isnan p.1).map (·.2)
    let rows ← (← X.rows).mapM Row.elems
    let rows := if toRemove.isEmpty then rows else rows.map (dropIdx toRemove)
    let stats := if toRemove.isEmpty then s.statistics else dropIdx toRemove s.statistics
    let imputed ← rows.mapM (imputeRow stats s.missing)
    if !s.addIndicator then return .ofMat imputed
    else match ind with
      | none => .error .valueError
      | some M => do
        let out ← imputed.zipIdx.mapM fun p => do return p.1 ++ (← pyGet M (p.2 : Int))
        return .ofMat out

end PurePredict
