import Verif.Py.Arr
/-
Model of `pure_sklearn/base.py`.
-/
namespace PurePredict
variable {F : Type} [Arith F]

/-- base.py:96-101 `safe_exp` -/
def safeExp (x : F) : Py F :=
  match Arith.exp x with
  | .error .overflowError => .ok Arith.pinf
  | r => r

/-- base.py:86-93 `safe_log` -/
def safeLog (x : F) : Py F :=
  if x ==ₚ ofInt 0 then .ok Arith.ninf
  else if x <ₚ ofInt 0 then .ok Arith.nan
  else Arith.log x

/-- base.py:69-71 `expit` -/
def expit (x : F) : Py F := do
  ofInt 1 /ₚ (ofInt 1 +ₚ (← safeExp (Arith.neg x)))

/-- base.py:80-82 `sfmax` on a list -/
def sfmax (arr : List F) : Py (List F) := do
  let expons ← arr.mapM safeExp
  expons.mapM fun x => x /ₚ pySum expons

/-- base.py:76-79 `sfmax` on a dict -/
def sfmaxDict (arr : Dict Int F) : Py (Dict Int F) := do
  let expons ← arr.mapM fun p => do return (p.1, ← safeExp p.2)
  let denom := pySum (Dict.values expons)
  expons.mapM fun p => do return (p.1, ← p.2 /ₚ denom)

/-- base.py:20 `sum([v * B[i][k] for k, v in A.items()])` -/
def dotDict (a : Dict Int F) (b : List F) : Py F := do
  let terms ← a.mapM fun p => do return p.2 *ₚ (← pyGet b p.1)
  return pySum terms

/-- base.py:22 `sum(map(mul, A, B[i]))`: stops at the shorter list -/
def dotList (a b : List F) : F := pySum (List.zipWith Arith.mul a b)

/-- base.py:11-24 `dot`.  A bare number as `A` is not iterable (TypeError). -/
def dot (A : Row F) (B : List (List F)) : Py (List F) :=
  B.mapM fun b => match A with
    | .dict a => dotDict a b
    | .list a => .ok (dotList a b)
    | .scalar _ => .error .typeError

/-- base.py:27-33 `dot_2d` -/
def dot2d (A : Arr F) (B : List (List F)) : Py (List (List F)) := do
  (← A.rows).mapM fun a => dot a B

/-- base.py:53-57: one row of the sparse product -/
def mulDicts (a b : Dict Int F) : Dict Int F :=
  Dict.ofList (a.flatMap fun pa =>
    (b.filter fun pb => pb.1 == pa.1).map fun pb => (pb.1, pa.2 *ₚ pb.2))

/-- base.py:50: one row of the dense product -/
def mulRows (w : Nat) (a b : Row F) : Py (List F) :=
  (List.range w).mapM fun (j : Nat) => do
    return (← a.getItem (j : Int)) *ₚ (← b.getItem (j : Int))

/-- base.py:36-59 `matmult_same_dim` -/
def matmultSameDim (A B : Arr F) : Py (Arr F) := do
  let shA ← A.shape
  let shB ← B.shape
  if shA != shB then .error .valueError
  else if A.issparse != B.issparse then .error .valueError
  else match A, B with
    | .sparse ra size dt, .sparse rb _ _ =>
      sparseList (.list ((List.zipWith mulDicts ra rb).map Row.dict)) size (some dt)
    | _, _ =>
      match shA with
      | .d1 _ => .error .indexError
      | .d2 _ none => .error .typeError
      | .d2 _ (some w) =>
        let rs ← (List.zip (← A.rows) (← B.rows)).mapM fun p => mulRows w p.1 p.2
        return .ofMat rs

/-- base.py:62-66 `transpose` -/
def transpose (A : Arr F) : Py (List (List F)) := do
  if A.issparse then .error .valueError
  else
    let rs ← (← A.rows).mapM Row.iter
    return zipStar rs

/-- base.py:104-110 `operate_2d` -/
def operate2d (A B : Arr F) (f : F → F → F) : Py (List (List F)) := do
  if A.issparse || B.issparse then .error .valueError
  else
    let shA ← A.shape
    let shB ← B.shape
    if shA != shB then .error .valueError
    else
      (List.zip (← A.rows) (← B.rows)).mapM fun p => do
        return List.zipWith f (← p.1.iter) (← p.2.iter)

/-- base.py:113-117 `apply_2d` -/
def apply2d {G : Type} (A : Arr F) (f : F → Py G) : Py (List (List G)) := do
  if A.issparse then .error .valueError
  else (← A.rows).mapM fun a => do (← a.iter).mapM f

/-- base.py:120-125 `apply_2d_sparse` -/
def apply2dSparse (A : Arr F) (f : F → Py F) : Py (Arr F) :=
  match A with
  | .sparse rs size dt => do
    let rs' ← rs.mapM fun a => a.mapM fun p => do return (p.1, ← f p.2)
    sparseList (.list (rs'.map Row.dict)) size (some dt)
  | _ => .error .valueError

/-- base.py:128-143 `apply_axis_2d` -/
def applyAxis2d {G : Type} (A : Arr F) (f : List F → Py G) (axis : Int := 1) : Py (List G) := do
  if A.issparse && axis == 0 then .error .valueError
  else if axis == 1 then
    match A with
    | .sparse rs _ _ => rs.mapM fun a => f a.values
    | _ => (← A.rows).mapM fun a => do f (← a.iter)
  else if axis == 0 then (← transpose A).mapM f
  else .error .valueError

/-- base.py:146-150 `ravel` -/
def ravel (A : Arr F) : Py (List F) := do
  if A.issparse then .error .valueError
  else pyGet (← transpose A) 0

/-- base.py:155-159 `slice_column` with an `int` index -/
def sliceColumn (A : Arr F) (idx : Int) : Py (List F) :=
  match A with
  | .sparse rs _ dt => do
    let z ← castTo dt (ofInt 0 : F)
    return rs.map fun a => (a.get? idx).getD z
  | _ => do (← A.rows).mapM fun a => a.getItem idx

/-- base.py:160-165 `slice_column` with a list of indices -/
def sliceColumns (A : Arr F) (idx : List Int) : Py (Arr F) :=
  match A with
  | .sparse rs size dt =>
    sparseList (.list (rs.map fun a => Row.dict (a.filter fun p => idx.contains p.1)))
      size (some dt)
  | _ => do
    let rs ← (← A.rows).mapM fun a => idx.mapM fun i => a.getItem i
    return .ofMat rs

/-- base.py:168-173 `accumu`, from a running total -/
def accumuFrom (total : Nat) : List Nat → List Nat
  | [] => []
  | x :: xs => (total + x) :: accumuFrom (total + x) xs

/-- base.py:168-173 `accumu` (used on lists of sizes only) -/
def accumu (l : List Nat) : List Nat := accumuFrom 0 l

end PurePredict
