import Verif.Py.Arith
/-
Array-like Python objects handed to estimators, and `pure_sklearn/utils.py`.
-/
namespace PurePredict

/-- One element of the outer list: a list, a dict, or a bare number. -/
inductive Row (F : Type)
  | list (xs : List F)
  | dict (d : Dict Int F)
  | scalar (x : F)

/-- An object passed as `X`: a plain `list` of rows, a `sparse_list` (rows, `.size`, `.dtype`),
the `ValueError` *instance* that `check_array` returns (sic) for empty input, or any other
non-list object. -/
inductive Arr (F : Type)
  | list (rows : List (Row F))
  | sparse (rows : List (Dict Int F)) (size : Option Nat) (dtype : DType)
  | errObj
  | other

namespace Row
variable {F : Type}

/-- `len(x)` -/
def len : Row F → Py Nat
  | list xs => .ok xs.length
  | dict d => .ok d.length
  | scalar _ => .error .typeError

/-- `x[i]` -/
def getItem : Row F → Int → Py F
  | list xs, i => pyGet xs i
  | dict d, i => d.getItem i
  | scalar _, _ => .error .typeError

/-- `iter(x)`: a list yields its elements, a dict its keys. -/
def iter [Arith F] : Row F → Py (List F)
  | list xs => .ok xs
  | dict d => .ok (d.map fun p => ofInt p.1)
  | scalar _ => .error .typeError

end Row

namespace Arr
variable {F : Type}

/-- A dense 2-D list. -/
def ofMat (M : List (List F)) : Arr F := .list (M.map Row.list)

/-- `isinstance(A, sparse_list)`; utils.py:134-136 -/
def issparse : Arr F → Bool
  | sparse _ _ _ => true
  | _ => false

/-- Iterating `for x in X`.  An exception object (or other non-iterable) raises TypeError. -/
def rows : Arr F → Py (List (Row F))
  | list rs => .ok rs
  | sparse rs _ _ => .ok (rs.map Row.dict)
  | errObj => .error .typeError
  | other => .error .typeError

/-- `len(X)` -/
def len (X : Arr F) : Py Nat := do return (← X.rows).length

/-- `X[0]` -/
def first (X : Arr F) : Py (Row F) := do
  match ← X.rows with
  | [] => .error .indexError
  | r :: _ => .ok r

/-- utils.py:116-121 `ndim` -/
def ndim (X : Arr F) : Py Nat := do
  match ← X.first with
  | .list _ => return 2
  | .dict _ => return 2
  | .scalar _ => return 1

end Arr

/-- Result of `shape`: a 1-tuple or a 2-tuple (the second entry is `None` for a `sparse_list`
built without `size`). -/
inductive Shape
  | d1 (n : Nat)
  | d2 (n : Nat) (m : Option Nat)
  deriving DecidableEq, Repr

namespace Arr
variable {F : Type}

/-- utils.py:101-113 `shape` -/
def shape (X : Arr F) : Py Shape := do
  if (← X.ndim) == 1 then
    return .d1 (← X.len)
  else
    match X with
    | sparse rs size _ => return .d2 rs.length size
    | _ => return .d2 (← X.len) (some (← (← X.first).len))

/-- `shape(X)[1]`: IndexError for a 1-D list. -/
def width (X : Arr F) : Py (Option Nat) := do
  match ← X.shape with
  | .d1 _ => .error .indexError
  | .d2 _ m => return m

end Arr

/-- Values of the `handle_sparse` argument of `check_array`; anything but the two accepted
strings is `bad`. -/
inductive HandleSparse | allow | error | bad
  deriving DecidableEq, Repr

/-- utils.py:76-98 `check_array`.  Line 97 *returns* a `ValueError` object instead of raising. -/
def checkArray {F : Type} (X : Arr F) (h : HandleSparse := .error) : Py (Arr F) :=
  match X with
  | .sparse rs size dt =>
    match h with
    | .allow => .ok (.sparse rs size dt)
    | .error => .error .valueError
    | .bad => .error .valueError
  | .list rs => if rs.length = 0 then .ok .errObj else .ok (.list rs)
  | .errObj => .error .typeError
  | .other => .error .typeError

section sparse
variable {F : Type} [Arith F]

/-- utils.py:174-175: `dict([(i, row[i]) for i in range(self.size) if row[i] != 0])` -/
def sparsifyRow (size : Nat) (row : Row F) : Py (Dict Int F) := do
  let items ← (List.range size).mapM fun (i : Nat) => do
    let v ← row.getItem (i : Int)
    return (if v ==ₚ ofInt 0 then none else some ((i : Int), v))
  return Dict.ofList (items.filterMap id)

/-- Interpret rows as dicts (the caller has checked that the first one is; a `sparse_list` built
from mixed rows is not modelled and raises TypeError here). -/
def asDicts (rs : List (Row F)) : Py (List (Dict Int F)) :=
  rs.mapM fun r => match r with
    | .dict d => .ok d
    | _ => .error .typeError

/-- utils.py:163-176 `sparse_list.__init__(A, size=None, dtype=None)`.
The dict-rows branch stores `size`/`dtype` (default float) as given. -/
def sparseList (A : Arr F) (size : Option Nat := none) (dtype : Option DType := none) :
    Py (Arr F) := do
  match ← A.first with
  | .dict _ =>
    let ds ← asDicts (← A.rows)
    return .sparse ds size (dtype.getD .float)
  | _ =>
    let A ← checkArray A
    let w ← A.width
    let w ← match w with
      | some n => pure n
      | none => Except.error PyErr.typeError
    let x00 ← (← A.first).getItem 0
    let ds ← (← A.rows).mapM (sparsifyRow w)
    return .sparse ds (some w) (Arith.typeOf x00)

/-- utils.py:124-126 `tosparse` -/
def tosparse (A : Arr F) : Py (Arr F) := sparseList A

/-- utils.py:178-184 `sparse_list.todense` and 129-131 `todense`; `range(None)` is a TypeError,
other objects have no `todense` attribute. -/
def todense (A : Arr F) : Py (Arr F) :=
  match A with
  | .sparse rs size dt => do
    let zero ← castTo dt (ofInt 0 : F)
    match size with
    | none => if rs.isEmpty then return .ofMat [] else .error .typeError
    | some n =>
      return .ofMat (rs.map fun row => (List.range n).map fun (i : Nat) =>
        (row.get? (i : Int)).getD zero)
  | _ => .error .attributeError

end sparse
end PurePredict
