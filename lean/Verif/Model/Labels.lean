import Verif.Model.Encoders
import Mathlib.Order.Defs.LinearOrder
/-
Model of `pure_sklearn/preprocessing/_label.py` on Python values: strings, numbers, `None` and objects that cannot be
hashed (lists, dicts).  Numbers are equal across int, float and bool (`1 == 1.0 == True`) but remain different objects.
NaN is not modelled.  A Python set is iterated in an order that nobody may rely on: it is a parameter.
-/
namespace PurePredict

/-- A value to encode: `S` are the contents of strings, `N` the values of numbers; `spelling` tells `1`, `1.0` and `True` apart. -/
inductive Lab (S N : Type)
  | str (s : S)
  | num (n : N) (spelling : Nat)
  | none
  | unhashable
  deriving DecidableEq

/-- What is compared in sets and dicts. -/
inductive LabKey (S N : Type)
  | str (s : S)
  | num (n : N)
  | none
  deriving DecidableEq

variable {S N : Type} [LinearOrder S] [LinearOrder N]

/-- `hash(v)`, as far as sets and dicts use it: TypeError for lists and dicts -/
def Lab.key : Lab S N → Py (LabKey S N)
  | .str s => .ok (.str s)
  | .num n _ => .ok (.num n)
  | .none => .ok .none
  | .unhashable => .error .typeError

/-- `a < b` on Python values: TypeError between a string and a number and for `None` -/
def Lab.less : Lab S N → Lab S N → Py Bool
  | .str a, .str b => .ok (decide (a < b))
  | .num a _, .num b _ => .ok (decide (a < b))
  | _, _ => .error .typeError

/-- `set(values)`: equal values once, the first one stays -/
def pySet (values : List (Lab S N)) : Py (List (Lab S N)) := do
  let ks ← values.mapM Lab.key
  return (ks.zip values).foldl (fun (acc : Dict (LabKey S N) (Lab S N)) p => if (acc.get? p.1).isSome then acc else acc ++ [p]) [] |>.map Prod.snd

/-- one step of sorting: `x` before the first element that is greater -/
def pyInsert (x : Lab S N) : List (Lab S N) → Py (List (Lab S N))
  | [] => .ok [x]
  | y :: ys => do
    if ← x.less y then return x :: y :: ys
    else return y :: (← pyInsert x ys)

/-- `sorted(l)`.  Simplified to insertion sort: on values that compare, the sorted list of different values does not depend
on the algorithm, and no algorithm sorts a list without comparing across kinds if several kinds occur. -/
def pySorted : List (Lab S N) → Py (List (Lab S N))
  | [] => .ok []
  | x :: xs => do pyInsert x (← pySorted xs)

/-- What the functions return: the uniques, or the uniques with the codes. -/
inductive Encoded (S N : Type)
  | uniques (u : List (Lab S N))
  | both (u : List (Lab S N)) (codes : List Nat)

/-- preprocessing/_label.py:8-9: the given uniques or `list(sorted(set(values)))`; `order` is the iteration order of the set -/
def labUniques (order : List (Lab S N) → List (Lab S N)) (values : List (Lab S N)) : Option (List (Lab S N)) → Py (List (Lab S N))
  | .none => do pySorted (order (← pySet values))
  | some u => .ok u

/-- preprocessing/_label.py:11-15: the table and the codes; KeyError becomes ValueError, TypeError stays -/
def labCodes (values u : List (Lab S N)) : Py (List Nat) := do
  let table ← u.mapM Lab.key
  values.mapM fun v => do
    match (encodeTable table).get? (← v.key) with
    | some i => .ok i
    | .none => .error .valueError

/-- preprocessing/_label.py:6-18 `_encode_python` -/
def encodePython (order : List (Lab S N) → List (Lab S N)) (values : List (Lab S N)) (uniques : Option (List (Lab S N))) (encode : Bool) :
    Py (Encoded S N) := do
  let u ← labUniques order values uniques
  if encode then return .both u (← labCodes values u)
  else return .uniques u

/-- preprocessing/_label.py:21-27 `_encode`: a TypeError is replaced by a TypeError with another text;
`check_unknown` is not read -/
def encodeLab (order : List (Lab S N) → List (Lab S N)) (values : List (Lab S N)) (uniques : Option (List (Lab S N)) := .none)
    (encode : Bool := false) (_checkUnknown : Bool := true) : Py (Encoded S N) :=
  match encodePython order values uniques encode with
  | .error .typeError => .error .typeError
  | r => r

/-- preprocessing/_label.py:30-41 `_encode_check_unknown`: the values that are not among the uniques (in the order of the
set), and with `return_mask` the mask -/
def encodeCheckUnknown (order : List (Lab S N) → List (Lab S N)) (values uniques : List (Lab S N)) (returnMask : Bool := false) :
    Py (List (Lab S N) × Option (List Bool)) := do
  let known ← uniques.mapM Lab.key
  let vs ← pySet values
  let ks ← vs.mapM Lab.key
  let diff := order (((ks.zip vs).filter fun p => !known.contains p.1).map Prod.snd)
  if returnMask then
    if diff.isEmpty then return (diff, some (values.map fun _ => true))
    else
      let mask ← values.mapM fun v => do return known.contains (← v.key)
      return (diff, some mask)
  else return (diff, .none)

end PurePredict
