/-
The Python substrate: exceptions, indexing, dictionaries, built-in list helpers.
Nothing here models a line of the repository; it models the Python built-ins the
repository calls (list indexing, dict, zip, ...).  See DESIGN.md, "trusted base".
-/
namespace PurePredict

/-- Python exception classes that the modelled code can raise.  Messages are not modelled. -/
inductive PyErr
  | valueError | typeError | indexError | keyError | attributeError
  | zeroDivisionError | nameError | overflowError | notImplementedError
  | assertionError
  | exception            -- a bare `raise Exception(...)`
  | nonTermination       -- marker: the Python loop would never exit (see `Model/Tree.lean`)
  deriving DecidableEq, Repr

/-- A Python computation that returns a value or raises. -/
abbrev Py (α : Type) := Except PyErr α

/-- `l[i]` on a Python list, with negative indices counted from the end. -/
def pyGet {α : Type} (l : List α) (i : Int) : Py α :=
  let j : Int := if i < 0 then i + l.length else i
  if j < 0 then .error .indexError
  else match l[j.toNat]? with
    | some a => .ok a
    | none => .error .indexError

/-- `l[i:j]` on a Python list for non-negative bounds. -/
def pySlice {α : Type} (l : List α) (i j : Nat) : List α := (l.drop i).take (j - i)

/-- `min(len(r) for r in A)` (0 for an empty `A`): the number of tuples `zip(*A)` produces. -/
def minLen {α : Type} : List (List α) → Nat
  | [] => 0
  | [r] => r.length
  | r :: rs => min r.length (minLen rs)

/-- `list(map(list, zip(*A)))`: column `j` of the result holds the `j`-th element of each row;
stops at the shortest row. -/
def zipStar {α : Type} (A : List (List α)) : List (List α) :=
  (List.range (minLen A)).map fun j => A.filterMap fun r => r[j]?

/-- A Python `dict`: insertion-ordered association list (keys unique in every dict built by
`Dict.set`/`Dict.ofList`, see `Dict.WF`). -/
abbrev Dict (κ α : Type) := List (κ × α)

namespace Dict
variable {κ α β : Type} [BEq κ]

/-- `d.get(k)` -/
def get? (d : Dict κ α) (k : κ) : Option α := List.lookup k d

/-- `d[k] = v`: overwrite in place if present, otherwise append. -/
def set : Dict κ α → κ → α → Dict κ α
  | [], k, v => [(k, v)]
  | (k', v') :: d, k, v => if k' == k then (k', v) :: d else (k', v') :: set d k v

/-- `dict(pairs)` (also a dict comprehension): later pairs overwrite earlier ones. -/
def ofList (l : List (κ × α)) : Dict κ α := l.foldl (fun d p => set d p.1 p.2) []

/-- `d[k]` -/
def getItem (d : Dict κ α) (k : κ) : Py α :=
  match get? d k with
  | some v => .ok v
  | none => .error .keyError

/-- `d.keys()` -/
def keys (d : Dict κ α) : List κ := d.map (·.1)

/-- `d.values()` -/
def values (d : Dict κ α) : List α := d.map (·.2)

/-- `k in d` -/
def contains (d : Dict κ α) (k : κ) : Bool := (get? d k).isSome

/-- `{k: f(v) for k, v in d.items()}` -/
def mapVals (f : α → β) (d : Dict κ α) : Dict κ β := d.map fun p => (p.1, f p.2)

end Dict

/-- The Python data types that occur as `dtype`. -/
inductive DType | int | float | bool
  deriving DecidableEq, Repr

end PurePredict
