import Verif.Py.Core
/-
Abstract Python number arithmetic.  `Arith F` has operations only, no laws: a theorem stated
for every `[Arith F]` holds for IEEE doubles including NaN, infinities and rounding.
Python `int` and `float` numbers are both elements of `F` (the distinction is not modelled).
-/
namespace PurePredict

class Arith (F : Type) where
  /-- an `int` used as a number -/
  ofInt : Int → F
  /-- a float literal, e.g. `0.5`, `1.1920929e-07` -/
  ofRat : Int → Nat → F
  /-- `math.pi` -/
  pi : F
  /-- `float("NaN")` -/
  nan : F
  /-- `float("Inf")` -/
  pinf : F
  /-- `-float("Inf")` -/
  ninf : F
  add : F → F → F
  sub : F → F → F
  mul : F → F → F
  neg : F → F
  abs : F → F
  /-- `a / b`, raising ZeroDivisionError -/
  div : F → F → Py F
  /-- `a ** 2`, which (unlike `a * a`) raises OverflowError -/
  sq : F → Py F
  /-- `math.exp`, raising OverflowError -/
  exp : F → Py F
  /-- `math.log`, raising ValueError -/
  log : F → Py F
  /-- `math.sqrt`, raising ValueError -/
  sqrt : F → Py F
  /-- `int(a)` -/
  trunc : F → Py F
  /-- `a < b` -/
  lt : F → F → Bool
  /-- `a <= b` -/
  le : F → F → Bool
  /-- `a == b` -/
  eq : F → F → Bool
  /-- `math.isnan(a)` -/
  isnan : F → Bool
  /-- `type(a)` -/
  typeOf : F → DType

export Arith (ofInt ofRat)

section
variable {F : Type} [Arith F]

infixl:65 " +ₚ " => Arith.add
infixl:65 " -ₚ " => Arith.sub
infixl:70 " *ₚ " => Arith.mul
infixl:70 " /ₚ " => Arith.div
infix:50 " <ₚ " => Arith.lt
infix:50 " ≤ₚ " => Arith.le
infix:50 " ==ₚ " => Arith.eq

/-- `sum(l)`: left fold from the integer 0 (CPython < 3.12 semantics, no compensation). -/
def pySum (l : List F) : F := l.foldl Arith.add (ofInt 0)

/-- `float(b)` / arithmetic use of a Python bool. -/
def ofBool (b : Bool) : F := if b then ofInt 1 else ofInt 0

/-- `dtype(v)` -/
def castTo (d : DType) (v : F) : Py F :=
  match d with
  | .int => Arith.trunc v
  | .float => .ok v
  | .bool => .ok (ofBool !(v ==ₚ ofInt 0))

/-- Scan used by the built-in `max`: keep the current candidate (position and value) unless the
new element is strictly greater. -/
def maxScan : List F → Nat → (Nat × F) → (Nat × F)
  | [], _, best => best
  | x :: xs, pos, best => maxScan xs (pos + 1) (if best.2 <ₚ x then (pos, x) else best)

/-- `max(l)`: ValueError on an empty sequence.  Returns the position of the returned object too. -/
def pyMaxPos (l : List F) : Py (Nat × F) :=
  match l with
  | [] => .error .valueError
  | x :: xs => .ok (maxScan xs 1 (0, x))

/-- `max(l)` -/
def pyMax (l : List F) : Py F := do return (← pyMaxPos l).2

/-- `l.index(max(l))`.  `list.index` compares by identity first, then `==`; the object returned
by `max` is the one at position `j`, so the search stops at `j` at the latest (this matters only
for NaN, which is not `==` itself). -/
def argmax (l : List F) : Py Nat := do
  let (j, m) ← pyMaxPos l
  match (l.take j).findIdx? (fun x => x ==ₚ m) with
  | some i => return i
  | none => return j

end
end PurePredict
