import Verif.Py.XR
/-
Python numbers: `int` (unbounded) and `float` with signed zeros, and the operators on them.  `XR` (Py/XR.lean) has neither
ints nor signed zeros; Props/C110.lean says what this means for the answers.

Simplifications: an int beyond the range of floats makes `+`, `-` and `*` with a float raise OverflowError; these operators are
total in `Arith`, so NaN stands for the exception here.  (`/`, `math.exp` and `math.sqrt` do raise.)  `math.isnan` of such an
int raises too; it is False here.  The literals 0.0, 1.0 and 2.0 of the code are the ints 0, 1 and 2 (`ofInt`): they only meet
floats, comparisons and `int / 1.0`; `float(v)` of `castTo` leaves an int as it is; and the `float` around the norms of
preprocessing/_data.py:63, 76 is left out, so an int is divided by an int norm, rounding once.
-/
namespace PurePredict
open scoped Classical

/-- A Python number: an int; a float other than the negative zero; the float `-0.0`. -/
inductive PyNum (fp : FP)
  | int (n : Int)
  | flt (x : XR fp)
  | negZero

namespace PyNum
variable {fp : FP}

/-- `isinstance(a, int)` -/
def isInt : PyNum fp → Bool
  | int _ => true
  | _ => false

/-- the number itself, exactly -/
def val : PyNum fp → XR fp
  | int n => .fin n
  | flt x => x
  | negZero => .fin 0

/-- the sign bit -/
noncomputable def isNeg : PyNum fp → Bool
  | int n => decide (n < 0)
  | flt (.fin r) => decide (r < 0)
  | flt .ninf => true
  | flt _ => false
  | negZero => true

/-- `float(a)`, or `none` for OverflowError ("int too large to convert to float") -/
noncomputable def toFloat? : PyNum fp → Option (XR fp)
  | int n => match (XR.round n : XR fp) with
    | .fin r => some (.fin r)
    | _ => none
  | flt x => some x
  | negZero => some (.fin 0)

/-- the operand of a float operation -/
noncomputable def toFloat (a : PyNum fp) : XR fp := (toFloat? a).getD .nan

/-- `float(a)` -/
noncomputable def asFloat (a : PyNum fp) : Py (XR fp) :=
  match toFloat? a with
  | some x => .ok x
  | none => .error .overflowError

/-- a float of this value; a zero gets the sign -/
noncomputable def signed (neg : Bool) (x : XR fp) : PyNum fp := if neg = true ∧ x = .fin 0 then negZero else flt x

noncomputable def add : PyNum fp → PyNum fp → PyNum fp
  | int n, int m => int (n + m)
  | a, b => signed (isNeg a && isNeg b) (XR.add (toFloat a) (toFloat b))

noncomputable def sub : PyNum fp → PyNum fp → PyNum fp
  | int n, int m => int (n - m)
  | a, b => signed (isNeg a && !isNeg b) (XR.sub (toFloat a) (toFloat b))

noncomputable def mul : PyNum fp → PyNum fp → PyNum fp
  | int n, int m => int (n * m)
  | a, b => signed (isNeg a != isNeg b) (XR.mul (toFloat a) (toFloat b))

/-- the quotient of two ints is rounded once -/
noncomputable def div : PyNum fp → PyNum fp → Py (PyNum fp)
  | int n, int m =>
    if m = 0 then .error .zeroDivisionError
    else match (XR.round ((n : ℝ) / m) : XR fp) with
      | .fin r => .ok (signed (decide (n < 0) != decide (m < 0)) (.fin r))
      | _ => .error .overflowError
  | a, b => do return signed (isNeg a != isNeg b) (← XR.div (← asFloat a) (← asFloat b))

noncomputable def neg : PyNum fp → PyNum fp
  | int n => int (-n)
  | flt x => if x = .fin 0 then negZero else flt x.neg
  | negZero => flt (.fin 0)

noncomputable def abs : PyNum fp → PyNum fp
  | int n => int |n|
  | flt x => flt x.abs
  | negZero => flt (.fin 0)

noncomputable def sq : PyNum fp → Py (PyNum fp)
  | int n => .ok (int (n * n))
  | a => do return flt (← XR.sq a.val)

noncomputable def exp (a : PyNum fp) : Py (PyNum fp) := do return flt (← XR.exp (← asFloat a))

/-- `math.log` takes ints of any size: one that does not fit in a float is not rounded first -/
noncomputable def log (a : PyNum fp) : Py (PyNum fp) := do return flt (← XR.log ((toFloat? a).getD a.val))

noncomputable def sqrt (a : PyNum fp) : Py (PyNum fp) := do return signed (isNeg a) (← XR.sqrt (← asFloat a))

noncomputable def trunc : PyNum fp → Py (PyNum fp)
  | int n => .ok (int n)
  | flt (.fin r) => .ok (int (if 0 ≤ r then ⌊r⌋ else ⌈r⌉))
  | flt .nan => .error .valueError
  | flt _ => .error .overflowError
  | negZero => .ok (int 0)

noncomputable instance : Arith (PyNum fp) where
  ofInt n := int n
  ofRat n d := signed (decide (n < 0)) (XR.round ((n : ℝ) / (d : ℝ)))
  pi := flt (XR.round Real.pi)
  nan := flt .nan
  pinf := flt .pinf
  ninf := flt .ninf
  add := add
  sub := sub
  mul := mul
  neg := neg
  abs := abs
  div := div
  sq := sq
  exp := exp
  log := log
  sqrt := sqrt
  trunc := trunc
  lt a b := XR.lt a.val b.val
  le a b := XR.le a.val b.val
  eq a b := XR.eq a.val b.val
  isnan a := XR.isnan a.val
  typeOf a := if a.isInt then .int else .float

end PyNum
end PurePredict
