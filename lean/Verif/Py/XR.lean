import Verif.Py.Arith
import Mathlib.Analysis.SpecialFunctions.Exp
import Mathlib.Analysis.SpecialFunctions.Log.Basic
import Mathlib.Analysis.SpecialFunctions.Trigonometric.Basic
import Mathlib.Data.EReal.Basic
import Mathlib.Algebra.Order.Round
/-
Extended-real instances of `Arith`: finite reals, +inf, -inf and NaN with IEEE-754 special value
rules and Python's exceptions, parameterised by a rounding.  Signed zeros are not modelled.
-/
namespace PurePredict
open scoped Classical

/-- A floating point format/library: how exact real results are rounded (`⊤`/`⊥` = overflow to
±inf), `math.exp` (`none` = OverflowError) and `math.log` on finite arguments. -/
structure FP where
  rnd : ℝ → EReal
  exp : ℝ → Option ℝ
  log : ℝ → ℝ

/-- Exact real arithmetic: no rounding, no overflow. -/
noncomputable def FP.exact : FP where
  rnd := fun r => (r : EReal)
  exp := fun r => some (Real.exp r)
  log := Real.log

/-- What the "rounded" theorems assume about the floating point arithmetic. -/
structure FP.Sound (fp : FP) : Prop where
  mono : Monotone fp.rnd
  zero : fp.rnd 0 = 0
  one : fp.rnd 1 = 1
  neg : ∀ x, fp.rnd (-x) = - fp.rnd x
  idem : ∀ x y : ℝ, fp.rnd x = (y : EReal) → fp.rnd y = (y : EReal)
  exp_rep : ∀ r v, fp.exp r = some v → 0 ≤ v ∧ fp.rnd v = (v : EReal)
  exp_zero : fp.exp 0 = some 1
  exp_nonpos : ∀ r, r ≤ 0 → ∃ v, fp.exp r = some v ∧ v ≤ 1

/-- A float: finite real, +inf, -inf or NaN. -/
inductive XR (fp : FP)
  | fin (r : ℝ)
  | pinf
  | ninf
  | nan

namespace XR
variable {fp : FP}

noncomputable def ofEReal (x : EReal) : XR fp :=
  if x = ⊤ then .pinf else if x = ⊥ then .ninf else .fin x.toReal

noncomputable def round (r : ℝ) : XR fp := ofEReal (fp.rnd r)

def neg : XR fp → XR fp
  | fin r => fin (-r)
  | pinf => ninf
  | ninf => pinf
  | nan => nan

noncomputable def abs : XR fp → XR fp
  | fin r => fin |r|
  | pinf => pinf
  | ninf => pinf
  | nan => nan

noncomputable def add : XR fp → XR fp → XR fp
  | nan, _ => nan
  | _, nan => nan
  | pinf, ninf => nan
  | ninf, pinf => nan
  | pinf, _ => pinf
  | _, pinf => pinf
  | ninf, _ => ninf
  | _, ninf => ninf
  | fin a, fin b => round (a + b)

noncomputable def sub (x y : XR fp) : XR fp := add x (neg y)

/-- `±inf` times a finite number. -/
noncomputable def infMul (pos : Bool) (a : ℝ) : XR fp :=
  if a = 0 then nan
  else if (0 < a) = (pos = true) then pinf else ninf

noncomputable def mul : XR fp → XR fp → XR fp
  | nan, _ => nan
  | _, nan => nan
  | fin a, fin b => round (a * b)
  | fin a, pinf => infMul true a
  | fin a, ninf => infMul false a
  | pinf, fin a => infMul true a
  | ninf, fin a => infMul false a
  | pinf, pinf => pinf
  | pinf, ninf => ninf
  | ninf, pinf => ninf
  | ninf, ninf => pinf

noncomputable def div : XR fp → XR fp → Py (XR fp)
  | fin a, fin b => if b = 0 then .error .zeroDivisionError else .ok (round (a / b))
  | pinf, fin b => if b = 0 then .error .zeroDivisionError else .ok (infMul true b)
  | ninf, fin b => if b = 0 then .error .zeroDivisionError else .ok (infMul false b)
  | nan, fin b => if b = 0 then .error .zeroDivisionError else .ok nan
  | fin _, pinf => .ok (fin 0)
  | fin _, ninf => .ok (fin 0)
  | _, _ => .ok nan

noncomputable def sq : XR fp → Py (XR fp)
  | fin a =>
    match (round (a * a) : XR fp) with
    | fin r => .ok (fin r)
    | _ => .error .overflowError
  | nan => .ok nan
  | _ => .ok pinf

noncomputable def exp : XR fp → Py (XR fp)
  | fin a =>
    match fp.exp a with
    | some v => .ok (fin v)
    | none => .error .overflowError
  | pinf => .ok pinf
  | ninf => .ok (fin 0)
  | nan => .ok nan

noncomputable def log : XR fp → Py (XR fp)
  | fin a => if a ≤ 0 then .error .valueError else .ok (fin (fp.log a))
  | pinf => .ok pinf
  | ninf => .error .valueError
  | nan => .ok nan

noncomputable def sqrt : XR fp → Py (XR fp)
  | fin a => if a < 0 then .error .valueError else .ok (round (Real.sqrt a))
  | pinf => .ok pinf
  | ninf => .error .valueError
  | nan => .ok nan

noncomputable def trunc : XR fp → Py (XR fp)
  | fin a => .ok (fin (if 0 ≤ a then (⌊a⌋ : ℝ) else (⌈a⌉ : ℝ)))
  | nan => .error .valueError
  | _ => .error .overflowError

noncomputable def lt : XR fp → XR fp → Bool
  | nan, _ => false
  | _, nan => false
  | fin a, fin b => decide (a < b)
  | ninf, ninf => false
  | ninf, _ => true
  | fin _, pinf => true
  | _, _ => false

noncomputable def eq : XR fp → XR fp → Bool
  | fin a, fin b => decide (a = b)
  | pinf, pinf => true
  | ninf, ninf => true
  | _, _ => false

noncomputable def le (x y : XR fp) : Bool := lt x y || eq x y

def isnan : XR fp → Bool
  | nan => true
  | _ => false

noncomputable instance : Arith (XR fp) where
  ofInt n := round n
  ofRat n d := round ((n : ℝ) / (d : ℝ))
  pi := round Real.pi
  nan := nan
  pinf := pinf
  ninf := ninf
  add := add
  sub := sub
  mul := mul
  neg := neg
  abs := abs
  div := div
  sq := sq
  exp := exp
  log := log
  sqrt := sqrt
  trunc := trunc
  lt := lt
  le := le
  eq := eq
  isnan := isnan
  typeOf _ := .float

end XR

/-- Exact floats: `XR` without rounding. -/
abbrev Ex := XR FP.exact

end PurePredict
