import Verif.Spec.Alike
import Verif.Py.PyNum
/-
When two Python numbers are the same, and when a Python number is a given float.
-/
namespace PurePredict.Spec
variable {fp : FP}

/-- Equal Python numbers, ints or floats (`a == b`, and any NaN with any NaN): the same exact value, and the same after conversion
to float.  (The second follows from the first for the floats of a machine; the floats of `PyNum` are arbitrary reals.)  Floats of
the same value differ at most in the sign of a zero. -/
def equalNumbers (fp : FP) : Likeness (PyNum fp) (PyNum fp) where
  value a b := a.toFloat? = b.toFloat?
  num a b := a.val = b.val ∧ a.toFloat? = b.toFloat?
  flt a b := a.isInt = false ∧ b.isInt = false ∧ a.val = b.val

/-- The same int, or floats of the same value: equal up to the signs of zeros. -/
def zeroSigns (fp : FP) : Likeness (PyNum fp) (PyNum fp) where
  value a b := a.isInt = b.isInt ∧ a.val = b.val
  num a b := a.isInt = b.isInt ∧ a.val = b.val
  flt a b := a.isInt = false ∧ b.isInt = false ∧ a.val = b.val

/-- A Python number and the float of the model `XR` without ints and signed zeros.  An int must be exact as a float where it is
compared, and in range where it is an operand. -/
def asReals (fp : FP) : Likeness (PyNum fp) (XR fp) where
  value a y := a.toFloat? = some y
  num a y := a.val = y ∧ a.toFloat? = some y
  flt a y := a.isInt = false ∧ a.val = y

end PurePredict.Spec
