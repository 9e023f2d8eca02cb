import Verif.Py.Binary64
/-
Specification: IEEE 754 binary32, the format in which scikit-learn's trees see the records
(`X.astype(np.float32)` before `tree_.apply`).
-/
namespace PurePredict.Spec

/-- The exponent of the last place of a binary32 number of this magnitude: 24 significant bits,
at least -149 (subnormals). -/
noncomputable def singleLsb (x : ℝ) : ℤ := max (Int.log 2 |x| - 23) (-149)

/-- Round to 24 bits, ties to even; unbounded exponent above. -/
noncomputable def toSingle (x : ℝ) : ℝ :=
  (B64.rne (x * 2 ^ (-singleLsb x)) : ℝ) * 2 ^ singleLsb x

/-- Numbers that do not overflow in binary32. -/
def InSingleRange (x : ℝ) : Prop := |toSingle x| < 2 ^ (128 : ℤ)

end PurePredict.Spec
