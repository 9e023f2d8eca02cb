/-
Specification of imputation and of the missing mask.
-/
namespace PurePredict.Spec
variable {α : Type}

/-- Impute a record of `w` values: keep the columns in `keep`, replace the missing values. -/
def imputed (d : α) (w : Nat) (miss : α → Bool) (keep : Nat → Bool) (stat : Nat → α) (x : List α) :
    List α :=
  ((List.range w).filter keep).map fun j => if miss (x.getD j d) then stat j else x.getD j d

/-- The mask of a record restricted to the columns in `sel`. -/
def missingMask (d : α) (w : Nat) (miss : α → Bool) (sel : Nat → Bool) (x : List α) : List Bool :=
  ((List.range w).filter sel).map fun j => miss (x.getD j d)

end PurePredict.Spec
