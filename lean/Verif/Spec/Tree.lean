import Verif.Py.Arith
/-
Specification: binary decision trees as an inductive type.
-/
namespace PurePredict.Spec

/-- A binary decision tree: a leaf with its value, or a test `x[feature] <= threshold`. -/
inductive DTree (F : Type)
  | leaf (value : List F)
  | node (feature : Nat) (threshold : F) (left right : DTree F)

namespace DTree
variable {F : Type} [Arith F]

/-- The value of the leaf reached from the root by going left exactly when the record's feature
value is `<=` the threshold; `none` when the path tests a feature the record does not have. -/
def eval (x : Nat → Option F) : DTree F → Option (List F)
  | leaf v => some v
  | node f thr l r =>
    match x f with
    | none => none
    | some v => if v ≤ₚ thr then eval x l else eval x r

/-- All features tested anywhere in the tree. -/
def features : DTree F → List Nat
  | leaf _ => []
  | node f _ l r => f :: (features l ++ features r)

/-- The values of all leaves. -/
def leaves : DTree F → List (List F)
  | leaf v => [v]
  | node _ _ l r => leaves l ++ leaves r

/-- Height of the tree. -/
def depth : DTree F → Nat
  | leaf _ => 0
  | node _ _ l r => max (depth l) (depth r) + 1

end DTree
end PurePredict.Spec
