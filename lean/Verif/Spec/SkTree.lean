import Verif.Spec.Tree
/-
Specification: a fitted scikit-learn tree and the arrays of its `tree_` attribute.
-/
namespace PurePredict.Spec

/-- A fitted tree.  Every node carries the values of all outputs (`n_outputs` rows), inner nodes
also their test `x[feature] <= thr`. -/
inductive SkTree (F : Type)
  | leaf (value : List (List F))
  | split (value : List (List F)) (feature : Nat) (thr : F) (left right : SkTree F)

/-- One row of the arrays of `tree_`. -/
structure SkNode (F : Type) where
  left : Int
  right : Int
  feature : Int
  threshold : F
  value : List (List F)

namespace SkTree
variable {F : Type} [Arith F]

/-- Number of nodes. -/
def size : SkTree F → Nat
  | leaf _ => 1
  | split _ _ _ l r => 1 + size l + size r

/-- The nodes in the order of the depth-first builder, the root having number `n`: parent, left
subtree, right subtree.  Leaves have children -1 and feature and threshold -2. -/
def layout (n : Nat) : SkTree F → List (SkNode F)
  | leaf v => [⟨-1, -1, -2, ofInt (-2), v⟩]
  | split v f thr l r =>
    ⟨((n + 1 : Nat) : Int), ((n + 1 + size l : Nat) : Int), (f : Int), thr, v⟩ ::
      (layout (n + 1) l ++ layout (n + 1 + size l) r)

/-- The values at the leaf a record reaches; `none` if a tested feature is missing. -/
def reach (x : Nat → Option F) : SkTree F → Option (List (List F))
  | leaf v => some v
  | split _ f thr l r =>
    match x f with
    | none => none
    | some a => if a ≤ₚ thr then reach x l else reach x r

/-- The tree of output number 0. -/
def first : SkTree F → DTree F
  | leaf v => .leaf (v.headD [])
  | split _ f thr l r => .node f thr (first l) (first r)

/-- The values of all nodes. -/
def values : SkTree F → List (List (List F))
  | leaf v => [v]
  | split v _ _ l r => v :: (values l ++ values r)

/-- All features tested anywhere in the tree. -/
def features : SkTree F → List Nat
  | leaf _ => []
  | split _ f _ l r => f :: (features l ++ features r)

end SkTree
end PurePredict.Spec
