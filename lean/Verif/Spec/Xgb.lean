import Verif.Spec.Tree
import Verif.Spec.Linear
/-
Specification of a booster's trees as `trees_to_dataframe()` prints them.
-/
namespace PurePredict.Spec

/-- The decimal numeral of `k`. -/
def numeral (k : Nat) : List Char := (toString k).toList

/-- The name of column `k`. -/
def featName (k : Nat) : List Char := 'f' :: numeral k

/-- The id of node `n` of tree `t`. -/
def nodeId (t n : Nat) : List Char := numeral t ++ '-' :: numeral n

/-- A booster tree: a leaf value, or a split "go to `yes` exactly when `x[feature] < split`". -/
inductive XTree (F : Type)
  | leaf (value : F)
  | split (feature : Nat) (thr : F) (yes no : XTree F)

namespace XTree
variable {F : Type} [Arith F]

/-- The booster's prediction; `none` when a tested feature is missing. -/
def eval (x : Nat → Option F) : XTree F → Option F
  | leaf v => some v
  | split f thr y n =>
    match x f with
    | none => none
    | some v => if v <ₚ thr then eval x y else eval x n

/-- The splits of the tree. -/
def splits : XTree F → List (Nat × F)
  | leaf _ => []
  | split f thr y n => (f, thr) :: (splits y ++ splits n)

end XTree

/-- A booster tree with the default branch of every split, taken by records whose value is missing
(NaN): `toYes` says that it is the `Yes` child. -/
inductive MTree (F : Type)
  | leaf (value : F)
  | split (feature : Nat) (thr : F) (toYes : Bool) (yes no : MTree F)

namespace MTree
variable {F : Type} [Arith F]

/-- The booster's prediction; `none` when a tested feature is not there at all. -/
def eval (x : Nat → Option F) : MTree F → Option F
  | leaf v => some v
  | split f thr d y n =>
    match x f with
    | none => none
    | some v =>
      if Arith.isnan v then (if d then eval x y else eval x n)
      else if v <ₚ thr then eval x y else eval x n

/-- The tree without its default branches. -/
def erase : MTree F → XTree F
  | leaf v => .leaf v
  | split f thr _ y n => .split f thr (erase y) (erase n)

/-- The splits with their default branches. -/
def splits : MTree F → List (Nat × F × Bool)
  | leaf _ => []
  | split f thr d y n => (f, thr, d) :: (splits y ++ splits n)

end MTree

/-- A fitted booster: the tree of every round and class, the number of rounds, the number of trees
per round (one for a binary booster), and the global bias `base_score`. -/
structure Booster (F : Type) where
  rounds : Nat
  perRound : Nat
  tree : Nat → Nat → XTree F
  baseScore : F

/-- The margin of a record for class `c`: the sum of its trees' outputs `o round class`. -/
noncomputable def Booster.margin {F : Type} (b : Booster F) (o : Nat → Nat → ℝ) (c : Nat) : ℝ :=
  ∑ e ∈ Finset.range b.rounds, o e c
end PurePredict.Spec
