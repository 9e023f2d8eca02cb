import Verif.Model.Labels
/-
What encoding of labels means, on Python values.
-/
namespace PurePredict.Spec
variable {S N : Type} [LinearOrder S] [LinearOrder N]

/-- `a == b`, for values that can be hashed. -/
inductive Equal : Lab S N → Lab S N → Prop
  | str {s} : Equal (.str s) (.str s)
  | num {n k k'} : Equal (.num n k) (.num n k')
  | none : Equal .none .none

/-- `a < b` is true. -/
inductive LessThan : Lab S N → Lab S N → Prop
  | str {s t} : s < t → LessThan (.str s) (.str t)
  | num {m n k k'} : m < n → LessThan (.num m k) (.num n k')

/-- Two strings, two numbers or `None` twice. -/
inductive SameKind : Lab S N → Lab S N → Prop
  | str {s t} : SameKind (.str s) (.str t)
  | num {m n k k'} : SameKind (.num m k) (.num n k')
  | none : SameKind .none .none

/-- Values of one kind: only strings, only numbers or only `None`. -/
def Sortable (values : List (Lab S N)) : Prop := ∀ a ∈ values, ∀ b ∈ values, SameKind a b

/-- The different values in increasing order, each as it occurs first. -/
structure SortedDistinct (values u : List (Lab S N)) : Prop where
  increasing : u.Pairwise LessThan
  complete : ∀ v ∈ values, ∃ x ∈ u, Equal v x
  first : ∀ x ∈ u, ∃ i : Nat, values[i]? = some x ∧ ∀ j < i, ∀ y, values[j]? = some y → ¬ Equal x y

/-- The position of the last entry equal to `v`. -/
def LastAt (u : List (Lab S N)) (v : Lab S N) (c : Nat) : Prop :=
  (∃ x, u[c]? = some x ∧ Equal v x) ∧ ∀ d > c, ∀ y, u[d]? = some y → ¬ Equal v y

/-- A function that returns the elements of a list in some order. -/
def SomeOrder {α : Type} (order : List α → List α) : Prop := ∀ l, (order l).Perm l

end PurePredict.Spec
