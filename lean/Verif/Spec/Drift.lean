import Verif.Spec.Accuracy
/-
What it means that a small change of a record changes an answer only a little.
-/
namespace PurePredict.Spec

/-- By how much the exact score of class `c` can change between two records: the changes of the columns, weighted with the sizes of the coefficients. -/
noncomputable def scoreMove (w : Nat) (W : List (List ℝ)) (x x' : List ℝ) (c : Nat) : ℝ :=
  ∑ i ∈ Finset.range w, |x.getD i 0 - x'.getD i 0| * |(W.getD c []).getD i 0|

/-- Two requests `R` and `R'` are answered record by record by `A` and `A'`, and any record of the one and any record of the other have answers related by `P`. -/
def EachPair {β : Type} (R R' : List (List ℝ)) (A A' : List β) (P : List ℝ → List ℝ → β → β → Prop) : Prop :=
  A.length = R.length ∧ A'.length = R'.length ∧
    ∀ (i j : Nat) x x' q q', R[i]? = some x → R'[j]? = some x' → A[i]? = some q → A'[j]? = some q' → P x x' q q'

end PurePredict.Spec
