import Verif.Spec.Records
import Verif.Py.XR
/-
The label of a largest probability.
-/
namespace PurePredict.Spec
variable {fp : FP}

/-- `l` is the label at a position of the row whose entry is exceeded by no entry. -/
def MostLikely (cs : List (PVal (XR fp))) (row : List (XR fp)) (l : PVal (XR fp)) : Prop :=
  ∃ (i : Nat) (p : XR fp), cs[i]? = some l ∧ row[i]? = some p ∧ ∀ q ∈ row, (p <ₚ q) = false

/-- `l` is the label at the first largest entry of the row. -/
def FirstLargest (cs : List (PVal (XR fp))) (row : List (XR fp)) (l : PVal (XR fp)) : Prop :=
  ∃ (i : Nat) (p : XR fp), cs[i]? = some l ∧ row[i]? = some p ∧ (∀ q ∈ row, (p <ₚ q) = false) ∧
    ∀ j < i, ∀ q, row[j]? = some q → (q <ₚ p) = true

/-- a non-negative float, such as a weighted count -/
def IsCount (a : XR fp) : Prop := ∃ r : ℝ, a = .fin r ∧ 0 ≤ r ∧ fp.rnd r = (r : EReal)

/-- If the deciding estimator is a tree classifier, its nodes hold counts.  (Ensembles and boosting decide by
their own probabilities; what their members hold does not matter.) -/
inductive HoldsCounts : SkObj (Attrs (XR fp)) (PVal (XR fp)) (XR fp) → Prop
  | leaf {c v e} : (∀ t, Learned c e (.treeClassifier t) → ∀ v ∈ t.value, ∀ a ∈ v, IsCount a) → HoldsCounts (.leaf c v e)
  | pipeline {v steps n o} : steps.getLast? = some (n, o) → HoldsCounts o → HoldsCounts (.pipeline v steps)
  | ensemble {k v fs cs ms} : HoldsCounts (.ensemble k v fs cs ms)
  | boosting {v cs stages init loss hyper} : HoldsCounts (.boosting v cs stages init loss hyper)

end PurePredict.Spec
