import Verif.Py.Core
import Mathlib.Data.List.Forall2
/-
Specification of batch independence.
-/
namespace PurePredict.Spec
variable {ρ β : Type}

/-- A batch method `f` treats the records of a request independently: for non-empty batches of
admissible records, (1) a concatenated batch succeeds exactly when both parts do, and then returns
the concatenated results; (2) the result for a batch is the list of results for the single records
(so no record's result depends on the others). -/
def BatchIndependent (P : ρ → Prop) (f : List ρ → Py (List β)) : Prop :=
  (∀ A B : List ρ, A ≠ [] → B ≠ [] → (∀ r ∈ A, P r) → (∀ r ∈ B, P r) → ∀ c,
    f (A ++ B) = .ok c ↔ ∃ a b, f A = .ok a ∧ f B = .ok b ∧ c = a ++ b) ∧
  (∀ A : List ρ, A ≠ [] → (∀ r ∈ A, P r) → ∀ c,
    f A = .ok c ↔ List.Forall₂ (fun r y => f [r] = .ok [y]) A c)

end PurePredict.Spec
