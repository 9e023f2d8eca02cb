import Verif.Spec.Linear
/-
Specification of matrices given by their entries, column subsets and averages.
-/
namespace PurePredict.Spec

/-- The `n × k` matrix with entries `f i j`. -/
def mat {α : Type} (n k : Nat) (f : Nat → Nat → α) : List (List α) :=
  (List.range n).map fun i => (List.range k).map (f i)

/-- The record restricted to a list of columns (`none`: all columns). -/
def columns {α : Type} (d : α) : Option (List Int) → List α → List α
  | none, x => x
  | some fs, x => fs.map fun i => x.getD i.toNat d

/-- The arithmetic mean of the entries in row `i`, column `c` of several matrices. -/
noncomputable def meanEntry (Ps : List (Nat → Nat → ℝ)) (i c : Nat) : ℝ :=
  (Ps.map fun P => P i c).sum / Ps.length

end PurePredict.Spec
