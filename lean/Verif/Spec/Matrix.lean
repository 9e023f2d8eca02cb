import Verif.Py.Arr
/-
Independent vocabulary for stating properties of matrices: what a valid sparse row is, and which
dense row it denotes.
-/
namespace PurePredict.Spec

/-- A sparse row of width `w`: no column is stored twice and every column index is in `[0,w)`. -/
def ValidRow {F : Type} (w : Nat) (d : Dict Int F) : Prop :=
  (d.map Prod.fst).Nodup ∧ ∀ p ∈ d, 0 ≤ p.1 ∧ p.1 < (w : Int)

/-- The entry of a sparse row in column `i` (`zero` if not stored). -/
def entry {F : Type} (zero : F) (d : Dict Int F) (i : Nat) : F :=
  ((d.find? fun p => p.1 = (i : Int)).map Prod.snd).getD zero

/-- The dense row of width `w` denoted by a sparse row. -/
def dense {F : Type} (zero : F) (w : Nat) (d : Dict Int F) : List F :=
  (List.range w).map (entry zero d)

end PurePredict.Spec
