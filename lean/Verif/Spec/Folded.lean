import Verif.Spec.Recode
import Verif.Spec.Idle
/-
Scalers, as what they do to every column: multiply by a factor and add an offset.
-/
namespace PurePredict.Spec

/-- What a fitted scaler does to its columns, in exact arithmetic. -/
inductive Affine : Single Ex → List Change → Prop
  | standard {m s : List ℝ} : m.length = s.length → 0 ∉ s →
      Affine (.standard ⟨true, true, some (floats _ s), some (floats _ m)⟩) (m.zipWith (fun m s => ⟨1 / s, -m / s⟩) s)
  | centred {m : List ℝ} {sc} : Affine (.standard ⟨true, false, sc, some (floats _ m)⟩) (m.map fun m => ⟨1, -m⟩)
  | divided {s : List ℝ} {m} : 0 ∉ s → Affine (.standard ⟨false, true, some (floats _ s), m⟩) (s.map fun s => ⟨1 / s, 0⟩)
  | minMax {s m : List ℝ} : s.length = m.length → Affine (.minMax ⟨some (floats _ s), some (floats _ m)⟩) (s.zipWith (fun s m => ⟨s, m⟩) m)
  | maxAbs {s : List ℝ} {m} : 0 ∉ s → Affine (.maxAbs ⟨some (floats _ s), m⟩) (s.map fun s => ⟨1 / s, 0⟩)

/-- Dense requests of at least one record, every record with `w` columns. -/
def SomeDense (w : Nat) (X : Data Ex) : Prop := ∃ M, X = .arr (.ofMat M) ∧ M ≠ [] ∧ ∀ r ∈ M, r.length = w

/-- The coefficients of a linear model that reads the unscaled columns: each divided by the scale of its column. -/
noncomputable def unscaled (s r : List ℝ) : List ℝ := r.zipWith (fun x s => x / s) s

/-- What the means take from the intercept. -/
noncomputable def centring (m s r : List ℝ) : ℝ := ((unscaled s r).zipWith (fun x m => x * m) m).sum

end PurePredict.Spec
