import Verif.Py.Binary64
import Verif.Lemmas.XR
/-
What "predict agrees with predict_proba" needs of floating point beyond `FP.Sound`: a monotone `exp`, and that
2 and 1/2 are floats.
-/
namespace PurePredict

structure FP.MonoExp (fp : FP) : Prop where
  exp_mono : ∀ a b w, a ≤ b → fp.exp b = some w → ∃ v, fp.exp a = some v ∧ v ≤ w
  two : fp.rnd 2 = ((2 : ℝ) : EReal)
  half : fp.rnd (1 / 2) = ((1 / 2 : ℝ) : EReal)

theorem FP.exact_monoExp : FP.exact.MonoExp where
  exp_mono a b w h hw := by
    cases hw
    exact ⟨_, rfl, Real.exp_le_exp.2 h⟩
  two := rfl
  half := rfl

theorem B64.exp_mono {a b w : ℝ} (h : a ≤ b) (hw : B64.exp b = some w) : ∃ v, B64.exp a = some v ∧ v ≤ w := by
  have h1 := B64.rnd_mono (Real.exp_le_exp.2 h)
  rw [B64.rnd_exp hw] at h1
  have h2 : B64.rnd (Real.exp a) ≠ ⊤ := by
    intro e
    rw [e] at h1
    exact absurd (top_le_iff.1 h1) (EReal.coe_ne_top w)
  have h3 : B64.exp a = some (B64.rndFin (Real.exp a)) := by
    unfold B64.exp; rw [if_neg h2]
  refine ⟨_, h3, ?_⟩
  rw [B64.rnd_exp h3] at h1
  exact_mod_cast h1

/-- IEEE binary64 with a monotone `exp` of the C library. -/
theorem FP.binary64With_monoExp {exp : ℝ → Option ℝ} {log : ℝ → ℝ}
    (he : ∀ a b w, a ≤ b → exp b = some w → ∃ v, exp a = some v ∧ v ≤ w) : (FP.binary64With exp log).MonoExp where
  exp_mono := he
  two := by
    have := B64.rnd_int 2 (by norm_num)
    have h2 : B64.rnd 2 = ((2 : ℝ) : EReal) := by simpa using this
    exact h2
  half := by
    have hr : B64.rndFin (1 / 2) = 1 / 2 := B64.rndFin_of_representable ⟨1, -1, by norm_num, by norm_num, by norm_num⟩
    have : B64.rnd (1 / 2) = ((1 / 2 : ℝ) : EReal) := by
      rw [B64.rnd_of_fin] <;> rw [hr]
      have h2 : (1 : ℝ) < 2 ^ (1024 : ℤ) := by
        rw [← zpow_zero (2 : ℝ)]
        exact zpow_lt_zpow_right₀ (by norm_num) (by norm_num)
      rw [abs_of_pos (by norm_num)]
      exact lt_trans (by norm_num) h2
    exact this

/-- IEEE binary64 with correctly rounded functions. -/
theorem FP.binary64_monoExp : FP.binary64.MonoExp :=
  FP.binary64With_monoExp fun _ _ _ h hw => B64.exp_mono h hw

end PurePredict
