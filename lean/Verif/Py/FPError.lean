import Verif.Py.Binary64
/-
How far a rounded result is from the exact one: `FP.Accurate fp u η` says that every finite result
has relative error at most `u` up to an absolute `η` (underflow), and that additions have no
underflow error.  Proved for IEEE binary64 with `u = 2^-53`, `η = 2^-1075`.
-/
namespace PurePredict

/-- The usual model of floating point error. -/
structure FP.Accurate (fp : FP) (u η : ℝ) : Prop where
  u_nonneg : 0 ≤ u
  eta_nonneg : 0 ≤ η
  rel : ∀ x v : ℝ, fp.rnd x = (v : EReal) → |v - x| ≤ u * |x| + η
  add : ∀ x y v : ℝ, fp.rnd x = (x : EReal) → fp.rnd y = (y : EReal) →
    fp.rnd (x + y) = (v : EReal) → |v - (x + y)| ≤ u * |x + y|

theorem FP.exact_accurate : FP.exact.Accurate 0 0 where
  u_nonneg := le_rfl
  eta_nonneg := le_rfl
  rel x v h := by
    have : x = v := by simpa [FP.exact] using h
    simp [this]
  add x y v _ _ h := by
    have : x + y = v := by
      have h' : ((x + y : ℝ) : EReal) = v := h
      exact_mod_cast h'
    simp [this]

namespace B64

theorem rndFin_ulp (x : ℝ) : |rndFin x - x| ≤ 1 / 2 * 2 ^ lsb x := by
  have h := rne_dist (x * 2 ^ (-lsb x))
  have h1 := mul_le_mul_of_nonneg_right h (pow_pos' (lsb x)).le
  refine le_trans (le_of_eq ?_) h1
  unfold rndFin
  rw [← abs_of_pos (pow_pos' (lsb x)), ← abs_mul, sub_mul, mul_assoc, abs_of_pos (pow_pos' (lsb x)),
    pow_neg_mul, mul_one]

/-- In the normal range the error is relative. -/
theorem rndFin_rel {x : ℝ} (h : -1074 < lsb x) : |rndFin x - x| ≤ 2 ^ (-53 : ℤ) * |x| := by
  by_cases hx : x = 0
  · subst hx; simp [rndFin_zero]
  refine (rndFin_ulp x).trans ?_
  have h1 := lsb_le h hx
  have h2 := mul_le_mul_of_nonneg_left h1 (pow_pos' (-53)).le
  refine le_trans (le_of_eq ?_) h2
  rw [← pow_add', show (1 / 2 : ℝ) = 2 ^ (-1 : ℤ) by norm_num, ← pow_add']
  congr 1; ring

theorem rndFin_err (x : ℝ) : |rndFin x - x| ≤ 2 ^ (-53 : ℤ) * |x| + 2 ^ (-1075 : ℤ) := by
  rcases (lsb_ge x).lt_or_eq with h | h
  · exact (rndFin_rel h).trans (le_add_of_nonneg_right (pow_pos' _).le)
  · refine (rndFin_ulp x).trans ?_
    rw [← h, show (1 / 2 : ℝ) = 2 ^ (-1 : ℤ) by norm_num, ← pow_add']
    exact le_add_of_nonneg_left (mul_nonneg (pow_pos' _).le (abs_nonneg x))

/-- Every float is a multiple of the smallest subnormal. -/
theorem multiple_of_rep {x : ℝ} (h : rndFin x = x) : ∃ n : ℤ, x = n * 2 ^ (-1074 : ℤ) := by
  obtain ⟨j, hj⟩ : ∃ j : ℕ, lsb x = -1074 + j := ⟨(lsb x + 1074).toNat, by have := lsb_ge x; omega⟩
  refine ⟨rne (x * 2 ^ (-lsb x)) * 2 ^ j, ?_⟩
  conv_lhs => rw [← h]
  unfold rndFin
  push_cast
  rw [mul_assoc]
  congr 1
  rw [hj, pow_add', mul_comm, zpow_natCast]

theorem rndFin_add_err {x y : ℝ} (hx : rndFin x = x) (hy : rndFin y = y) :
    |rndFin (x + y) - (x + y)| ≤ 2 ^ (-53 : ℤ) * |x + y| := by
  rcases (lsb_ge (x + y)).lt_or_eq with h | h
  · exact rndFin_rel h
  · obtain ⟨n, hn⟩ := multiple_of_rep hx
    obtain ⟨m, hm⟩ := multiple_of_rep hy
    have : rndFin (x + y) = x + y := by
      refine rndFin_of_multiple (n + m) (-1074) h.symm.le ?_
      conv_lhs => rw [hn, hm]
      push_cast; ring
    rw [this, sub_self, abs_zero]
    exact mul_nonneg (pow_pos' _).le (abs_nonneg _)

end B64

/-- **binary64 is accurate**: unit roundoff 2^-53, underflow unit 2^-1075. -/
theorem FP.binary64With_accurate (exp : ℝ → Option ℝ) (log : ℝ → ℝ) :
    (FP.binary64With exp log).Accurate (2 ^ (-53 : ℤ)) (2 ^ (-1075 : ℤ)) where
  u_nonneg := (B64.pow_pos' _).le
  eta_nonneg := (B64.pow_pos' _).le
  rel x v h := by
    rw [← B64.rnd_coe h]; exact B64.rndFin_err x
  add x y v hx hy h := by
    rw [← B64.rnd_coe h]
    exact B64.rndFin_add_err (B64.rnd_coe hx) (B64.rnd_coe hy)

theorem FP.binary64_accurate : FP.binary64.Accurate (2 ^ (-53 : ℤ)) (2 ^ (-1075 : ℤ)) :=
  FP.binary64With_accurate _ _

end PurePredict
