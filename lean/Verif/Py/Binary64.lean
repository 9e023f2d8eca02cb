import Verif.Py.XR
import Mathlib.Data.Int.Log
import Mathlib.Analysis.Complex.ExponentialBounds
import Mathlib.Algebra.Order.Floor.Ring
/-
IEEE 754 binary64 with round-to-nearest-even as an instance of `FP`, and the proof that it is
sound in the sense of `FP.Sound`.  So every theorem stated for all sound arithmetics holds for
Python floats (apart from the sign of zero).  Nothing here models a line of the repository: it is
the number format of the Python interpreter.
-/
namespace PurePredict
open scoped Classical

namespace B64

/-- Round a real to an integer, ties to even. -/
noncomputable def rne (t : ℝ) : ℤ :=
  if Int.fract t < 1 / 2 then ⌊t⌋
  else if 1 / 2 < Int.fract t then ⌊t⌋ + 1
  else if Even ⌊t⌋ then ⌊t⌋ else ⌊t⌋ + 1

theorem rne_ge_floor (t : ℝ) : ⌊t⌋ ≤ rne t := by
  unfold rne; split_ifs <;> omega

theorem rne_le_floor (t : ℝ) : rne t ≤ ⌊t⌋ + 1 := by
  unfold rne; split_ifs <;> omega

theorem rne_int (n : ℤ) : rne (n : ℝ) = n := by
  unfold rne; simp

theorem rne_mono {t u : ℝ} (h : t ≤ u) : rne t ≤ rne u := by
  rcases lt_or_eq_of_le (Int.floor_mono h) with hl | he
  · exact (rne_le_floor t).trans ((by omega : ⌊t⌋ + 1 ≤ ⌊u⌋).trans (rne_ge_floor u))
  · have hf : Int.fract t ≤ Int.fract u := by
      unfold Int.fract; rw [he]; linarith
    unfold rne
    rw [he]
    split_ifs <;> first | omega | (exfalso; linarith)

theorem rne_neg (t : ℝ) : rne (-t) = - rne t := by
  by_cases h0 : Int.fract t = 0
  · obtain ⟨n, hn⟩ : ∃ n : ℤ, (n : ℝ) = t := ⟨⌊t⌋, by
      have := Int.floor_add_fract t; rw [h0] at this; linarith⟩
    rw [← hn, ← Int.cast_neg, rne_int, rne_int]
  · have hfr : Int.fract (-t) = 1 - Int.fract t := Int.fract_neg h0
    have hfl : ⌊-t⌋ = -⌊t⌋ - 1 := by
      have h1 := Int.floor_add_fract t
      have h2 := Int.floor_add_fract (-t)
      rw [hfr] at h2
      have : ((⌊-t⌋ : ℤ) : ℝ) = ((-⌊t⌋ - 1 : ℤ) : ℝ) := by push_cast; linarith
      exact_mod_cast this
    unfold rne
    rw [hfr, hfl]
    have hev : Even (-⌊t⌋ - 1) ↔ ¬ Even ⌊t⌋ := by
      rw [Int.even_sub_one, even_neg]
    split_ifs <;> first | omega | (exfalso; linarith) | (exfalso; tauto)

/-- The result is a nearest integer. -/
theorem rne_dist (t : ℝ) : |(rne t : ℝ) - t| ≤ 1 / 2 := by
  have h := Int.floor_add_fract t
  have h0 := Int.fract_nonneg t
  have h1 := Int.fract_lt_one t
  unfold rne
  rw [abs_le]
  split_ifs <;> push_cast <;> constructor <;> linarith

theorem rne_nearest (t : ℝ) (n : ℤ) : |(rne t : ℝ) - t| ≤ |(n : ℝ) - t| := by
  by_cases hn : n = rne t
  · rw [hn]
  · have hd := rne_dist t
    have h1 : (1 : ℝ) ≤ |(n : ℝ) - rne t| := by
      have : (1 : ℤ) ≤ |n - rne t| := Int.one_le_abs (sub_ne_zero.2 hn)
      exact_mod_cast this
    have h2 : |(n : ℝ) - rne t| ≤ |(n : ℝ) - t| + |(rne t : ℝ) - t| := by
      have := abs_sub_le (n : ℝ) t (rne t)
      rwa [abs_sub_comm t] at this
    linarith

/-- The exponent of the last place of a binary64 number of this magnitude: 53 significant bits,
at least -1074 (subnormals). -/
noncomputable def lsb (x : ℝ) : ℤ := max (Int.log 2 |x| - 52) (-1074)

/-- Round to 53 bits, unbounded exponent above. -/
noncomputable def rndFin (x : ℝ) : ℝ := (rne (x * 2 ^ (-lsb x)) : ℝ) * 2 ^ lsb x

/-- Round to binary64; results of magnitude 2^1024 and more become infinite. -/
noncomputable def rnd (x : ℝ) : EReal :=
  if (2 : ℝ) ^ (1024 : ℤ) ≤ rndFin x then ⊤
  else if rndFin x ≤ -(2 : ℝ) ^ (1024 : ℤ) then ⊥
  else (rndFin x : EReal)

theorem pow_pos' (e : ℤ) : (0 : ℝ) < 2 ^ e := zpow_pos (by norm_num) e

theorem pow_mono {a b : ℤ} (h : a ≤ b) : (2 : ℝ) ^ a ≤ 2 ^ b :=
  zpow_le_zpow_right₀ (by norm_num) h

theorem pow_add' (a b : ℤ) : (2 : ℝ) ^ (a + b) = 2 ^ a * 2 ^ b := zpow_add₀ (by norm_num) a b

theorem pow_neg_mul (e : ℤ) : (2 : ℝ) ^ (-e) * 2 ^ e = 1 := by
  rw [← pow_add']; simp

theorem lsb_neg (x : ℝ) : lsb (-x) = lsb x := by simp [lsb]

theorem rndFin_neg (x : ℝ) : rndFin (-x) = - rndFin x := by
  unfold rndFin
  rw [lsb_neg, neg_mul, rne_neg]; push_cast; ring

/-- A number is below 2^53 units of its last place. -/
theorem lt_lsb (x : ℝ) : |x| < 2 ^ (lsb x + 53) := by
  by_cases hx : x = 0
  · subst hx; simpa using pow_pos' (lsb 0 + 53)
  · have h := Int.lt_zpow_succ_log_self (b := 2) (by norm_num) |x|
    refine lt_of_lt_of_le (by exact_mod_cast h) (pow_mono ?_)
    have : Int.log 2 |x| - 52 ≤ lsb x := le_max_left _ _
    omega

/-- A normal number is at least 2^52 units of its last place. -/
theorem lsb_le {x : ℝ} (h : -1074 < lsb x) (hx : x ≠ 0) : (2 : ℝ) ^ (lsb x + 52) ≤ |x| := by
  have he : lsb x = Int.log 2 |x| - 52 := by
    unfold lsb at h ⊢
    omega
  rw [he, sub_add_cancel]
  have := Int.zpow_log_le_self (b := 2) (r := |x|) (by norm_num) (abs_pos.2 hx)
  exact_mod_cast this

theorem lsb_ge (x : ℝ) : -1074 ≤ lsb x := le_max_right _ _

theorem lsb_zero_le : lsb 0 = -52 := by simp [lsb]

theorem rndFin_nonneg {x : ℝ} (hx : 0 ≤ x) : 0 ≤ rndFin x := by
  unfold rndFin
  refine mul_nonneg ?_ (pow_pos' _).le
  have : rne 0 ≤ rne (x * 2 ^ (-lsb x)) := rne_mono (mul_nonneg hx (pow_pos' _).le)
  rw [show (0 : ℝ) = ((0 : ℤ) : ℝ) by simp, rne_int] at this
  exact_mod_cast this

theorem abs_rndFin_le (x : ℝ) : |rndFin x| ≤ 2 ^ (lsb x + 53) := by
  have key : ∀ y : ℝ, 0 ≤ y → rndFin y ≤ 2 ^ (lsb y + 53) := by
    intro y hy
    have h1 : y * 2 ^ (-lsb y) ≤ ((2 ^ 53 : ℤ) : ℝ) := by
      have h := lt_lsb y
      rw [abs_of_nonneg hy, pow_add'] at h
      have h2 : y * 2 ^ (-lsb y) ≤ (2 ^ lsb y * 2 ^ (53 : ℤ)) * 2 ^ (-lsb y) :=
        mul_le_mul_of_nonneg_right h.le (pow_pos' _).le
      refine h2.trans (le_of_eq ?_)
      have := pow_neg_mul (lsb y)
      calc (2 ^ lsb y * 2 ^ (53 : ℤ)) * (2 : ℝ) ^ (-lsb y)
          = ((2 : ℝ) ^ (-lsb y) * 2 ^ lsb y) * 2 ^ (53 : ℤ) := by ring
        _ = ((2 ^ 53 : ℤ) : ℝ) := by rw [this]; norm_num
    have h3 := rne_mono h1
    rw [rne_int] at h3
    unfold rndFin
    rw [add_comm, pow_add']
    refine mul_le_mul_of_nonneg_right ?_ (pow_pos' _).le
    calc (rne (y * 2 ^ (-lsb y)) : ℝ) ≤ ((2 ^ 53 : ℤ) : ℝ) := by exact_mod_cast h3
      _ = 2 ^ (53 : ℤ) := by norm_num
  rcases le_total 0 x with h | h
  · rw [abs_of_nonneg (rndFin_nonneg h)]; exact key x h
  · have h' : 0 ≤ -x := by linarith
    have := key (-x) h'
    rw [rndFin_neg, lsb_neg] at this
    rw [abs_of_nonpos (by have := rndFin_nonneg h'; rw [rndFin_neg] at this; linarith)]
    exact this

theorem lsb_mono {x y : ℝ} (hx : 0 < x) (h : x ≤ y) : lsb x ≤ lsb y := by
  unfold lsb
  rw [abs_of_pos hx, abs_of_pos (hx.trans_le h)]
  have := Int.log_mono_right (b := 2) hx h
  omega

theorem rndFin_zero : rndFin 0 = 0 := by
  unfold rndFin
  rw [zero_mul, show (0 : ℝ) = ((0 : ℤ) : ℝ) by simp, rne_int]; simp

theorem rndFin_mono_nonneg {x y : ℝ} (hx : 0 ≤ x) (h : x ≤ y) : rndFin x ≤ rndFin y := by
  rcases hx.eq_or_lt with rfl | hx
  · rw [rndFin_zero]; exact rndFin_nonneg h
  have hy : 0 < y := hx.trans_le h
  rcases (lsb_mono hx h).eq_or_lt with he | hl
  · unfold rndFin
    rw [he]
    refine mul_le_mul_of_nonneg_right ?_ (pow_pos' _).le
    exact_mod_cast rne_mono (mul_le_mul_of_nonneg_right h (pow_pos' _).le)
  · have h1 : rndFin x ≤ 2 ^ (lsb x + 53) := (le_abs_self _).trans (abs_rndFin_le x)
    have h2 : (2 : ℝ) ^ (lsb y + 52) ≤ y := by
      have := lsb_le (x := y) (lt_of_le_of_lt (lsb_ge x) hl) hy.ne'
      rwa [abs_of_pos hy] at this
    have h3 : (2 : ℝ) ^ (lsb y + 52) ≤ rndFin y := by
      have h4 : ((2 ^ 52 : ℤ) : ℝ) ≤ y * 2 ^ (-lsb y) := by
        have h5 : (2 : ℝ) ^ (lsb y + 52) * 2 ^ (-lsb y) ≤ y * 2 ^ (-lsb y) :=
          mul_le_mul_of_nonneg_right h2 (pow_pos' _).le
        refine le_trans (le_of_eq ?_) h5
        rw [← pow_add']
        rw [show lsb y + 52 + -lsb y = 52 by ring]; norm_num
      have h6 := rne_mono h4
      rw [rne_int] at h6
      unfold rndFin
      rw [add_comm, pow_add']
      refine mul_le_mul_of_nonneg_right ?_ (pow_pos' _).le
      calc (2 : ℝ) ^ (52 : ℤ) = ((2 ^ 52 : ℤ) : ℝ) := by norm_num
        _ ≤ _ := by exact_mod_cast h6
    exact h1.trans ((pow_mono (by omega)).trans h3)

theorem rndFin_mono : Monotone rndFin := by
  intro x y h
  rcases le_total 0 x with hx | hx
  · exact rndFin_mono_nonneg hx h
  · rcases le_total 0 y with hy | hy
    · have h1 := rndFin_nonneg (x := -x) (by linarith)
      rw [rndFin_neg] at h1
      have h2 := rndFin_nonneg hy
      linarith
    · have := rndFin_mono_nonneg (x := -y) (y := -x) (by linarith) (by linarith)
      rw [rndFin_neg, rndFin_neg] at this
      linarith

/-- A multiple of its own last place is left unchanged. -/
theorem rndFin_of_multiple {y : ℝ} (n : ℤ) (k : ℤ) (hk : lsb y ≤ k) (hy : y = n * 2 ^ k) :
    rndFin y = y := by
  obtain ⟨j, hj⟩ : ∃ j : ℕ, k = lsb y + j := ⟨(k - lsb y).toNat, by omega⟩
  have h1 : y * 2 ^ (-lsb y) = ((n * 2 ^ j : ℤ) : ℝ) := by
    generalize lsb y = e at hj ⊢
    rw [hy, mul_assoc, ← pow_add', hj, show e + (j : ℤ) + -e = (j : ℤ) by ring]
    push_cast; simp
  have h2 : rndFin y = ((n * 2 ^ j : ℤ) : ℝ) * 2 ^ lsb y := by
    unfold rndFin; rw [h1, rne_int]
  rw [h2, ← h1, mul_assoc, pow_neg_mul, mul_one]

theorem rndFin_idem (x : ℝ) : rndFin (rndFin x) = rndFin x := by
  by_cases h0 : rndFin x = 0
  · rw [h0, rndFin_zero]
  by_cases hle : lsb (rndFin x) ≤ lsb x
  · exact rndFin_of_multiple _ (lsb x) hle rfl
  · have hgt : lsb x < lsb (rndFin x) := not_le.1 hle
    have h1 := lsb_le (x := rndFin x) (lt_of_le_of_lt (lsb_ge x) hgt) h0
    have h2 := abs_rndFin_le x
    have h3 : (2 : ℝ) ^ (lsb x + 53) ≤ 2 ^ (lsb (rndFin x) + 52) := pow_mono (by omega)
    have h4 : |rndFin x| = 2 ^ (lsb (rndFin x) + 52) := le_antisymm (h2.trans h3) h1
    rcases abs_eq (pow_pos' _).le |>.1 h4 with h | h
    · refine rndFin_of_multiple (2 ^ 52) _ le_rfl (h.trans ?_)
      rw [add_comm, pow_add']; norm_num
    · refine rndFin_of_multiple (-2 ^ 52) _ le_rfl (h.trans ?_)
      rw [add_comm, pow_add']; norm_num

theorem rndFin_one : rndFin 1 = 1 := by
  have hl : lsb 1 = -52 := by simp [lsb]
  exact rndFin_of_multiple (2 ^ 52) (-52) (by rw [hl]) (by norm_num)

/-- Numbers of the binary64 format (finite, including subnormals): `m * 2^k` with a 53-bit
mantissa. -/
def Representable (z : ℝ) : Prop :=
  ∃ (m k : ℤ), |m| < 2 ^ 53 ∧ -1074 ≤ k ∧ z = m * 2 ^ k

theorem rndFin_dist (x : ℝ) (n : ℤ) : |rndFin x - x| ≤ |(n : ℝ) * 2 ^ lsb x - x| := by
  have h := rne_nearest (x * 2 ^ (-lsb x)) n
  have h1 := mul_le_mul_of_nonneg_right h (pow_pos' (lsb x)).le
  have h2 : ∀ a : ℝ, |a - x * 2 ^ (-lsb x)| * 2 ^ lsb x = |a * 2 ^ lsb x - x| := by
    intro a
    rw [← abs_of_pos (pow_pos' (lsb x)), ← abs_mul, abs_of_pos (pow_pos' (lsb x)), sub_mul,
      mul_assoc x, pow_neg_mul, mul_one]
  rw [h2, h2] at h1
  exact h1

/-- The result of rounding is representable, apart from its magnitude. -/
theorem rndFin_representable (x : ℝ) : Representable (rndFin x) := by
  set m := rne (x * 2 ^ (-lsb x)) with hm
  have hb : |(m : ℝ)| ≤ 2 ^ (53 : ℤ) := by
    have h := abs_rndFin_le x
    unfold rndFin at h
    rw [abs_mul, abs_of_pos (pow_pos' (lsb x)), add_comm, pow_add'] at h
    exact le_of_mul_le_mul_right h (pow_pos' _)
  have hb' : |m| ≤ 2 ^ 53 := by
    have : ((|m| : ℤ) : ℝ) ≤ ((2 ^ 53 : ℤ) : ℝ) := by push_cast; norm_num at hb ⊢; exact hb
    exact_mod_cast this
  rcases hb'.lt_or_eq with hl | he
  · exact ⟨m, lsb x, hl, lsb_ge x, rfl⟩
  · rcases (abs_eq (by norm_num)).1 he with h | h
    · refine ⟨2 ^ 52, lsb x + 1, by norm_num, by have := lsb_ge x; omega, ?_⟩
      unfold rndFin; rw [← hm, h, add_comm, pow_add']; push_cast; ring
    · refine ⟨-2 ^ 52, lsb x + 1, by norm_num, by have := lsb_ge x; omega, ?_⟩
      unfold rndFin; rw [← hm, h, add_comm, pow_add']; push_cast; ring

/-- No representable number is closer: `rndFin` rounds to nearest. -/
theorem rndFin_nearest (x z : ℝ) (hz : Representable z) : |rndFin x - x| ≤ |z - x| := by
  have key : ∀ x z : ℝ, 0 ≤ x → Representable z → |rndFin x - x| ≤ |z - x| := by
    rintro x z hx ⟨m, k, hm, hk, rfl⟩
    by_cases hle : lsb x ≤ k
    · obtain ⟨j, hj⟩ : ∃ j : ℕ, k = lsb x + j := ⟨(k - lsb x).toNat, by omega⟩
      have := rndFin_dist x (m * 2 ^ j)
      rw [hj, add_comm, pow_add', ← mul_assoc]
      push_cast at this
      simpa using this
    · have hlt : k < lsb x := not_le.1 hle
      by_cases hx0 : x = 0
      · subst hx0; rw [rndFin_zero, sub_zero, abs_zero]; exact abs_nonneg _
      have h1 := lsb_le (x := x) (lt_of_le_of_lt hk hlt) hx0
      rw [abs_of_nonneg hx] at h1
      have h2 : (m : ℝ) * 2 ^ k ≤ 2 ^ (lsb x + 52) := by
        have hm' : (m : ℝ) ≤ 2 ^ (53 : ℤ) := by
          have : m ≤ 2 ^ 53 := (le_abs_self m).trans hm.le
          calc (m : ℝ) ≤ ((2 ^ 53 : ℤ) : ℝ) := by exact_mod_cast this
            _ = _ := by norm_num
        calc (m : ℝ) * 2 ^ k ≤ 2 ^ (53 : ℤ) * 2 ^ k :=
              mul_le_mul_of_nonneg_right hm' (pow_pos' _).le
          _ = 2 ^ (53 + k) := (pow_add' _ _).symm
          _ ≤ _ := pow_mono (by omega)
      have h3 := rndFin_dist x (2 ^ 52)
      have h4 : ((2 ^ 52 : ℤ) : ℝ) * 2 ^ lsb x = 2 ^ (lsb x + 52) := by
        rw [add_comm, pow_add']; norm_num
      rw [h4] at h3
      refine h3.trans ?_
      rw [abs_of_nonpos (by linarith), abs_of_nonpos (by linarith)]
      linarith
  rcases le_total 0 x with h | h
  · exact key x z h hz
  · have hz' : Representable (-z) := by
      obtain ⟨m, k, hm, hk, rfl⟩ := hz
      exact ⟨-m, k, by rwa [abs_neg], hk, by push_cast; ring⟩
    have := key (-x) (-z) (by linarith) hz'
    rw [rndFin_neg] at this
    rw [← abs_neg (rndFin x - x), ← abs_neg (z - x)]
    convert this using 2 <;> ring

/-! ### The bounded format -/

theorem rnd_mono : Monotone rnd := by
  intro x y h
  have hm := rndFin_mono h
  have hp : (0 : ℝ) < 2 ^ (1024 : ℤ) := pow_pos' _
  unfold rnd
  split_ifs with h1 h2 h3 h4 h5 h6 h7 <;>
    first
    | exact le_rfl
    | exact le_top
    | exact bot_le
    | (exfalso; linarith)
    | exact_mod_cast hm

theorem rnd_neg (x : ℝ) : rnd (-x) = - rnd x := by
  have hp : (0 : ℝ) < 2 ^ (1024 : ℤ) := pow_pos' _
  unfold rnd
  rw [rndFin_neg]
  generalize (2 : ℝ) ^ (1024 : ℤ) = P at hp ⊢
  split_ifs <;> first
    | (exfalso; linarith)
    | simp

theorem rnd_coe {x y : ℝ} (h : rnd x = (y : EReal)) : rndFin x = y := by
  unfold rnd at h
  split_ifs at h
  · exact absurd h.symm (EReal.coe_ne_top y)
  · exact absurd h.symm (EReal.coe_ne_bot y)
  · exact_mod_cast h

theorem rnd_of_fin {x : ℝ} (h : |rndFin x| < 2 ^ (1024 : ℤ)) : rnd x = (rndFin x : EReal) := by
  rw [abs_lt] at h
  unfold rnd
  rw [if_neg (by linarith), if_neg (by linarith)]

theorem rnd_idem {x y : ℝ} (h : rnd x = (y : EReal)) : rnd y = (y : EReal) := by
  have hy := rnd_coe h
  have h2 : rndFin y = y := by rw [← hy, rndFin_idem]
  have : rnd y = rnd x := by unfold rnd; rw [h2, hy]
  rw [this, h]

theorem rnd_zero : rnd 0 = 0 := by
  rw [rnd_of_fin] <;> rw [rndFin_zero]
  · simp
  · simp

theorem rnd_one : rnd 1 = 1 := by
  rw [rnd_of_fin] <;> rw [rndFin_one]
  · simp
  · rw [abs_one, ← zpow_zero (2 : ℝ)]
    exact zpow_lt_zpow_right₀ (by norm_num) (by norm_num)

/-- What is assumed of the C library's `exp`: results are floats, `exp(0)` is 1, non-positive
arguments give results in [0,1] without error.  (Accuracy is not assumed.) -/
structure LibExp (e : ℝ → Option ℝ) : Prop where
  rep : ∀ r v, e r = some v → 0 ≤ v ∧ rnd v = (v : EReal)
  zero : e 0 = some 1
  nonpos : ∀ r, r ≤ 0 → ∃ v, e r = some v ∧ v ≤ 1

/-- The correctly rounded exponential, raising OverflowError when the result is infinite. -/
noncomputable def exp (r : ℝ) : Option ℝ :=
  if rnd (Real.exp r) = ⊤ then none else some (rndFin (Real.exp r))

theorem rnd_exp {r v : ℝ} (h : exp r = some v) : rnd (Real.exp r) = (v : EReal) := by
  unfold exp at h
  split_ifs at h with h1
  cases h
  unfold rnd at h1 ⊢
  have := rndFin_nonneg (Real.exp_pos r).le
  have hp : (0 : ℝ) < 2 ^ (1024 : ℤ) := pow_pos' _
  generalize (2 : ℝ) ^ (1024 : ℤ) = P at hp h1 ⊢
  split_ifs at h1 ⊢
  · exact absurd rfl h1
  · exfalso; linarith
  · rfl

theorem exp_lib : LibExp exp where
  rep r v h := by
    refine ⟨?_, rnd_idem (rnd_exp h)⟩
    rw [← rnd_coe (rnd_exp h)]
    exact rndFin_nonneg (Real.exp_pos r).le
  zero := by
    unfold exp
    rw [Real.exp_zero, rnd_one, if_neg (by decide), rndFin_one]
  nonpos r h := by
    have h1 : rndFin (Real.exp r) ≤ 1 := by
      rw [← rndFin_one]; exact rndFin_mono (Real.exp_le_one_iff.2 h)
    refine ⟨rndFin (Real.exp r), ?_, h1⟩
    unfold exp
    rw [if_neg]
    intro h2
    have h3 := rnd_mono (Real.exp_le_one_iff.2 h)
    rw [h2, rnd_one] at h3
    exact absurd (top_le_iff.1 h3) (by decide)

/-- Representable numbers are left unchanged. -/
theorem rndFin_of_representable {z : ℝ} (hz : Representable z) : rndFin z = z := by
  have := rndFin_nearest z z hz
  rw [sub_self, abs_zero] at this
  exact sub_eq_zero.1 (abs_nonpos_iff.1 this)

/-- Integers of at most 53 bits are floats. -/
theorem rnd_int (n : ℤ) (h : |n| < 2 ^ 53) : rnd (n : ℝ) = ((n : ℝ) : EReal) := by
  have hr : rndFin (n : ℝ) = n := rndFin_of_representable ⟨n, 0, h, by norm_num, by simp⟩
  rw [rnd_of_fin] <;> rw [hr]
  have h1 : ((|n| : ℤ) : ℝ) < ((2 ^ 53 : ℤ) : ℝ) := by exact_mod_cast h
  rw [Int.cast_abs] at h1
  refine h1.trans ?_
  have h2 : (2 : ℝ) ^ (53 : ℤ) < 2 ^ (1024 : ℤ) :=
    zpow_lt_zpow_right₀ (by norm_num) (by norm_num)
  refine lt_of_eq_of_lt ?_ h2
  norm_num

theorem exp_ge {r : ℝ} (h : 1000 ≤ r) : (2 : ℝ) ^ (1100 : ℤ) ≤ Real.exp r := by
  have h1 : (2 : ℝ) ^ 11 ≤ Real.exp 10 := by
    have he : (2.7 : ℝ) ≤ Real.exp 1 := by have := Real.exp_one_gt_d9; linarith
    have : Real.exp 10 = Real.exp 1 ^ 10 := by rw [← Real.exp_nat_mul]; norm_num
    rw [this]
    calc (2 : ℝ) ^ 11 ≤ 2.7 ^ 10 := by norm_num
      _ ≤ _ := pow_le_pow_left₀ (by norm_num) he 10
  have h2 : Real.exp 1000 = Real.exp 10 ^ 100 := by rw [← Real.exp_nat_mul]; norm_num
  calc (2 : ℝ) ^ (1100 : ℤ) = ((2 : ℝ) ^ 11) ^ 100 := by
        rw [← pow_mul]; exact zpow_natCast 2 1100
    _ ≤ Real.exp 10 ^ 100 := pow_le_pow_left₀ (by positivity) h1 100
    _ = Real.exp 1000 := h2.symm
    _ ≤ _ := Real.exp_le_exp.2 h

/-- `math.exp` underflows to zero. -/
theorem exp_underflow {r : ℝ} (h : r ≤ -1000) : exp r = some 0 := by
  have h1 : Real.exp r ≤ 2 ^ (-1100 : ℤ) := by
    have := exp_ge (r := -r) (by linarith)
    rw [Real.exp_neg] at this
    rw [zpow_neg]
    exact (le_inv_comm₀ (pow_pos' _) (Real.exp_pos r)).1 this
  have h2 : rndFin (2 ^ (-1100 : ℤ)) = 0 := by
    have hl : lsb ((2 : ℝ) ^ (-1100 : ℤ)) = -1074 := by
      unfold lsb
      rw [abs_of_pos (pow_pos' _)]
      have : Int.log 2 ((2 : ℝ) ^ (-1100 : ℤ)) = -1100 := by
        exact_mod_cast Int.log_zpow (R := ℝ) (b := 2) (by norm_num) (-1100)
      rw [this]; rfl
    unfold rndFin
    rw [hl, ← pow_add']
    have : rne ((2 : ℝ) ^ (-1100 + -(-1074) : ℤ)) = 0 := by
      have hf : (2 : ℝ) ^ (-1100 + -(-1074) : ℤ) < 1 / 2 := by norm_num
      have h0 : ⌊(2 : ℝ) ^ (-1100 + -(-1074) : ℤ)⌋ = 0 := by
        rw [Int.floor_eq_zero_iff]; constructor
        · exact (pow_pos' _).le
        · exact hf.trans (by norm_num)
      unfold rne
      rw [if_pos, h0]
      rw [Int.fract, h0]; push_cast; linarith
    rw [this]; simp
  have h3 : rndFin (Real.exp r) = 0 :=
    le_antisymm (h2 ▸ rndFin_mono h1) (rndFin_nonneg (Real.exp_pos r).le)
  obtain ⟨v, hv, -⟩ := exp_lib.nonpos r (by linarith)
  rw [hv, ← rnd_coe (rnd_exp hv), h3]

/-- `math.exp` overflows. -/
theorem exp_overflow {r : ℝ} (h : 1000 ≤ r) : exp r = none := by
  have h1 : rndFin (2 ^ (1024 : ℤ)) = 2 ^ (1024 : ℤ) :=
    rndFin_of_representable ⟨1, 1024, by norm_num, by norm_num, by simp⟩
  have h2 : (2 : ℝ) ^ (1024 : ℤ) ≤ rndFin (Real.exp r) := by
    conv_lhs => rw [← h1]
    exact rndFin_mono ((pow_mono (by norm_num)).trans (exp_ge h))
  unfold exp rnd
  rw [if_pos (by rw [if_pos h2])]

end B64

/-- IEEE binary64 with the given `exp` and `log` of the C library. -/
noncomputable def FP.binary64With (exp : ℝ → Option ℝ) (log : ℝ → ℝ) : FP where
  rnd := B64.rnd
  exp := exp
  log := log

/-- IEEE binary64 with correctly rounded `exp` and `log`. -/
noncomputable def FP.binary64 : FP := FP.binary64With B64.exp fun x => B64.rndFin (Real.log x)

/-- **IEEE binary64 is sound**, whatever the accuracy of the library functions. -/
theorem FP.binary64With_sound {exp : ℝ → Option ℝ} {log : ℝ → ℝ} (he : B64.LibExp exp) :
    (FP.binary64With exp log).Sound where
  mono := B64.rnd_mono
  zero := B64.rnd_zero
  one := B64.rnd_one
  neg := B64.rnd_neg
  idem := fun _ _ h => B64.rnd_idem h
  exp_rep := he.rep
  exp_zero := he.zero
  exp_nonpos := he.nonpos

theorem FP.binary64_sound : FP.binary64.Sound := FP.binary64With_sound B64.exp_lib

theorem FP.binary64_round_int (n : ℤ) (h : |n| < 2 ^ 53) :
    (XR.round (n : ℝ) : XR FP.binary64) = .fin n := by
  show XR.ofEReal (B64.rnd n) = _
  rw [B64.rnd_int n h]
  simp [XR.ofEReal]

theorem FP.binary64_round {r : ℝ} (n : ℤ) (hr : r = n) (h : |n| < 2 ^ 53) :
    (XR.round r : XR FP.binary64) = .fin r := by
  rw [hr]; exact FP.binary64_round_int n h

theorem FP.binary64_exp_underflow {r : ℝ} (h : r ≤ -1000) : FP.binary64.exp r = some 0 :=
  B64.exp_underflow h

theorem FP.binary64_exp_overflow {r : ℝ} (h : 1000 ≤ r) : FP.binary64.exp r = none :=
  B64.exp_overflow h

end PurePredict
