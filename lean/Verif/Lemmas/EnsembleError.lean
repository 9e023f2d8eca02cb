import Verif.Lemmas.SumOne
import Verif.Lemmas.Bagging
import Verif.Lemmas.Mat
import Verif.Spec.Ensemble
/-
Forward error of averages, of quotients by a computed sum and of additive models.
-/
namespace PurePredict
open Spec
variable {fp : FP} {u η : ℝ}

/-- Adding a float to a computed sum: one more rounding. -/
theorem addTerm_error (ha : fp.Accurate u η) {p b v D A E : ℝ} {k : Nat}
    (hp : fp.rnd p = (p : EReal)) (hb : fp.rnd b = (b : EReal)) (hv : fp.rnd (b + p) = (v : EReal))
    (hDA : |D| ≤ A) (hE : 0 ≤ E) (h : |p - D| ≤ gam u k * A + E) :
    |v - (b + D)| ≤ gam u (k + 1) * (|b| + A) + (1 + u) * E := by
  have hu := ha.u_nonneg
  have h3 := ha.add b p v hb hp hv
  have hg := gam_nonneg hu k
  have hA : 0 ≤ A := (abs_nonneg D).trans hDA
  have hg1 : gam u (k + 1) = u + (1 + u) * gam u k := gam_succ u k
  have e : v - (b + D) = (v - (b + p)) + (p - D) := by ring
  have h4 : |b + p| ≤ |p - D| + A + |b| := by
    have e2 : b + p = (p - D) + D + b := by ring
    rw [e2]
    have := abs_add_le ((p - D) + D) b
    have := abs_add_le (p - D) D
    linarith
  rw [e]
  refine (abs_add_le _ _).trans ?_
  have h5 : |v - (b + p)| ≤ u * (|p - D| + A + |b|) := h3.trans (mul_le_mul_of_nonneg_left h4 hu)
  have h6 : (1 + u) * |p - D| ≤ (1 + u) * (gam u k * A + E) :=
    mul_le_mul_of_nonneg_left h (by linarith)
  have h7 : u * |b| ≤ gam u (k + 1) * |b| := by
    refine mul_le_mul_of_nonneg_right ?_ (abs_nonneg _)
    rw [hg1]; nlinarith
  have e5 : gam u (k + 1) * (|b| + A) = u * A + (1 + u) * (gam u k * A) + gam u (k + 1) * |b| := by
    rw [hg1]; ring
  rw [e5]
  linarith

/-- A rounded quotient of a computed sum by a count. -/
theorem mean_error (ha : fp.Accurate u η) {s A S q T : ℝ} {k : Nat} (hT : 0 < T)
    (hSA : |S| ≤ A) (h : |s - S| ≤ gam u k * A) (hq : fp.rnd (s / T) = (q : EReal)) :
    |q - S / T| ≤ gam u (k + 1) * (A / T) + η := by
  have hu := ha.u_nonneg
  have h6 := ha.rel _ _ hq
  set g := gam u k
  have h7 : |s / T - S / T| ≤ g * (A / T) := by
    rw [← sub_div, abs_div, abs_of_pos hT, ← mul_div_assoc]
    exact div_le_div_of_nonneg_right h hT.le
  have hS : |S / T| ≤ A / T := by
    rw [abs_div, abs_of_pos hT]
    exact div_le_div_of_nonneg_right hSA hT.le
  have h8 : |s / T| ≤ (1 + g) * (A / T) := by
    have := abs_add_le (s / T - S / T) (S / T)
    rw [sub_add_cancel] at this
    linarith
  have h9 : gam u (k + 1) = u + (1 + u) * g := gam_succ u k
  have h10 := abs_add_le (q - s / T) (s / T - S / T)
  rw [sub_add_sub_cancel] at h10
  have h11 : u * |s / T| ≤ u * ((1 + g) * (A / T)) := mul_le_mul_of_nonneg_left h8 hu
  rw [h9]
  refine h10.trans ?_
  calc _ ≤ u * ((1 + g) * (A / T)) + η + g * (A / T) := by linarith
    _ = _ := by ring

/-- A non-negative float divided by the computed sum of the list it belongs to. -/
theorem share_error (hs : fp.Sound) (ha : fp.Accurate u η) {l : List ℝ}
    (hl : ∀ x ∈ l, 0 ≤ x ∧ fp.rnd x = (x : EReal)) {S : ℝ}
    (hS : pySum (l.map XR.fin : List (XR fp)) = .fin S) (hS0 : 0 < S)
    (hg : gam u (l.length - 1) ≤ 1 / 2) {x q : ℝ} (hx : x ∈ l) (hq : fp.rnd (x / S) = (q : EReal)) :
    |q - x / l.sum| ≤ 2 * (gam u (l.length - 1) + u) * (x / l.sum) + η := by
  have hu := ha.u_nonneg
  obtain ⟨-, herr⟩ := pySum_error hs ha l (fun x hx => (hl x hx).2) S hS
  rw [sum_map_abs_of_nonneg fun x hx => (hl x hx).1] at herr
  set g := gam u (l.length - 1)
  have hg0 : 0 ≤ g := gam_nonneg hu _
  have hl0 : 0 ≤ l.sum := List.sum_nonneg fun x hx => (hl x hx).1
  have h3 := abs_le.1 herr
  have hpos : 0 < l.sum := by
    rcases hl0.lt_or_eq with h | h
    · exact h
    · rw [← h] at h3; linarith [h3.2]
  have h4 : l.sum ≤ 2 * S := by nlinarith [h3.1]
  have hx0 := (hl x hx).1
  have hxS : x / S ≤ 2 * (x / l.sum) := by
    rw [← mul_div_assoc, div_le_div_iff₀ hS0 hpos]
    nlinarith
  have hxS0 : 0 ≤ x / S := div_nonneg hx0 hS0.le
  have h5 : |x / S - x / l.sum| ≤ g * (x / S) := by
    have e : x / S - x / l.sum = x / S * ((l.sum - S) / l.sum) := by
      field_simp
    rw [e, abs_mul, abs_of_nonneg hxS0, abs_div, abs_of_pos hpos, mul_comm g]
    refine mul_le_mul_of_nonneg_left ?_ hxS0
    rw [div_le_iff₀ hpos, abs_sub_comm]
    exact herr
  have h6 := ha.rel _ _ hq
  rw [abs_of_nonneg hxS0] at h6
  have h10 := abs_add_le (q - x / S) (x / S - x / l.sum)
  rw [sub_add_sub_cancel] at h10
  have h7 : (g + u) * (x / S) ≤ (g + u) * (2 * (x / l.sum)) :=
    mul_le_mul_of_nonneg_left hxS (by linarith)
  refine h10.trans ?_
  calc _ ≤ (g + u) * (x / S) + η := by linarith
    _ ≤ _ := by linarith

/-- The integers a double can count. -/
theorem rnd_nat64 {T : Nat} (h : T ≤ 2 ^ 51) {j : Nat} (hj : j ≤ T) :
    FP.binary64.rnd j = ((j : ℝ) : EReal) := by
  have := B64.rnd_int (j : ℤ) (by
    rw [abs_of_nonneg (by positivity)]
    have : (2 : ℕ) ^ 51 < 2 ^ 53 := by norm_num
    exact_mod_cast (show j < 2 ^ 53 by omega))
  exact_mod_cast this

/-- The average of `T` doubles in [0, 1], added left to right and divided by `T`. -/
theorem average64 (P0 : Nat → Nat → ℝ) (Ps : List (Nat → Nat → ℝ)) (i c : Nat)
    (hT : Ps.length + 1 ≤ 2 ^ 51)
    (hu : ∀ P ∈ P0 :: Ps, 0 ≤ P i c ∧ P i c ≤ 1 ∧ FP.binary64.rnd (P i c) = (P i c : EReal)) :
    ∃ s q : ℝ, accEntry (fun i c => (.fin (P0 i c) : XR FP.binary64))
        (Ps.map fun P i c => .fin (P i c)) i c = .fin s ∧
      (.fin s : XR FP.binary64) /ₚ ofInt ((Ps.length + 1 : Nat) : Int) = .ok (.fin q) ∧
      |q - meanEntry (P0 :: Ps) i c| ≤
        gam ((2 : ℝ) ^ (-53 : ℤ)) (Ps.length + 1) * meanEntry (P0 :: Ps) i c + 2 ^ (-1075 : ℤ) := by
  have hs := FP.binary64_sound
  have hacc := FP.binary64_accurate
  have hl : ∀ x ∈ (P0 :: Ps).map (fun P => P i c), 0 ≤ x ∧ x ≤ 2 ^ (900 : ℤ) ∧
      FP.binary64.rnd x = (x : EReal) := by
    intro x hx
    obtain ⟨P, hP, rfl⟩ := List.mem_map.1 hx
    obtain ⟨h0, h1, h2⟩ := hu P hP
    refine ⟨h0, h1.trans ?_, h2⟩
    have : (2 : ℝ) ^ (0 : ℤ) ≤ 2 ^ (900 : ℤ) := B64.pow_mono (by norm_num)
    simpa using this
  obtain ⟨s, hs1, hs2⟩ := pySum_finite64 _ hl (by simpa using hT)
  have hs0 : 0 ≤ s := (hu P0 (by simp)).1.trans (hs2 _ (by simp))
  obtain ⟨hsr, hserr⟩ := pySum_error hs hacc _ (fun x hx => (hl x hx).2.2) s hs1
  rw [sum_map_abs_of_nonneg fun x hx => (hl x hx).1, List.length_map, List.length_cons,
    Nat.add_sub_cancel] at hserr
  have hacc' : accEntry (fun i c => (.fin (P0 i c) : XR FP.binary64))
      (Ps.map fun P i c => .fin (P i c)) i c = .fin s := by
    rw [← hs1]
    unfold pySum accEntry
    rw [XR.ofInt_zero hs, List.map_cons, List.map_cons, List.foldl_cons, List.map_map, List.map_map]
    have h0 : (.fin 0 : XR FP.binary64) +ₚ .fin (P0 i c) = .fin (P0 i c) := by
      show XR.round (0 + P0 i c) = _
      rw [zero_add]
      exact XR.round_eq_fin.2 (hu P0 (by simp)).2.2
    rw [h0]
    rfl
  have hTR : (1 : ℝ) ≤ ((Ps.length + 1 : Nat) : ℝ) := by push_cast; linarith [Nat.cast_nonneg (α := ℝ) Ps.length]
  have hofi : (ofInt ((Ps.length + 1 : Nat) : Int) : XR FP.binary64) = .fin ((Ps.length + 1 : Nat) : ℝ) := by
    show XR.round _ = _
    rw [Int.cast_natCast]
    exact XR.round_eq_fin.2 (rnd_nat64 hT le_rfl)
  obtain ⟨q, hq⟩ := rnd_finite hs hsr (t := s / ((Ps.length + 1 : Nat) : ℝ)) (by
    rw [abs_of_nonneg (div_nonneg hs0 (by linarith))]
    exact div_le_self hs0 hTR)
  have hA0 : 0 ≤ ((P0 :: Ps).map fun P => P i c).sum := List.sum_nonneg fun x hx => (hl x hx).1
  refine ⟨s, q, hacc', ?_, ?_⟩
  · rw [hofi, XR.div_fin, if_neg (by linarith)]
    exact congrArg _ (XR.round_eq_fin.2 hq)
  · have := mean_error hacc (k := Ps.length) (by linarith) (le_of_eq (abs_of_nonneg hA0)) hserr hq
    exact this

end PurePredict
