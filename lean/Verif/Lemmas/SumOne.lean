import Verif.Lemmas.SumError
import Verif.Lemmas.RoundedLinks
import Verif.Model.Linear
import Verif.Py.Binary64
import Verif.Spec.Accuracy
/-
Normalised floating point lists sum to one up to rounding.
-/
namespace PurePredict
open Spec
variable {fp : FP} {u η : ℝ}

theorem sum_map_abs_of_nonneg {l : List ℝ} (h : ∀ x ∈ l, 0 ≤ x) : (l.map abs).sum = l.sum := by
  congr 1
  conv_rhs => rw [← List.map_id l]
  exact List.map_congr_left fun x hx => abs_of_nonneg (h x hx)

/-- Dividing non-negative floats by their computed sum. -/
theorem normalise_near (hs : fp.Sound) (ha : fp.Accurate u η) (l : List ℝ)
    (hl : ∀ x ∈ l, 0 ≤ x ∧ fp.rnd x = (x : EReal)) (S : ℝ)
    (hS : pySum (l.map XR.fin : List (XR fp)) = .fin S) (hS0 : S ≠ 0)
    (hg : gam u (l.length - 1) ≤ 1 / 2) :
    ∃ q : List ℝ, (l.map (XR.fin (fp := fp))).mapM (fun x => x /ₚ .fin S) = .ok (q.map XR.fin) ∧
      (∀ x ∈ q, fp.rnd x = (x : EReal)) ∧
      NearDist l.length (2 * (gam u (l.length - 1) + u) + l.length * η) q := by
  have hu := ha.u_nonneg
  have hη := ha.eta_nonneg
  obtain ⟨-, herr⟩ := pySum_error hs ha l (fun x hx => (hl x hx).2) S hS
  rw [sum_map_abs_of_nonneg fun x hx => (hl x hx).1] at herr
  have hNN : ∀ x ∈ (l.map XR.fin : List (XR fp)), XR.NN x := by
    intro x hx
    obtain ⟨a, ha, rfl⟩ := List.mem_map.1 hx
    exact XR.NN.fin (hl a ha).1 (hl a ha).2
  obtain ⟨h1, h2⟩ := XR.pySum_NN hs hNN
  rw [hS] at h1 h2
  have hSpos : 0 < S := by
    have : (0 : EReal) ≤ (S : EReal) := h1.2.1
    exact lt_of_le_of_ne (by exact_mod_cast this) hS0.symm
  have hdiv : ∀ x ∈ l, ∃ q : ℝ, (.fin x : XR fp) /ₚ .fin S = .ok (.fin q) ∧ 0 ≤ q ∧ q ≤ 1 ∧
      fp.rnd (x / S) = (q : EReal) := by
    intro x hx
    have hle : (x : EReal) ≤ (S : EReal) := h2 _ (List.mem_map.2 ⟨x, hx, rfl⟩)
    obtain ⟨q, hq, ⟨r, rfl, hr0, hr1⟩, -⟩ := XR.div_unit hs (hl x hx).1 hSpos (by exact_mod_cast hle)
    refine ⟨r, hq, hr0, hr1, ?_⟩
    rw [XR.div_fin, if_neg hS0] at hq
    exact XR.round_eq_fin.1 (Except.ok.inj hq)
  choose! q hq using hdiv
  refine ⟨l.map q, ?_, ?_, ?_, ?_, ?_⟩
  · rw [mapM_map', List.map_map]
    exact mapM_ok_map fun x hx => (hq x hx).1
  · intro y hy
    obtain ⟨x, hx, rfl⟩ := List.mem_map.1 hy
    exact hs.idem _ _ (hq x hx).2.2.2
  · simp
  · intro y hy
    obtain ⟨x, hx, rfl⟩ := List.mem_map.1 hy
    exact ⟨(hq x hx).2.1, (hq x hx).2.2.1⟩
  · have hT := terms_error (u := u) (η := η) (l.map fun x => x / S) (l.map q) (by
      rw [List.forall₂_map_left_iff, List.forall₂_map_right_iff, List.forall₂_same]
      intro x hx
      exact ha.rel _ _ (hq x hx).2.2.2)
    have e1 : (l.map fun x => x / S).sum = l.sum / S := by
      have : (fun x : ℝ => x / S) = fun x => x * S⁻¹ := by funext x; rw [div_eq_mul_inv]
      rw [this, List.sum_map_mul_right, List.map_id', div_eq_mul_inv]
    rw [sum_map_abs_of_nonneg (l := l.map fun x => x / S) (by
      intro y hy
      obtain ⟨x, hx, rfl⟩ := List.mem_map.1 hy
      exact div_nonneg (hl x hx).1 hSpos.le), e1, List.length_map] at hT
    have hl0 : 0 ≤ l.sum := List.sum_nonneg fun x hx => (hl x hx).1
    set g := gam u (l.length - 1)
    have hg0 : 0 ≤ g := gam_nonneg hu _
    have h3 := abs_le.1 herr
    -- T ≤ 2 S
    have h4 : l.sum ≤ 2 * S := by nlinarith [h3.1]
    have h5 : l.sum / S ≤ 2 := (div_le_iff₀ hSpos).2 h4
    have h50 : 0 ≤ l.sum / S := div_nonneg hl0 hSpos.le
    have h6 : |l.sum / S - 1| ≤ 2 * g := by
      have : l.sum / S - 1 = (l.sum - S) / S := by field_simp
      rw [this, abs_div, abs_of_pos hSpos, div_le_iff₀ hSpos, abs_sub_comm]
      nlinarith
    have e : (l.map q).sum - 1 = ((l.map q).sum - l.sum / S) + (l.sum / S - 1) := by ring
    rw [e]
    refine (abs_add_le _ _).trans ?_
    have h7 : u * (l.sum / S) ≤ u * 2 := mul_le_mul_of_nonneg_left h5 hu
    linarith [hT.1]

theorem gam64 {n : Nat} (hn : n ≤ 2 ^ 51) :
    gam ((2 : ℝ) ^ (-53 : ℤ)) n ≤ n * (2 : ℝ) ^ (-52 : ℤ) ∧ gam ((2 : ℝ) ^ (-53 : ℤ)) n ≤ 1 / 2 := by
  have hu : (0 : ℝ) ≤ (2 : ℝ) ^ (-53 : ℤ) := by positivity
  have hw' : (n : ℝ) ≤ 2 ^ 51 := by exact_mod_cast hn
  have hk : (n : ℝ) * (2 : ℝ) ^ (-53 : ℤ) ≤ 1 / 4 := by
    calc (n : ℝ) * (2 : ℝ) ^ (-53 : ℤ) ≤ 2 ^ 51 * (2 : ℝ) ^ (-53 : ℤ) :=
          mul_le_mul_of_nonneg_right hw' hu
      _ = 1 / 4 := by norm_num
  have hg := gam_le hu n (by linarith)
  have e : (2 : ℝ) * 2 ^ (-53 : ℤ) = 2 ^ (-52 : ℤ) := by
    rw [← zpow_one_add₀ (by norm_num)]; norm_num
  constructor
  · rw [← e]
    generalize (2 : ℝ) ^ (-53 : ℤ) = v at *
    linarith
  · generalize (2 : ℝ) ^ (-53 : ℤ) = v at *
    linarith

/-- In double precision: within `n` units of `2⁻⁵⁰`. -/
theorem normalise_near64 (l : List ℝ) (hl : ∀ x ∈ l, 0 ≤ x ∧ FP.binary64.rnd x = (x : EReal)) (S : ℝ)
    (hS : pySum (l.map XR.fin : List (XR FP.binary64)) = .fin S) (hS0 : S ≠ 0)
    (hn : l.length ≤ 2 ^ 51) :
    ∃ q : List ℝ, (l.map (XR.fin (fp := FP.binary64))).mapM (fun x => x /ₚ .fin S) =
        .ok (q.map XR.fin) ∧ (∀ x ∈ q, FP.binary64.rnd x = (x : EReal)) ∧
      NearDist l.length (l.length * (2 : ℝ) ^ (-50 : ℤ)) q := by
  obtain ⟨hg1, hg2⟩ := gam64 (n := l.length - 1) (by omega)
  obtain ⟨q, h1, h2, h3, h4, h5⟩ := normalise_near FP.binary64_sound FP.binary64_accurate l hl S hS hS0 hg2
  refine ⟨q, h1, h2, h3, h4, h5.trans ?_⟩
  have hne : l ≠ [] := by
    rintro rfl
    simp only [List.map_nil, pySum, List.foldl_nil, XR.ofInt_zero FP.binary64_sound] at hS
    exact hS0 (XR.fin_inj.1 hS).symm
  have hpos : 0 < l.length := List.length_pos_iff.2 hne
  have ecast : ((l.length - 1 : Nat) : ℝ) = l.length - 1 := by
    rw [Nat.cast_sub hpos]; simp
  rw [ecast] at hg1
  have e52 : (2 : ℝ) ^ (-52 : ℤ) = 2 * 2 ^ (-53 : ℤ) := by
    rw [← zpow_one_add₀ (by norm_num)]; norm_num
  have e50 : (2 : ℝ) ^ (-50 : ℤ) = 8 * 2 ^ (-53 : ℤ) := by
    rw [show (8 : ℝ) = 2 ^ (3 : ℤ) by norm_num, ← zpow_add₀ (by norm_num)]; norm_num
  have e1075 : (2 : ℝ) ^ (-1075 : ℤ) ≤ 2 ^ (-53 : ℤ) := B64.pow_mono (by norm_num)
  have hu : (0 : ℝ) ≤ (2 : ℝ) ^ (-53 : ℤ) := by positivity
  rw [e52] at hg1
  rw [e50]
  have hl1 : (1 : ℝ) ≤ l.length := by exact_mod_cast hpos
  have hnη : (l.length : ℝ) * 2 ^ (-1075 : ℤ) ≤ l.length * 2 ^ (-53 : ℤ) :=
    mul_le_mul_of_nonneg_left e1075 (by linarith)
  generalize (2 : ℝ) ^ (-53 : ℤ) = v at *
  generalize (2 : ℝ) ^ (-1075 : ℤ) = z at *
  generalize gam v (l.length - 1) = g at *
  nlinarith

/-- The pair `[1 - a, a]`. -/
theorem pair_near64 {a : XR FP.binary64} (hu : XR.Unit a) (hr : XR.Rep a) :
    ∃ q : List ℝ, [ofInt 1 -ₚ a, a] = q.map XR.fin ∧ (∀ x ∈ q, FP.binary64.rnd x = (x : EReal)) ∧
      NearDist 2 ((2 : ℝ) ^ (-53 : ℤ)) q := by
  obtain ⟨r, rfl, h0, h1⟩ := hu
  have hs := FP.binary64_sound
  obtain ⟨b, hb, hb0, hb1⟩ := XR.one_sub_unit hs (p := (.fin r : XR FP.binary64)) ⟨r, rfl, h0, h1⟩
  have hb' : FP.binary64.rnd (1 + -r) = (b : EReal) := by
    rw [XR.ofInt_one hs] at hb
    exact XR.round_eq_fin.1 hb
  refine ⟨[b, r], by rw [hb]; rfl, ?_, rfl, ?_, ?_⟩
  · intro x hx
    simp at hx
    rcases hx with rfl | rfl
    · exact hs.idem _ _ hb'
    · exact hr
  · intro x hx
    simp at hx
    rcases hx with rfl | rfl
    · exact ⟨hb0, hb1⟩
    · exact ⟨h0, h1⟩
  · have hneg : FP.binary64.rnd (-r) = ((-r : ℝ) : EReal) := by
      have hr' : FP.binary64.rnd r = (r : EReal) := hr
      rw [hs.neg, hr']; simp
    have := FP.binary64_accurate.add 1 (-r) b hs.one hneg hb'
    have e : [b, r].sum - 1 = b - (1 + -r) := by simp; ring
    rw [e]
    refine this.trans ?_
    have h2 : |1 + -r| ≤ 1 := by rw [abs_le]; constructor <;> linarith
    have hu : (0 : ℝ) ≤ (2 : ℝ) ^ (-53 : ℤ) := by positivity
    nlinarith

theorem rnd_two_pow_1023 : FP.binary64.rnd (2 ^ (1023 : ℤ)) = ((2 ^ (1023 : ℤ) : ℝ) : EReal) := by
  have h : B64.rndFin (2 ^ (1023 : ℤ)) = 2 ^ (1023 : ℤ) :=
    B64.rndFin_of_representable ⟨1, 1023, by norm_num, by norm_num, by norm_num⟩
  have h2 := B64.rnd_of_fin (x := 2 ^ (1023 : ℤ)) (by
    rw [h, abs_of_pos (B64.pow_pos' _)]
    exact zpow_lt_zpow_right₀ (by norm_num) (by norm_num))
  rwa [h] at h2

/-- Sums of at most `2⁵¹` floats in [0, 2⁹⁰⁰] are finite. -/
theorem pySum_finite64 (l : List ℝ)
    (hl : ∀ x ∈ l, 0 ≤ x ∧ x ≤ 2 ^ (900 : ℤ) ∧ FP.binary64.rnd x = (x : EReal))
    (hn : l.length ≤ 2 ^ 51) :
    ∃ S, pySum (l.map XR.fin : List (XR FP.binary64)) = .fin S ∧ ∀ x ∈ l, x ≤ S := by
  have hs := FP.binary64_sound
  have hb : (1 + (2 : ℝ) ^ (-53 : ℤ)) ^ l.length * (|(0 : ℝ)| + (l.map abs).sum) ≤ 2 ^ (1023 : ℤ) := by
    rw [sum_map_abs_of_nonneg fun x hx => (hl x hx).1, abs_zero, zero_add]
    have h1 : l.sum ≤ l.length * 2 ^ (900 : ℤ) := by
      have := List.sum_le_card_nsmul l (2 ^ (900 : ℤ)) fun x hx => (hl x hx).2.1
      rwa [nsmul_eq_mul] at this
    have h2 : (1 + (2 : ℝ) ^ (-53 : ℤ)) ^ l.length ≤ 2 := by
      have := (gam64 hn).2
      unfold gam at this
      generalize (1 + (2 : ℝ) ^ (-53 : ℤ)) ^ l.length = g at *
      clear h1
      linarith
    have h3 : (l.length : ℝ) ≤ 2 ^ (51 : ℤ) := by
      have : (l.length : ℝ) ≤ 2 ^ 51 := by exact_mod_cast hn
      exact_mod_cast this
    have h4 : l.sum ≤ 2 ^ (951 : ℤ) := by
      refine h1.trans ?_
      rw [show (951 : ℤ) = 51 + 900 by norm_num, B64.pow_add']
      exact mul_le_mul_of_nonneg_right h3 (B64.pow_pos' _).le
    have h5 : (0 : ℝ) ≤ l.sum := List.sum_nonneg fun x hx => (hl x hx).1
    calc _ ≤ 2 * (2 : ℝ) ^ (951 : ℤ) := mul_le_mul h2 h4 h5 (by norm_num)
      _ = 2 ^ (952 : ℤ) := by rw [← zpow_one_add₀ (by norm_num)]; norm_num
      _ ≤ _ := B64.pow_mono (by norm_num)
  obtain ⟨S, h1, -, -⟩ := foldl_finite hs FP.binary64_accurate rnd_two_pow_1023 l
    (fun x hx => (hl x hx).2.2) 0 hs.zero hb
  have h2 : pySum (l.map XR.fin : List (XR FP.binary64)) = .fin S := by
    unfold pySum
    rw [XR.ofInt_zero hs]
    exact h1
  refine ⟨S, h2, fun x hx => ?_⟩
  obtain ⟨-, h4⟩ := XR.pySum_NN hs (l := (l.map XR.fin : List (XR FP.binary64))) (by
    intro y hy
    obtain ⟨a, ha, rfl⟩ := List.mem_map.1 hy
    exact XR.NN.fin (hl a ha).1 (hl a ha).2.2)
  have := h4 _ (List.mem_map.2 ⟨x, hx, rfl⟩)
  rw [h2] at this
  have h' : (x : EReal) ≤ (S : EReal) := this
  exact_mod_cast h'

theorem exp_600 : Real.exp 600 ≤ 2 ^ (900 : ℤ) := by
  have h1 : Real.exp 2 ≤ 8 := by
    have := Real.exp_one_lt_d9
    have e : Real.exp 2 = Real.exp 1 * Real.exp 1 := by rw [← Real.exp_add]; norm_num
    rw [e]
    nlinarith [Real.exp_pos 1]
  have e : Real.exp 600 = Real.exp 2 ^ 300 := by rw [← Real.exp_nat_mul]; norm_num
  have e' : (2 : ℝ) ^ (900 : ℤ) = 8 ^ 300 := by
    rw [show (8 : ℝ) = 2 ^ (3 : ℤ) by norm_num, ← zpow_natCast, ← zpow_mul]
    rfl
  rw [e, e']
  exact pow_le_pow_left₀ (Real.exp_pos _).le h1 300

theorem rnd_two_pow (k : ℤ) (h1 : -1074 ≤ k) (h2 : k < 1024) :
    FP.binary64.rnd (2 ^ k) = ((2 ^ k : ℝ) : EReal) := by
  have h : B64.rndFin (2 ^ k) = 2 ^ k :=
    B64.rndFin_of_representable ⟨1, k, by norm_num, h1, by norm_num⟩
  have h3 := B64.rnd_of_fin (x := 2 ^ k) (by
    rw [h, abs_of_pos (B64.pow_pos' _)]
    exact zpow_lt_zpow_right₀ (by norm_num) h2)
  rwa [h] at h3

/-- Rounding preserves bounds by powers of two. -/
theorem rnd_between {x : ℝ} {j k : ℤ} (hj : -1074 ≤ j) (hk : k < 1024) (h1 : (2 : ℝ) ^ j ≤ x)
    (h2 : x ≤ 2 ^ k) : ∃ v : ℝ, FP.binary64.rnd x = (v : EReal) ∧ (2 : ℝ) ^ j ≤ v ∧ v ≤ 2 ^ k := by
  have hs := FP.binary64_sound
  have hjk : j ≤ k := (zpow_le_zpow_iff_right₀ (by norm_num : (1 : ℝ) < 2)).1 (h1.trans h2)
  have hx : 0 < x := (B64.pow_pos' j).trans_le h1
  obtain ⟨v, hv⟩ := rnd_finite hs (rnd_two_pow k (by omega) hk) (t := x) (by rwa [abs_of_pos hx])
  have e1 := hs.mono h1
  have e2 := hs.mono h2
  rw [rnd_two_pow j hj (by omega), hv] at e1
  rw [rnd_two_pow k (by omega) hk, hv] at e2
  exact ⟨v, hv, by exact_mod_cast e1, by exact_mod_cast e2⟩

/-- Exponentials of numbers up to 600. -/
theorem safeExp64 {x : ℝ} (hx : x ≤ 600) :
    ∃ e : ℝ, safeExp (.fin x : XR FP.binary64) = .ok (.fin e) ∧ 0 ≤ e ∧ e ≤ 2 ^ (900 : ℤ) ∧
      FP.binary64.rnd e = (e : EReal) ∧ (-600 ≤ x → (2 : ℝ) ^ (-900 : ℤ) ≤ e) := by
  have hs := FP.binary64_sound
  have hle : Real.exp x ≤ 2 ^ (900 : ℤ) := (Real.exp_le_exp.2 hx).trans exp_600
  obtain ⟨v, hv⟩ := rnd_finite hs (rnd_two_pow 900 (by norm_num) (by norm_num)) (t := Real.exp x)
    (by rwa [abs_of_pos (Real.exp_pos x)])
  have hrf := B64.rnd_coe hv
  have hexp : FP.binary64.exp x = some v := by
    show B64.exp x = _
    unfold B64.exp
    have hv' : B64.rnd (Real.exp x) = (v : EReal) := hv
    rw [if_neg (by rw [hv']; exact EReal.coe_ne_top v), hrf]
  obtain ⟨h0, hr⟩ := hs.exp_rep x v hexp
  refine ⟨v, ?_, h0, ?_, hr, ?_⟩
  · have : Arith.exp (.fin x : XR FP.binary64) = .ok (.fin v) := by
      show XR.exp (.fin x) = _
      simp [XR.exp, hexp]
    simp [safeExp, this]
  · have := hs.mono hle
    rw [rnd_two_pow 900 (by norm_num) (by norm_num), hv] at this
    exact_mod_cast this
  · intro hx'
    have h1 : (2 : ℝ) ^ (-900 : ℤ) ≤ Real.exp x := by
      have h2 : Real.exp (-600) ≤ Real.exp x := Real.exp_le_exp.2 hx'
      refine le_trans ?_ h2
      rw [Real.exp_neg, zpow_neg]
      exact inv_anti₀ (Real.exp_pos _) exp_600
    have := hs.mono h1
    rw [rnd_two_pow (-900) (by norm_num) (by norm_num), hv] at this
    exact_mod_cast this

/-- The logistic function at a number not below -600. -/
theorem expit64 {x : ℝ} (hx : -600 ≤ x) :
    ∃ a : ℝ, expit (.fin x : XR FP.binary64) = .ok (.fin a) ∧ 0 < a ∧ a ≤ 1 ∧
      FP.binary64.rnd a = (a : EReal) := by
  have hs := FP.binary64_sound
  obtain ⟨p, hp, ⟨a, rfl, h0, h1⟩, hr⟩ := XR.expit_unit hs (x := (.fin x : XR FP.binary64)) (by simp)
  refine ⟨a, hp, ?_, h1, hr⟩
  obtain ⟨e, he, he0, he1, -, -⟩ := safeExp64 (x := -x) (by linarith)
  have hneg : Arith.neg (.fin x : XR FP.binary64) = .fin (-x) := rfl
  simp only [expit, hneg, he, py_ok_bind, XR.ofInt_one hs] at hp
  obtain ⟨d, hd, hd1, hd2⟩ := rnd_between (x := 1 + e) (j := 0) (k := 901) (by norm_num) (by norm_num)
    (by simpa using he0) (by
      have h3 : (1 : ℝ) ≤ 2 ^ (900 : ℤ) := by
        have : (2 : ℝ) ^ (0 : ℤ) ≤ 2 ^ (900 : ℤ) := B64.pow_mono (by norm_num)
        simpa using this
      rw [show (901 : ℤ) = 1 + 900 by norm_num, B64.pow_add', zpow_one]
      generalize (2 : ℝ) ^ (900 : ℤ) = P at *
      linarith)
  have hd1 : 1 ≤ d := by simpa using hd1
  have hadd : (.fin 1 : XR FP.binary64) +ₚ .fin e = .fin d := XR.round_eq_fin.2 hd
  rw [hadd, XR.div_fin, if_neg (by linarith)] at hp
  have hq := XR.round_eq_fin.1 (Except.ok.inj hp)
  have h4 : (2 : ℝ) ^ (-901 : ℤ) ≤ 1 / d := by
    rw [zpow_neg, one_div]
    exact inv_anti₀ (by linarith) hd2
  have := hs.mono h4
  rw [rnd_two_pow (-901) (by norm_num) (by norm_num), hq] at this
  have h5 : (2 : ℝ) ^ (-901 : ℤ) ≤ a := by exact_mod_cast this
  exact (B64.pow_pos' _).trans_le h5

/-- The library's softmax on tame scores. -/
theorem sfmax64 {r : List ℝ} (ht : Tame r) (hn : r.length ≤ 2 ^ 51) :
    ∃ q : List ℝ, sfmax (r.map (XR.fin (fp := FP.binary64))) = .ok (q.map XR.fin) ∧
      (∀ x ∈ q, FP.binary64.rnd x = (x : EReal)) ∧
      NearDist r.length (r.length * (2 : ℝ) ^ (-50 : ℤ)) q := by
  have hE : ∀ x ∈ r, _ := fun x hx => safeExp64 (ht.1 x hx)
  choose! e he using hE
  obtain ⟨x0, hx0, hx1⟩ := ht.2
  obtain ⟨S, hS, hSle⟩ := pySum_finite64 (r.map e) (by
    intro y hy
    obtain ⟨x, hx, rfl⟩ := List.mem_map.1 hy
    exact ⟨(he x hx).2.1, (he x hx).2.2.1, (he x hx).2.2.2.1⟩) (by simpa using hn)
  have hpos : 0 < S := by
    have h1 := (he x0 hx0).2.2.2.2 hx1
    have h2 := hSle _ (List.mem_map.2 ⟨x0, hx0, rfl⟩)
    have h3 : (0 : ℝ) < 2 ^ (-900 : ℤ) := B64.pow_pos' _
    linarith
  obtain ⟨q, h1, h2, h3⟩ := normalise_near64 (r.map e) (by
    intro y hy
    obtain ⟨x, hx, rfl⟩ := List.mem_map.1 hy
    exact ⟨(he x hx).2.1, (he x hx).2.2.2.1⟩) S hS hpos.ne' (by simpa using hn)
  rw [List.length_map] at h3
  refine ⟨q, ?_, h2, h3⟩
  unfold sfmax
  rw [mapM_map', mapM_ok_map (g := fun x => .fin (e x)) fun x hx => (he x hx).1, py_ok_bind]
  rw [List.map_map] at h1 hS
  have hS' : pySum (r.map fun x => (.fin (e x) : XR FP.binary64)) = .fin S := hS
  rw [hS']
  exact h1

/-- Normalising logistic scores. -/
theorem ovr64 {r : List ℝ} (ht : ∃ x ∈ r, -600 ≤ x) (hn : r.length ≤ 2 ^ 51) :
    ∃ q : List ℝ, ((r.map (XR.fin (fp := FP.binary64))).mapM expit >>= Linear.normRow) =
        .ok (q.map XR.fin) ∧
      (∀ x ∈ q, FP.binary64.rnd x = (x : EReal)) ∧
      NearDist r.length (r.length * (2 : ℝ) ^ (-50 : ℤ)) q := by
  have hs := FP.binary64_sound
  have hE : ∀ x ∈ r, ∃ a : ℝ, expit (.fin x : XR FP.binary64) = .ok (.fin a) ∧ 0 ≤ a ∧ a ≤ 1 ∧
      FP.binary64.rnd a = (a : EReal) := by
    intro x hx
    obtain ⟨p, hp, ⟨a, rfl, h0, h1⟩, hr⟩ := XR.expit_unit hs (x := (.fin x : XR FP.binary64)) (by simp)
    exact ⟨a, hp, h0, h1, hr⟩
  choose! e he using hE
  obtain ⟨x0, hx0, hx1⟩ := ht
  obtain ⟨S, hS, hSle⟩ := pySum_finite64 (r.map e) (by
    intro y hy
    obtain ⟨x, hx, rfl⟩ := List.mem_map.1 hy
    refine ⟨(he x hx).2.1, (he x hx).2.2.1.trans ?_, (he x hx).2.2.2⟩
    have : (2 : ℝ) ^ (0 : ℤ) ≤ 2 ^ (900 : ℤ) := B64.pow_mono (by norm_num)
    simpa using this) (by simpa using hn)
  have hpos : 0 < S := by
    obtain ⟨a, ha, ha0, -, -⟩ := expit64 hx1
    have h1 := (he x0 hx0).1
    rw [ha] at h1
    have h2 : a = e x0 := XR.fin_inj.1 (Except.ok.inj h1)
    have h3 := hSle _ (List.mem_map.2 ⟨x0, hx0, rfl⟩)
    rw [h2] at ha0
    linarith
  obtain ⟨q, h1, h2, h3⟩ := normalise_near64 (r.map e) (by
    intro y hy
    obtain ⟨x, hx, rfl⟩ := List.mem_map.1 hy
    exact ⟨(he x hx).2.1, (he x hx).2.2.2⟩) S hS hpos.ne' (by simpa using hn)
  rw [List.length_map] at h3
  refine ⟨q, ?_, h2, h3⟩
  rw [mapM_map', mapM_ok_map (g := fun x => .fin (e x)) fun x hx => (he x hx).1, py_ok_bind]
  rw [List.map_map] at h1 hS
  have hS' : pySum (r.map fun x => (.fin (e x) : XR FP.binary64)) = .fin S := hS
  unfold Linear.normRow
  rw [hS', XR.ofInt_zero hs]
  have : ((.fin S : XR FP.binary64) ==ₚ .fin 0) = false := by
    rw [XR.eq_fin]; exact decide_eq_false hpos.ne'
  rw [this]
  exact h1

end PurePredict
