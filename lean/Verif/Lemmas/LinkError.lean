import Verif.Lemmas.EnsembleError
import Verif.Spec.Linear
import Mathlib.Analysis.SpecialFunctions.Sigmoid
import Mathlib.Analysis.Calculus.MeanValue
/-
Accuracy of the logistic function, the softmax and normalised logistic functions in double precision.
-/
namespace PurePredict
open Spec

theorem sigmoid_eq (x : ℝ) : Spec.sigmoid x = Real.sigmoid x := by
  rw [Real.sigmoid_def, Spec.sigmoid, one_div]

/-- The logistic function does not amplify errors: it divides them by four. -/
theorem sigmoid_lip (x y : ℝ) : |Spec.sigmoid x - Spec.sigmoid y| ≤ |x - y| / 4 := by
  rw [sigmoid_eq, sigmoid_eq]
  have h := Convex.norm_image_sub_le_of_norm_hasDerivWithin_le (f := Real.sigmoid)
    (f' := fun x => Real.sigmoid x * (1 - Real.sigmoid x)) (s := Set.univ) (C := 1 / 4)
    (fun x _ => (Real.hasDerivAt_sigmoid x).hasDerivWithinAt) (by
      intro x _
      have h0 := Real.sigmoid_pos x
      have h1 := Real.sigmoid_lt_one x
      rw [Real.norm_eq_abs, abs_of_nonneg (mul_nonneg h0.le (by linarith))]
      nlinarith [sq_nonneg (Real.sigmoid x - 1 / 2)]) convex_univ (Set.mem_univ y) (Set.mem_univ x)
  rw [Real.norm_eq_abs, Real.norm_eq_abs] at h
  linarith

theorem sigmoid_pos' (x : ℝ) : 0 < Spec.sigmoid x := by rw [sigmoid_eq]; exact Real.sigmoid_pos x

theorem sigmoid_le_one' (x : ℝ) : Spec.sigmoid x ≤ 1 := by
  rw [sigmoid_eq]; exact (Real.sigmoid_lt_one x).le

/-- `log ∘ sigmoid` is 1-Lipschitz. -/
theorem sigmoid_ratio {x y δ : ℝ} (h : |x - y| ≤ δ) :
    Spec.sigmoid x ≤ Real.exp δ * Spec.sigmoid y := by
  have h1 := abs_le.1 h
  have hδ : 0 ≤ δ := (abs_nonneg _).trans h
  unfold Spec.sigmoid
  rw [mul_one_div, div_le_div_iff₀ (by positivity) (by positivity), one_mul, mul_add, mul_one,
    ← Real.exp_add]
  have h2 : (1 : ℝ) ≤ Real.exp δ := Real.one_le_exp hδ
  have h3 : Real.exp (-y) ≤ Real.exp (δ + -x) := Real.exp_le_exp.2 (by linarith)
  linarith

/-- Normalising positive numbers known up to a factor. -/
theorem share_ratio {k : Nat} {f g : Nat → ℝ} {r : ℝ} (hr : 1 ≤ r) (hf : ∀ j < k, 0 < f j)
    (hg : ∀ j < k, 0 < g j) (h1 : ∀ j < k, f j ≤ r * g j) (h2 : ∀ j < k, g j ≤ r * f j)
    {c : Nat} (hc : c < k) :
    |f c / ∑ j ∈ Finset.range k, f j - g c / ∑ j ∈ Finset.range k, g j| ≤ r ^ 2 - 1 := by
  have hpos : ∀ {f : Nat → ℝ}, (∀ j < k, 0 < f j) → 0 < ∑ j ∈ Finset.range k, f j := fun hf =>
    Finset.sum_pos (fun j hj => hf j (Finset.mem_range.1 hj)) ⟨c, Finset.mem_range.2 hc⟩
  have key : ∀ {f g : Nat → ℝ}, (∀ j < k, 0 < f j) → (∀ j < k, 0 < g j) → (∀ j < k, f j ≤ r * g j) →
      (∀ j < k, g j ≤ r * f j) →
      f c / ∑ j ∈ Finset.range k, f j - g c / ∑ j ∈ Finset.range k, g j ≤ r ^ 2 - 1 := by
    intro f g hf hg h1 h2
    have hF := hpos hf
    have hG := hpos hg
    have h3 : ∑ j ∈ Finset.range k, g j ≤ r * ∑ j ∈ Finset.range k, f j := by
      rw [Finset.mul_sum]
      exact Finset.sum_le_sum fun j hj => h2 j (Finset.mem_range.1 hj)
    have h4 : f c / ∑ j ∈ Finset.range k, f j ≤ r ^ 2 * (g c / ∑ j ∈ Finset.range k, g j) := by
      rw [← mul_div_assoc, div_le_div_iff₀ hF hG]
      have h0 := (hf c hc).le
      have h0' := (hg c hc).le
      calc f c * ∑ j ∈ Finset.range k, g j ≤ (r * g c) * (r * ∑ j ∈ Finset.range k, f j) :=
            mul_le_mul (h1 c hc) h3 hG.le (mul_nonneg (by linarith) h0')
        _ = _ := by ring
    have h5 : g c / ∑ j ∈ Finset.range k, g j ≤ 1 := by
      rw [div_le_one hG]
      exact Finset.single_le_sum (f := g) (fun j hj => (hg j (Finset.mem_range.1 hj)).le)
        (Finset.mem_range.2 hc)
    have h6 : 0 ≤ r ^ 2 - 1 := by nlinarith
    nlinarith
  rw [abs_le]
  have := key hf hg h1 h2
  have := key hg hf h2 h1
  constructor <;> linarith

theorem exp_two_sq (δ : ℝ) : Real.exp δ ^ 2 = Real.exp (2 * δ) := by
  rw [← Real.exp_nat_mul]; norm_num

/-- Scores known up to `δ` give a softmax known up to `exp (2δ) - 1`. -/
theorem softmax_lip {k : Nat} {s t : Nat → ℝ} {δ : ℝ} (h : ∀ j < k, |s j - t j| ≤ δ) {c : Nat}
    (hc : c < k) : |softmax k s c - softmax k t c| ≤ Real.exp (2 * δ) - 1 := by
  have hδ : 0 ≤ δ := (abs_nonneg _).trans (h c hc)
  rw [← exp_two_sq]
  refine share_ratio (f := fun j => Real.exp (s j)) (g := fun j => Real.exp (t j))
    (Real.one_le_exp hδ) (fun j _ => Real.exp_pos _) (fun j _ => Real.exp_pos _) ?_ ?_ hc
  · intro j hj
    rw [← Real.exp_add]
    have := abs_le.1 (h j hj)
    exact Real.exp_le_exp.2 (by linarith)
  · intro j hj
    rw [← Real.exp_add]
    have := abs_le.1 (h j hj)
    exact Real.exp_le_exp.2 (by linarith)

/-- Scores known up to `δ` give one-vs-rest probabilities known up to `exp (2δ) - 1`. -/
theorem ovr_lip {k : Nat} {s t : Nat → ℝ} {δ : ℝ} (h : ∀ j < k, |s j - t j| ≤ δ) {c : Nat}
    (hc : c < k) : |ovr k s c - ovr k t c| ≤ Real.exp (2 * δ) - 1 := by
  have hδ : 0 ≤ δ := (abs_nonneg _).trans (h c hc)
  rw [← exp_two_sq]
  refine share_ratio (f := fun j => Spec.sigmoid (s j)) (g := fun j => Spec.sigmoid (t j))
    (Real.one_le_exp hδ) (fun j _ => sigmoid_pos' _) (fun j _ => sigmoid_pos' _) ?_ ?_ hc
  · exact fun j hj => sigmoid_ratio (h j hj)
  · intro j hj
    refine sigmoid_ratio ?_
    rw [abs_sub_comm]
    exact h j hj

/-- The computed exponential. -/
theorem safeExp_error64 {x e : ℝ} (h : safeExp (.fin x : XR FP.binary64) = .ok (.fin e)) :
    FP.binary64.rnd (Real.exp x) = (e : EReal) := by
  cases he : FP.binary64.exp x with
  | none =>
    have : Arith.exp (.fin x : XR FP.binary64) = .error .overflowError := by
      show XR.exp (.fin x) = _
      simp [XR.exp, he]
    rw [safeExp, this] at h
    cases h
  | some v =>
    have : Arith.exp (.fin x : XR FP.binary64) = .ok (.fin v) := by
      show XR.exp (.fin x) = _
      simp [XR.exp, he]
    rw [safeExp, this] at h
    have : v = e := XR.fin_inj.1 (Except.ok.inj h)
    subst this
    exact B64.rnd_exp he

theorem exp_600_ge : (2 : ℝ) ^ (800 : ℤ) ≤ Real.exp 600 := by
  have h1 : (16 : ℝ) ≤ Real.exp 3 := by
    have := Real.exp_one_gt_d9
    have e : Real.exp 3 = Real.exp 1 * Real.exp 1 * Real.exp 1 := by
      rw [← Real.exp_add, ← Real.exp_add]; norm_num
    rw [e]
    have h2 : (7 : ℝ) ≤ Real.exp 1 * Real.exp 1 := by nlinarith
    nlinarith
  have e : Real.exp 600 = Real.exp 3 ^ 200 := by rw [← Real.exp_nat_mul]; norm_num
  have e' : (2 : ℝ) ^ (800 : ℤ) = 16 ^ 200 := by
    rw [show (16 : ℝ) = 2 ^ (4 : ℤ) by norm_num, ← zpow_natCast, ← zpow_mul]
    rfl
  rw [e, e']
  exact pow_le_pow_left₀ (by norm_num) h1 200

/-- The computed logistic function: relative error `2⁻⁵¹`, and `2⁻⁸⁰⁰` near zero. -/
theorem expit_error64 (x : ℝ) :
    ∃ a : ℝ, expit (.fin x : XR FP.binary64) = .ok (.fin a) ∧ 0 ≤ a ∧ a ≤ 1 ∧
      FP.binary64.rnd a = (a : EReal) ∧
      |a - Spec.sigmoid x| ≤ 4 * (2 : ℝ) ^ (-53 : ℤ) * Spec.sigmoid x + (2 : ℝ) ^ (-800 : ℤ) := by
  have hs := FP.binary64_sound
  have hacc := FP.binary64_accurate
  obtain ⟨p, hp, ⟨a, rfl, h0, h1⟩, hr⟩ := XR.expit_unit hs (x := (.fin x : XR FP.binary64)) (by simp)
  refine ⟨a, hp, h0, h1, hr, ?_⟩
  have hσ := sigmoid_pos' x
  have hneg : Arith.neg (.fin x : XR FP.binary64) = .fin (-x) := rfl
  rcases le_or_gt (-600) x with hx | hx
  · obtain ⟨e, he, he0, he1, her, -⟩ := safeExp64 (x := -x) (by linarith)
    simp only [expit, hneg, he, py_ok_bind, XR.ofInt_one hs] at hp
    obtain ⟨d, hd, hd1, hd2⟩ := rnd_between (x := 1 + e) (j := 0) (k := 901) (by norm_num)
      (by norm_num) (by simpa using he0) (by
        have h3 : (1 : ℝ) ≤ 2 ^ (900 : ℤ) := by
          have : (2 : ℝ) ^ (0 : ℤ) ≤ 2 ^ (900 : ℤ) := B64.pow_mono (by norm_num)
          simpa using this
        rw [show (901 : ℤ) = 1 + 900 by norm_num, B64.pow_add', zpow_one]
        generalize (2 : ℝ) ^ (900 : ℤ) = P at *
        linarith)
    have hd1 : 1 ≤ d := by simpa using hd1
    have hadd : (.fin 1 : XR FP.binary64) +ₚ .fin e = .fin d := XR.round_eq_fin.2 hd
    rw [hadd, XR.div_fin, if_neg (by linarith)] at hp
    have hq := XR.round_eq_fin.1 (Except.ok.inj hp)
    have b1 := hacc.rel _ _ (safeExp_error64 he)
    have b2 := hacc.add 1 e d hs.one her hd
    have b3 := hacc.rel _ _ hq
    have hE := Real.exp_pos (-x)
    have hη1 : (2 : ℝ) ^ (-1075 : ℤ) ≤ (2 : ℝ) ^ (-60 : ℤ) * (2 : ℝ) ^ (-800 : ℤ) := by
      rw [← B64.pow_add']; exact B64.pow_mono (by norm_num)
    have hη0 : (0 : ℝ) < (2 : ℝ) ^ (-1075 : ℤ) := B64.pow_pos' _
    have hη2 : (2 : ℝ) ^ (-1075 : ℤ) ≤ (2 : ℝ) ^ (-60 : ℤ) := B64.pow_mono (by norm_num)
    have h800 : (0 : ℝ) < (2 : ℝ) ^ (-800 : ℤ) := B64.pow_pos' _
    rw [abs_of_pos hE] at b1
    rw [abs_of_pos (by linarith : (0 : ℝ) < 1 + e)] at b2
    have hd0 : 0 < 1 / d := by positivity
    rw [abs_of_pos hd0] at b3
    have hσd : Spec.sigmoid x = 1 / (1 + Real.exp (-x)) := rfl
    rw [hσd] at hσ ⊢
    generalize Real.exp (-x) = E at *
    generalize (2 : ℝ) ^ (-1075 : ℤ) = η at *
    generalize (2 : ℝ) ^ (-800 : ℤ) = θ at *
    have hu : (2 : ℝ) ^ (-53 : ℤ) = 1 / 2 ^ 53 := by norm_num
    have h60 : (2 : ℝ) ^ (-60 : ℤ) = 1 / 2 ^ 60 := by norm_num
    rw [hu] at b1 b2 b3 ⊢
    rw [h60] at hη1 hη2
    have hηθ : η ≤ θ := by linarith
    clear hη1 hp hq hadd hd hd2 he he1 hr
    have c1 := abs_le.1 b1
    have c2 := abs_le.1 b2
    have c3 := abs_le.1 b3
    -- the denominator
    set D := 1 + E with hD
    have hDpos : 0 < D := by linarith
    have k1 : d - D ≤ (21 / 10 * (1 / 2 ^ 53)) * D := by
      norm_num at c1 c2 hη2 ⊢; nlinarith
    have k2 : D - d ≤ (21 / 10 * (1 / 2 ^ 53)) * D := by
      norm_num at c1 c2 hη2 ⊢; nlinarith
    have hdpos : 0 < d := by linarith
    have m1 : 1 / d - 1 / D ≤ (22 / 10 * (1 / 2 ^ 53)) * (1 / D) := by
      rw [div_sub_div _ _ hdpos.ne' hDpos.ne', mul_one_div, div_le_div_iff₀ (mul_pos hdpos hDpos) hDpos]
      have : D - d ≤ (22 / 10 * (1 / 2 ^ 53)) * d := by norm_num at k1 k2 ⊢; linarith
      nlinarith
    have m2 : 1 / D - 1 / d ≤ (22 / 10 * (1 / 2 ^ 53)) * (1 / D) := by
      rw [div_sub_div _ _ hDpos.ne' hdpos.ne', mul_one_div, div_le_div_iff₀ (mul_pos hDpos hdpos) hDpos]
      have : d - D ≤ (22 / 10 * (1 / 2 ^ 53)) * d := by norm_num at k1 k2 ⊢; linarith
      nlinarith
    generalize 1 / d = i at *
    generalize 1 / D = j at *
    rw [abs_le]
    norm_num at *
    constructor <;> linarith
  · -- far to the left both are below `2⁻⁸⁰⁰`
    have hbig : (2 : ℝ) ^ (800 : ℤ) ≤ Real.exp (-x) :=
      exp_600_ge.trans (Real.exp_le_exp.2 (by linarith))
    have hP : (0 : ℝ) < 2 ^ (800 : ℤ) := B64.pow_pos' _
    have hσ2 : Spec.sigmoid x ≤ 2 ^ (-800 : ℤ) := by
      unfold Spec.sigmoid
      rw [zpow_neg, one_div]
      refine inv_anti₀ hP ?_
      generalize (2 : ℝ) ^ (800 : ℤ) = P at *
      linarith
    have ha2 : a ≤ 2 ^ (-800 : ℤ) := by
      obtain ⟨v, hv, hNN⟩ := XR.safeExp_NN hs (x := (.fin (-x) : XR FP.binary64)) (by simp)
      simp only [expit, hneg, hv, py_ok_bind, XR.ofInt_one hs] at hp
      have hone : XR.NN (.fin 1 : XR FP.binary64) := XR.NN.fin zero_le_one hs.one
      obtain ⟨g1, -, g3⟩ := XR.NN.add hs hone hNN
      have hv8 : (((2 : ℝ) ^ (800 : ℤ) : ℝ) : EReal) ≤ v.toE := by
        cases v with
        | fin e =>
          have := hs.mono hbig
          rw [rnd_two_pow 800 (by norm_num) (by norm_num), safeExp_error64 hv] at this
          exact this
        | pinf => exact le_top
        | nan => exact absurd hNN.1 (by simp)
        | ninf => exact absurd hNN.2.1 (by simp [XR.toE])
      rcases g1.cases with h | ⟨d, h, hd0, hd⟩
      · rw [h] at hp
        have : (.fin 0 : XR FP.binary64) = .fin a := Except.ok.inj hp
        rw [← XR.fin_inj.1 this]
        positivity
      · rw [h] at hp g3
        have hd8 : (2 : ℝ) ^ (800 : ℤ) ≤ d := by
          have : (((2 : ℝ) ^ (800 : ℤ) : ℝ) : EReal) ≤ (d : EReal) := hv8.trans g3
          exact_mod_cast this
        have hdpos : 0 < d := hP.trans_le hd8
        rw [XR.div_fin, if_neg hdpos.ne'] at hp
        have hq := XR.round_eq_fin.1 (Except.ok.inj hp)
        have h4 : 1 / d ≤ (2 : ℝ) ^ (-800 : ℤ) := by
          rw [zpow_neg, one_div]
          exact inv_anti₀ hP hd8
        have := hs.mono h4
        rw [rnd_two_pow (-800) (by norm_num) (by norm_num), hq] at this
        exact_mod_cast this
    have h53 : (0 : ℝ) ≤ 4 * (2 : ℝ) ^ (-53 : ℤ) * Spec.sigmoid x := by positivity
    rw [abs_le]
    constructor <;> linarith

/-- In absolute terms, two units of `2⁻⁵²`. -/
theorem expit_abs64 {x a : ℝ}
    (h : |a - Spec.sigmoid x| ≤ 4 * (2 : ℝ) ^ (-53 : ℤ) * Spec.sigmoid x + (2 : ℝ) ^ (-800 : ℤ)) :
    |a - Spec.sigmoid x| ≤ (2 : ℝ) ^ (-51 : ℤ) + (2 : ℝ) ^ (-800 : ℤ) := by
  refine h.trans (add_le_add ?_ le_rfl)
  have e : (2 : ℝ) ^ (-51 : ℤ) = 4 * 2 ^ (-53 : ℤ) := by norm_num
  rw [e]
  have h1 := sigmoid_le_one' x
  have h53 : (0 : ℝ) ≤ 4 * (2 : ℝ) ^ (-53 : ℤ) := by positivity
  nlinarith

/-- Normalising numbers known up to a relative error `ρ` and an absolute error `θ`. -/
theorem perturbed_share {l : List ℝ} {e E : ℝ → ℝ} {ρ θ : ℝ} (hρ : 0 ≤ ρ) (hθ : 0 ≤ θ)
    (he : ∀ x ∈ l, 0 < e x) (hE : ∀ x ∈ l, |E x - e x| ≤ ρ * e x + θ)
    (hsmall : ρ * (l.map e).sum + l.length * θ ≤ (l.map e).sum / 2) {x : ℝ} (hx : x ∈ l) :
    |E x / (l.map E).sum - e x / (l.map e).sum| ≤
      4 * ρ * (e x / (l.map e).sum) + 2 * (l.length + 1) * (θ / (l.map e).sum) := by
  set T := (l.map e).sum with hT
  set S := (l.map E).sum with hS
  have hsum : ∀ l' : List ℝ, (∀ x ∈ l', x ∈ l) →
      |(l'.map E).sum - (l'.map e).sum| ≤ ρ * (l'.map e).sum + l'.length * θ := by
    intro l'
    induction l' with
    | nil => simp
    | cons y l' ih =>
      intro hsub
      have h1 := ih fun z hz => hsub z (by simp [hz])
      have h2 := hE y (hsub y (by simp))
      simp only [List.map_cons, List.sum_cons, List.length_cons]
      push_cast
      have := abs_add_le (E y - e y) ((l'.map E).sum - (l'.map e).sum)
      have e1 : E y + (l'.map E).sum - (e y + (l'.map e).sum) =
        E y - e y + ((l'.map E).sum - (l'.map e).sum) := by ring
      rw [e1]
      linarith
  have h1 := hsum l fun _ h => h
  have hTx : e x ≤ T := List.single_le_sum (by
    intro y hy
    obtain ⟨z, hz, rfl⟩ := List.mem_map.1 hy
    exact (he z hz).le) _ (List.mem_map.2 ⟨x, hx, rfl⟩)
  have hex := he x hx
  have hTpos : 0 < T := hex.trans_le hTx
  have h2 := abs_le.1 h1
  have hShalf : T / 2 ≤ S := by linarith
  have hSpos : 0 < S := by linarith
  have h3 := hE x hx
  set k : ℝ := (l.length : ℝ) with hk
  have hk0 : 0 ≤ k := Nat.cast_nonneg _
  have e2 : E x / S - e x / T = ((E x - e x) * T - e x * (S - T)) / (S * T) := by
    field_simp
    ring
  have e3 : 4 * ρ * (e x / T) + 2 * (k + 1) * (θ / T) = (4 * ρ * e x + 2 * (k + 1) * θ) / T := by
    field_simp
  rw [e2, e3, abs_div, abs_of_pos (mul_pos hSpos hTpos), div_le_div_iff₀ (mul_pos hSpos hTpos) hTpos]
  have h4 : |(E x - e x) * T - e x * (S - T)| ≤ (ρ * e x + θ) * T + e x * (ρ * T + k * θ) := by
    refine (abs_sub _ _).trans ?_
    rw [abs_mul, abs_mul, abs_of_pos hTpos, abs_of_pos hex]
    exact add_le_add (mul_le_mul_of_nonneg_right h3 hTpos.le) (mul_le_mul_of_nonneg_left h1 hex.le)
  have h5 : (ρ * e x + θ) * T + e x * (ρ * T + k * θ) ≤ (2 * ρ * e x + (k + 1) * θ) * T := by
    have : e x * (k * θ) ≤ T * (k * θ) := mul_le_mul_of_nonneg_right hTx (mul_nonneg hk0 hθ)
    nlinarith
  have h6 : (2 * ρ * e x + (k + 1) * θ) * T ≤ (2 * ρ * e x + (k + 1) * θ) * (2 * S) :=
    mul_le_mul_of_nonneg_left (by linarith) (by positivity)
  calc _ ≤ (2 * ρ * e x + (k + 1) * θ) * (2 * S) * T :=
        mul_le_mul_of_nonneg_right (h4.trans (h5.trans h6)) hTpos.le
    _ = _ := by ring

/-- Normalising computed exponentials or logistic values by Python's `sum`. -/
theorem shares64 {l : List ℝ} {e E : ℝ → ℝ} (r : Nat) (θ : ℝ) (hr : r ≤ 4) (hθ : 0 ≤ θ)
    (hn : l.length ≤ 2 ^ 51)
    (he : ∀ x ∈ l, 0 < e x) (hE0 : ∀ x ∈ l, 0 ≤ E x ∧ FP.binary64.rnd (E x) = (E x : EReal))
    (hE : ∀ x ∈ l, |E x - e x| ≤ r * (2 : ℝ) ^ (-53 : ℤ) * e x + θ)
    (hT : θ * 2 ^ (150 : ℤ) ≤ (l.map e).sum) {S : ℝ}
    (hS : pySum ((l.map E).map XR.fin : List (XR FP.binary64)) = .fin S) (hSpos : 0 < S)
    {x q : ℝ} (hx : x ∈ l) (hq : FP.binary64.rnd (E x / S) = (q : EReal)) :
    |q - e x / (l.map e).sum| ≤ (l.length + r) * (2 : ℝ) ^ (-51 : ℤ) := by
  have hs := FP.binary64_sound
  have hacc := FP.binary64_accurate
  have hk1 : 1 ≤ l.length := List.length_pos_of_mem hx
  have hg := gam64 (n := (l.map E).length - 1) (by rw [List.length_map]; omega)
  have hl : ∀ y ∈ l.map E, 0 ≤ y ∧ FP.binary64.rnd y = (y : EReal) := by
    intro y hy
    obtain ⟨z, hz, rfl⟩ := List.mem_map.1 hy
    exact hE0 z hz
  have hmem : E x ∈ l.map E := List.mem_map.2 ⟨x, hx, rfl⟩
  have h1 := share_error hs hacc hl hS hSpos hg.2 hmem hq
  have hTx : e x ≤ (l.map e).sum := List.single_le_sum (by
    intro y hy
    obtain ⟨z, hz, rfl⟩ := List.mem_map.1 hy
    exact (he z hz).le) _ (List.mem_map.2 ⟨x, hx, rfl⟩)
  have hTpos : 0 < (l.map e).sum := (he x hx).trans_le hTx
  have hSE : E x ≤ (l.map E).sum := List.single_le_sum (fun y hy => (hl y hy).1) _ hmem
  set T := (l.map e).sum with hTdef
  set U := (l.map E).sum with hUdef
  have hr' : (r : ℝ) ≤ 4 := by exact_mod_cast hr
  have hr0 : (0 : ℝ) ≤ r := Nat.cast_nonneg _
  have hkR : (1 : ℝ) ≤ l.length := by exact_mod_cast hk1
  have hkn : (l.length : ℝ) ≤ 2 ^ 51 := by exact_mod_cast hn
  have hθT : θ / T ≤ (2 : ℝ) ^ (-150 : ℤ) := by
    have hP : (0 : ℝ) < 2 ^ (150 : ℤ) := B64.pow_pos' _
    rw [zpow_neg, div_le_iff₀ hTpos, inv_mul_eq_div, le_div_iff₀ hP]
    exact hT
  have hθ0 : 0 ≤ θ / T := div_nonneg hθ hTpos.le
  have h2 := perturbed_share (ρ := r * (2 : ℝ) ^ (-53 : ℤ)) (by positivity) hθ he hE (by
    have e1 : (l.length : ℝ) * θ = l.length * (θ / T) * T := by field_simp
    rw [← hTdef, e1]
    have h3 : (l.length : ℝ) * (θ / T) ≤ 2 ^ 51 * (2 : ℝ) ^ (-150 : ℤ) :=
      mul_le_mul hkn hθT hθ0 (by norm_num)
    have h4 : (r : ℝ) * (2 : ℝ) ^ (-53 : ℤ) ≤ 4 * (2 : ℝ) ^ (-53 : ℤ) :=
      mul_le_mul_of_nonneg_right hr' (by positivity)
    have h5 : (4 : ℝ) * (2 : ℝ) ^ (-53 : ℤ) + 2 ^ 51 * (2 : ℝ) ^ (-150 : ℤ) ≤ 1 / 2 := by norm_num
    have h6 : (r : ℝ) * (2 : ℝ) ^ (-53 : ℤ) + l.length * (θ / T) ≤ 1 / 2 := by linarith
    calc _ = ((r : ℝ) * (2 : ℝ) ^ (-53 : ℤ) + l.length * (θ / T)) * T := by ring
      _ ≤ 1 / 2 * T := mul_le_mul_of_nonneg_right h6 hTpos.le
      _ = _ := by ring) hx
  rw [← hTdef, ← hUdef] at h2
  have hp1 : e x / T ≤ 1 := (div_le_one hTpos).2 hTx
  have hp0 : 0 ≤ e x / T := div_nonneg (he x hx).le hTpos.le
  have hU0 : 0 ≤ U := (hl _ hmem).1.trans hSE
  have hq1 : E x / U ≤ 1 := div_le_one_of_le₀ hSE hU0
  have hq0 : 0 ≤ E x / U := div_nonneg (hl _ hmem).1 hU0
  have h3 := abs_add_le (q - E x / U) (E x / U - e x / T)
  rw [sub_add_sub_cancel] at h3
  refine h3.trans ?_
  have h6 := hg.1
  have hg0 : 0 ≤ gam ((2 : ℝ) ^ (-53 : ℤ)) ((l.map E).length - 1) := gam_nonneg (by positivity) _
  have ecast : (((l.map E).length - 1 : Nat) : ℝ) = l.length - 1 := by
    rw [List.length_map, Nat.cast_sub hk1]; simp
  rw [ecast] at h6
  have hη : (2 : ℝ) ^ (-1075 : ℤ) ≤ (2 : ℝ) ^ (-60 : ℤ) := B64.pow_mono (by norm_num)
  have hu0 : (0 : ℝ) ≤ (2 : ℝ) ^ (-53 : ℤ) := by positivity
  have e52 : (2 : ℝ) ^ (-52 : ℤ) = 2 * 2 ^ (-53 : ℤ) := by norm_num
  have e51 : (2 : ℝ) ^ (-51 : ℤ) = 4 * 2 ^ (-53 : ℤ) := by norm_num
  have e60 : (2 : ℝ) ^ (-60 : ℤ) = 2 ^ (-53 : ℤ) / 128 := by norm_num
  have h7 : 2 * ((l.length : ℝ) + 1) * (θ / T) ≤ 2 ^ (-53 : ℤ) := by
    have : 2 * ((l.length : ℝ) + 1) ≤ 2 * (2 ^ 51 + 1) := by linarith
    calc _ ≤ 2 * (2 ^ 51 + 1) * (2 : ℝ) ^ (-150 : ℤ) :=
          mul_le_mul this hθT hθ0 (by norm_num)
      _ ≤ _ := by norm_num
  have h8 : 2 * (gam ((2 : ℝ) ^ (-53 : ℤ)) ((l.map E).length - 1) + 2 ^ (-53 : ℤ)) * (E x / U) ≤
      2 * (gam ((2 : ℝ) ^ (-53 : ℤ)) ((l.map E).length - 1) + 2 ^ (-53 : ℤ)) :=
    mul_le_of_le_one_right (by positivity) hq1
  have h9 : 4 * (r * (2 : ℝ) ^ (-53 : ℤ)) * (e x / T) ≤ 4 * (r * (2 : ℝ) ^ (-53 : ℤ)) :=
    mul_le_of_le_one_right (by positivity) hp1
  rw [e52] at h6
  rw [e51]
  rw [e60] at hη
  generalize (2 : ℝ) ^ (-1075 : ℤ) = η at *
  generalize (2 : ℝ) ^ (-53 : ℤ) = u at *
  generalize gam u ((l.map E).length - 1) = g at *
  generalize e x / T = p at *
  generalize E x / U = t at *
  generalize θ / T = z at *
  linarith

theorem getD_eq_getElem' {l : List ℝ} {c : Nat} (h : c < l.length) : l.getD c 0 = l[c] := by
  simp [List.getElem?_eq_getElem h]

theorem sum_map_getD (f : ℝ → ℝ) (l : List ℝ) :
    (l.map f).sum = ∑ j ∈ Finset.range l.length, f (l.getD j 0) := by
  rw [← list_sum_range]
  congr 1
  apply List.ext_getElem
  · simp
  · intro i h1 h2
    simp at h1
    simp [List.getElem?_eq_getElem h1]

/-- The library's softmax, entry by entry. -/
theorem sfmax_error64 {r : List ℝ} (ht : Tame r) (hn : r.length ≤ 2 ^ 51) :
    ∃ q : List ℝ, sfmax (r.map (XR.fin (fp := FP.binary64))) = .ok (q.map XR.fin) ∧
      q.length = r.length ∧ ∀ c < r.length,
        |q.getD c 0 - softmax r.length (fun j => r.getD j 0) c| ≤
          (r.length + 1) * (2 : ℝ) ^ (-51 : ℤ) := by
  have hs := FP.binary64_sound
  have hacc := FP.binary64_accurate
  have hE : ∀ x ∈ r, _ := fun x hx => safeExp64 (ht.1 x hx)
  choose! e he using hE
  obtain ⟨x0, hx0, hx1⟩ := ht.2
  obtain ⟨S, hS, hSle⟩ := pySum_finite64 (r.map e) (by
    intro y hy
    obtain ⟨x, hx, rfl⟩ := List.mem_map.1 hy
    exact ⟨(he x hx).2.1, (he x hx).2.2.1, (he x hx).2.2.2.1⟩) (by simpa using hn)
  have hpos : 0 < S := by
    have h1 := (he x0 hx0).2.2.2.2 hx1
    have h2 := hSle _ (List.mem_map.2 ⟨x0, hx0, rfl⟩)
    have h3 : (0 : ℝ) < 2 ^ (-900 : ℤ) := B64.pow_pos' _
    linarith
  obtain ⟨q, h1, -, h3⟩ := normalise_near64 (r.map e) (by
    intro y hy
    obtain ⟨x, hx, rfl⟩ := List.mem_map.1 hy
    exact ⟨(he x hx).2.1, (he x hx).2.2.2.1⟩) S hS hpos.ne' (by simpa using hn)
  have hql : q.length = r.length := by rw [h3.1, List.length_map]
  refine ⟨q, ?_, hql, ?_⟩
  · unfold sfmax
    rw [mapM_map', mapM_ok_map (g := fun x => .fin (e x)) fun x hx => (he x hx).1, py_ok_bind]
    rw [List.map_map] at h1 hS
    have hS' : pySum (r.map fun x => (.fin (e x) : XR FP.binary64)) = .fin S := hS
    rw [hS']
    exact h1
  · intro c hc
    have hmem : r[c] ∈ r := List.getElem_mem hc
    rw [mapM_map', mapM_map'] at h1
    have hqc : FP.binary64.rnd (e r[c] / S) = (q[c]'(by omega) : EReal) := by
      have hF := mapM_ok_iff.1 h1
      rw [List.forall₂_map_right_iff, List.forall₂_iff_get] at hF
      have := hF.2 c hc (by omega)
      simp only [List.get_eq_getElem] at this
      rw [XR.div_fin, if_neg hpos.ne'] at this
      exact XR.round_eq_fin.1 (Except.ok.inj this)
    have hT : (2 : ℝ) ^ (-1075 : ℤ) * 2 ^ (150 : ℤ) ≤ (r.map Real.exp).sum := by
      have h4 : Real.exp x0 ≤ (r.map Real.exp).sum := List.single_le_sum (by
        intro y hy
        obtain ⟨z, hz, rfl⟩ := List.mem_map.1 hy
        exact (Real.exp_pos z).le) _ (List.mem_map.2 ⟨x0, hx0, rfl⟩)
      refine le_trans ?_ h4
      have h5 : Real.exp (-600) ≤ Real.exp x0 := Real.exp_le_exp.2 hx1
      refine le_trans ?_ h5
      rw [Real.exp_neg, ← B64.pow_add']
      have h6 : ((2 : ℝ) ^ (900 : ℤ))⁻¹ ≤ (Real.exp 600)⁻¹ := inv_anti₀ (Real.exp_pos _) exp_600
      refine le_trans ?_ h6
      rw [← zpow_neg]
      exact B64.pow_mono (by norm_num)
    have := shares64 (l := r) (e := Real.exp) (E := e) 1 ((2 : ℝ) ^ (-1075 : ℤ)) (by norm_num)
      (by positivity) hn (fun x _ => Real.exp_pos x)
      (fun x hx => ⟨(he x hx).2.1, (he x hx).2.2.2.1⟩) (by
        intro x hx
        have := hacc.rel _ _ (safeExp_error64 (he x hx).1)
        rw [abs_of_pos (Real.exp_pos x)] at this
        rwa [Nat.cast_one, one_mul]) hT hS hpos hmem hqc
    rw [Nat.cast_one] at this
    rw [getD_eq_getElem' (by omega : c < q.length)]
    unfold softmax
    beta_reduce
    rw [getD_eq_getElem' hc, ← sum_map_getD]
    exact this

/-- Normalised logistic functions, entry by entry. -/
theorem ovr_error64 {r : List ℝ} (ht : ∃ x ∈ r, -400 ≤ x) (hn : r.length ≤ 2 ^ 51) :
    ∃ (y : List (XR FP.binary64)) (q : List ℝ), (r.map (XR.fin (fp := FP.binary64))).mapM expit =
        .ok y ∧ Linear.normRow y = .ok (q.map XR.fin) ∧
      q.length = r.length ∧ ∀ c < r.length,
        |q.getD c 0 - ovr r.length (fun j => r.getD j 0) c| ≤
          (r.length + 4) * (2 : ℝ) ^ (-51 : ℤ) := by
  have hs := FP.binary64_sound
  have hE : ∀ x ∈ r, _ := fun x _ => expit_error64 x
  choose! e he using hE
  obtain ⟨x0, hx0, hx1⟩ := ht
  obtain ⟨S, hS, hSle⟩ := pySum_finite64 (r.map e) (by
    intro y hy
    obtain ⟨x, hx, rfl⟩ := List.mem_map.1 hy
    refine ⟨(he x hx).2.1, (he x hx).2.2.1.trans ?_, (he x hx).2.2.2.1⟩
    have : (2 : ℝ) ^ (0 : ℤ) ≤ 2 ^ (900 : ℤ) := B64.pow_mono (by norm_num)
    simpa using this) (by simpa using hn)
  have hpos : 0 < S := by
    obtain ⟨a, ha, ha0, -, -⟩ := expit64 (x := x0) (by linarith)
    have h1 := (he x0 hx0).1
    rw [ha] at h1
    have h2 : a = e x0 := XR.fin_inj.1 (Except.ok.inj h1)
    have h3 := hSle _ (List.mem_map.2 ⟨x0, hx0, rfl⟩)
    rw [h2] at ha0
    linarith
  obtain ⟨q, h1, -, h3⟩ := normalise_near64 (r.map e) (by
    intro y hy
    obtain ⟨x, hx, rfl⟩ := List.mem_map.1 hy
    exact ⟨(he x hx).2.1, (he x hx).2.2.2.1⟩) S hS hpos.ne' (by simpa using hn)
  have hql : q.length = r.length := by rw [h3.1, List.length_map]
  refine ⟨(r.map e).map XR.fin, q, ?_, ?_, hql, ?_⟩
  · rw [mapM_map', mapM_ok_map (g := fun x => .fin (e x)) fun x hx => (he x hx).1, List.map_map]
    rfl
  · unfold Linear.normRow
    rw [hS, XR.ofInt_zero hs]
    have : ((.fin S : XR FP.binary64) ==ₚ .fin 0) = false := by
      rw [XR.eq_fin]; exact decide_eq_false hpos.ne'
    rw [this]
    exact h1
  · intro c hc
    have hmem : r[c] ∈ r := List.getElem_mem hc
    rw [mapM_map', mapM_map'] at h1
    have hqc : FP.binary64.rnd (e r[c] / S) = (q[c]'(by omega) : EReal) := by
      have hF := mapM_ok_iff.1 h1
      rw [List.forall₂_map_right_iff, List.forall₂_iff_get] at hF
      have := hF.2 c hc (by omega)
      simp only [List.get_eq_getElem] at this
      rw [XR.div_fin, if_neg hpos.ne'] at this
      exact XR.round_eq_fin.1 (Except.ok.inj this)
    have hT : (2 : ℝ) ^ (-800 : ℤ) * 2 ^ (150 : ℤ) ≤ (r.map Spec.sigmoid).sum := by
      have h4 : Spec.sigmoid x0 ≤ (r.map Spec.sigmoid).sum := List.single_le_sum (by
        intro y hy
        obtain ⟨z, hz, rfl⟩ := List.mem_map.1 hy
        exact (sigmoid_pos' z).le) _ (List.mem_map.2 ⟨x0, hx0, rfl⟩)
      refine le_trans ?_ h4
      have h5 : Real.exp (-x0) ≤ 2 ^ (600 : ℤ) := by
        refine (Real.exp_le_exp.2 (show -x0 ≤ 400 by linarith)).trans ?_
        have h1 : Real.exp 2 ≤ 8 := by
          have := Real.exp_one_lt_d9
          have e : Real.exp 2 = Real.exp 1 * Real.exp 1 := by rw [← Real.exp_add]; norm_num
          rw [e]
          nlinarith [Real.exp_pos 1]
        have e : Real.exp 400 = Real.exp 2 ^ 200 := by rw [← Real.exp_nat_mul]; norm_num
        have e' : (2 : ℝ) ^ (600 : ℤ) = 8 ^ 200 := by
          rw [show (8 : ℝ) = 2 ^ (3 : ℤ) by norm_num, ← zpow_natCast, ← zpow_mul]
          rfl
        rw [e, e']
        exact pow_le_pow_left₀ (Real.exp_pos _).le h1 200
      have h6 : 1 + Real.exp (-x0) ≤ 2 ^ (601 : ℤ) := by
        have h7 : (1 : ℝ) ≤ 2 ^ (600 : ℤ) := by
          have : (2 : ℝ) ^ (0 : ℤ) ≤ 2 ^ (600 : ℤ) := B64.pow_mono (by norm_num)
          simpa using this
        rw [show (601 : ℤ) = 1 + 600 by norm_num, B64.pow_add', zpow_one]
        generalize (2 : ℝ) ^ (600 : ℤ) = P at *
        linarith
      unfold Spec.sigmoid
      rw [one_div, ← B64.pow_add']
      refine le_trans ?_ (inv_anti₀ (by positivity) h6)
      rw [← zpow_neg]
      exact B64.pow_mono (by norm_num)
    have := shares64 (l := r) (e := Spec.sigmoid) (E := e) 4 ((2 : ℝ) ^ (-800 : ℤ)) (by norm_num)
      (by positivity) hn (fun x _ => sigmoid_pos' x)
      (fun x hx => ⟨(he x hx).2.1, (he x hx).2.2.2.1⟩) (fun x hx => by exact_mod_cast (he x hx).2.2.2.2)
      hT hS hpos hmem hqc
    rw [getD_eq_getElem' (by omega : c < q.length)]
    unfold ovr
    beta_reduce
    rw [getD_eq_getElem' hc, ← sum_map_getD]
    exact_mod_cast this

end PurePredict
