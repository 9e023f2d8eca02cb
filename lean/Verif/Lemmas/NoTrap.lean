import Verif.Lemmas.RoundedLinks
import Verif.Model.Ensemble
import Verif.Py.ExpMono
/-
Operations that do not raise, whatever their arguments: NaN and infinities included.
-/
namespace PurePredict

/-- What is used of an arithmetic: these do not raise. -/
structure NoTrap (F : Type) [Arith F] : Prop where
  div : ∀ a b : F, (b ==ₚ ofInt 0) = false → ∃ c, a /ₚ b = .ok c
  exp : ∀ x : F, ∃ y, safeExp x = .ok y
  log : ∀ x : F, ∃ y, safeLog x = .ok y
  expit : ∀ x : F, ∃ y, expit x = .ok y
  pair : ∀ x : F, ∃ y z, sfmax [Arith.neg x, x] = .ok [y, z]
  norm : ∀ l : List F, ∃ y, Arith.sqrt (pySum (l.map fun x => x *ₚ x)) = .ok y
  one : ((ofInt 1 : F) ==ₚ ofInt 0) = false
  count : ∀ n : Nat, 0 < n → ((ofInt (n : Int) : F) ==ₚ ofInt 0) = false
  odds : ∀ x : F, ∃ y, clip x gbEps (ofInt 1 -ₚ gbEps) /ₚ (ofInt 1 -ₚ clip x gbEps (ofInt 1 -ₚ gbEps)) = .ok y

namespace XR
variable {fp : FP}

theorem div_total {a b : XR fp} (h : b ≠ fin 0) : ∃ c, a /ₚ b = .ok c := by
  show ∃ c, XR.div a b = .ok c
  cases a <;> cases b <;> simp_all [XR.div]

theorem div_ne (hs : fp.Sound) (a b : XR fp) (h : (b ==ₚ ofInt 0) = false) : ∃ c, a /ₚ b = .ok c := by
  refine div_total ?_
  rintro rfl
  rw [XR.ofInt_zero hs] at h
  have : XR.eq (fin 0 : XR fp) (fin 0) = false := h
  simp [XR.eq] at this

theorem eq_zero_false (hs : fp.Sound) {b : XR fp} (h : b ≠ fin 0) : (b ==ₚ ofInt 0) = false := by
  rw [XR.ofInt_zero hs]
  show XR.eq b (fin 0) = false
  cases b <;> simp_all [XR.eq]

theorem safeExp_total (hs : fp.Sound) (x : XR fp) : ∃ y, safeExp x = .ok y := by
  by_cases h : x = nan
  · subst h; exact ⟨_, rfl⟩
  · obtain ⟨v, hv, -⟩ := safeExp_NN hs h
    exact ⟨v, hv⟩

theorem safeLog_total (hs : fp.Sound) (x : XR fp) : ∃ y, safeLog x = .ok y := by
  unfold safeLog
  rw [XR.ofInt_zero hs]
  cases x with
  | fin r =>
    rcases lt_trichotomy r 0 with h | h | h
    · have h1 : ((fin r : XR fp) ==ₚ fin 0) = false := by show XR.eq _ _ = _; simp [XR.eq, h.ne]
      have h2 : ((fin r : XR fp) <ₚ fin 0) = true := by show XR.lt _ _ = _; simp [XR.lt, h]
      rw [h1, h2]; exact ⟨_, rfl⟩
    · have h1 : ((fin r : XR fp) ==ₚ fin 0) = true := by show XR.eq _ _ = _; simp [XR.eq, h]
      rw [h1]; exact ⟨_, rfl⟩
    · have h1 : ((fin r : XR fp) ==ₚ fin 0) = false := by show XR.eq _ _ = _; simp [XR.eq, h.ne']
      have h2 : ((fin r : XR fp) <ₚ fin 0) = false := by show XR.lt _ _ = _; simp [XR.lt, h.le]
      rw [h1, h2]
      simp only [Bool.false_eq_true, if_false]
      exact ⟨fin (fp.log r), by show XR.log _ = _; simp [XR.log, h]⟩
  | pinf => exact ⟨pinf, rfl⟩
  | ninf => exact ⟨nan, rfl⟩
  | nan => exact ⟨nan, rfl⟩

theorem expit_total (hs : fp.Sound) (x : XR fp) : ∃ y, PurePredict.expit x = .ok y := by
  by_cases h : x = nan
  · subst h
    refine ⟨nan, ?_⟩
    unfold PurePredict.expit
    rw [XR.ofInt_one hs]
    rfl
  · obtain ⟨p, hp, -⟩ := expit_unit hs h
    exact ⟨p, hp⟩

theorem NN.ne_zero {x : XR fp} {r : ℝ} (h : (r : EReal) ≤ toE x) (hr : 0 < r) : x ≠ XR.fin 0 := by
  rintro rfl
  have : (r : EReal) ≤ ((0 : ℝ) : EReal) := h
  exact absurd (EReal.coe_le_coe_iff.1 this) (by linarith)

/-- `exp` of a number that is not negative is at least one. -/
theorem safeExp_ge_one (hs : fp.Sound) (hm : fp.MonoExp) {r : ℝ} (hr : 0 ≤ r) {v : XR fp} (h : safeExp (fin r : XR fp) = .ok v) :
    ((1 : ℝ) : EReal) ≤ toE v := by
  cases he : fp.exp r with
  | none =>
    have h1 : Arith.exp (fin r : XR fp) = .error .overflowError := by show XR.exp _ = _; simp [XR.exp, he]
    simp only [safeExp, h1] at h
    cases h
    exact le_top
  | some w =>
    have h1 : Arith.exp (fin r : XR fp) = .ok (fin w) := by show XR.exp _ = _; simp [XR.exp, he]
    simp only [safeExp, h1] at h
    cases h
    obtain ⟨v0, h0, h0'⟩ := hm.exp_mono 0 r w hr he
    rw [hs.exp_zero] at h0
    cases h0
    exact EReal.coe_le_coe_iff.2 h0'

theorem pair_total (hs : fp.Sound) (hm : fp.MonoExp) (x : XR fp) : ∃ y z, sfmax [Arith.neg x, x] = .ok [y, z] := by
  have key : ∃ u v, safeExp (Arith.neg x) = .ok u ∧ safeExp x = .ok v ∧ pySum [u, v] ≠ fin 0 := by
    by_cases hx : x = nan
    · subst hx
      refine ⟨nan, nan, rfl, rfl, ?_⟩
      show XR.add (XR.add _ nan) nan ≠ _
      cases (XR.add (ofInt 0 : XR fp) nan) <;> simp [XR.add]
    · have hneg : Arith.neg x ≠ nan := by
        show XR.neg x ≠ nan
        cases x <;> simp_all [XR.neg]
      obtain ⟨u, hu, hun⟩ := safeExp_NN hs hneg
      obtain ⟨v, hv, hvn⟩ := safeExp_NN hs hx
      refine ⟨u, v, hu, hv, ?_⟩
      obtain ⟨-, h2⟩ := pySum_NN hs (l := [u, v]) (by simp [hun, hvn])
      have hone : ((1 : ℝ) : EReal) ≤ toE u ∨ ((1 : ℝ) : EReal) ≤ toE v := by
        cases x with
        | fin r =>
          rcases le_total 0 r with h | h
          · exact .inr (safeExp_ge_one hs hm h hv)
          · exact .inl (safeExp_ge_one hs hm (r := -r) (by linarith) hu)
        | pinf =>
          have : v = pinf := by cases hv; rfl
          subst this; exact .inr le_top
        | ninf =>
          have : u = pinf := by cases hu; rfl
          subst this; exact .inl le_top
        | nan => exact absurd rfl hx
      rcases hone with h | h
      · exact NN.ne_zero (h.trans (h2 u (by simp))) one_pos
      · exact NN.ne_zero (h.trans (h2 v (by simp))) one_pos
  obtain ⟨u, v, hu, hv, hne⟩ := key
  obtain ⟨y, hy⟩ := div_total (a := u) hne
  obtain ⟨z, hz⟩ := div_total (a := v) hne
  exact ⟨y, z, by simp only [sfmax, mapM_cons', mapM_nil', hu, hv, py_ok_bind, py_pure, hy, hz]⟩

/-- NaN, or a float that is not negative. -/
def Calm (x : XR fp) : Prop := x = nan ∨ NN x

theorem calm_sq (hs : fp.Sound) (x : XR fp) : Calm (x *ₚ x) := by
  cases x with
  | fin a => exact .inr (NN.round hs (mul_self_nonneg a))
  | pinf => exact .inr NN.pinf
  | ninf => exact .inr NN.pinf
  | nan => exact .inl rfl

theorem calm_add (hs : fp.Sound) {x y : XR fp} (hx : Calm x) (hy : Calm y) : Calm (x +ₚ y) := by
  rcases hx with rfl | hx
  · exact .inl (by show XR.add nan y = nan; cases y <;> rfl)
  · rcases hy with rfl | hy
    · exact .inl (by show XR.add x nan = nan; cases x <;> rfl)
    · exact .inr (NN.add hs hx hy).1

theorem calm_sum (hs : fp.Sound) {l : List (XR fp)} (h : ∀ x ∈ l, Calm x) : Calm (pySum l) := by
  unfold pySum
  have : ∀ s : XR fp, Calm s → Calm (l.foldl Arith.add s) := by
    induction l with
    | nil => exact fun s hs => hs
    | cons a l ih =>
      intro s hc
      exact ih (fun x hx => h x (by simp [hx])) _ (calm_add hs hc (h a (by simp)))
  exact this _ (.inr (by rw [XR.ofInt_zero hs]; exact NN.zero hs))

theorem sqrt_total {x : XR fp} (h : Calm x) : ∃ y, Arith.sqrt x = .ok y := by
  show ∃ y, XR.sqrt x = .ok y
  rcases h with rfl | h
  · exact ⟨nan, rfl⟩
  · rcases h.cases with rfl | ⟨r, rfl, h0, -⟩
    · exact ⟨pinf, rfl⟩
    · exact ⟨round (Real.sqrt r), by simp only [XR.sqrt, if_neg (not_lt.2 h0)]⟩

theorem norm_total (hs : fp.Sound) (l : List (XR fp)) : ∃ y, Arith.sqrt (pySum (l.map fun x => x *ₚ x)) = .ok y := by
  refine sqrt_total (calm_sum hs fun x hx => ?_)
  obtain ⟨a, -, rfl⟩ := List.mem_map.1 hx
  exact calm_sq hs a

theorem count_ne (hs : fp.Sound) {n : Nat} (hn : 0 < n) : (ofInt (n : Int) : XR fp) ≠ fin 0 := by
  have h1 : (1 : ℝ) ≤ ((n : Int) : ℝ) := by exact_mod_cast hn
  have h2 := hs.mono h1
  rw [hs.one] at h2
  intro h
  have h3 : toE (ofInt (n : Int) : XR fp) = fp.rnd ((n : Int) : ℝ) := toE_round _
  rw [h] at h3
  rw [← h3] at h2
  have h4 : ((1 : ℝ) : EReal) ≤ ((0 : ℝ) : EReal) := by simpa [toE] using h2
  exact absurd (EReal.coe_le_coe_iff.1 h4) (by norm_num)

end XR

/-- What the log-odds of a clipped share need of floating point beyond `FP.Sound`: the constant 1.1920929e-07 and its
complement are floats with the complement of the complement not zero. -/
def FP.Odds (fp : FP) : Prop :=
  ∃ e h : ℝ, fp.rnd (11920929 / 100000000000000) = (e : EReal) ∧ fp.rnd (1 - e) = (h : EReal) ∧ e ≤ h ∧ ∀ y ≤ h, fp.rnd (1 - y) ≠ 0

theorem FP.exact_odds : FP.exact.Odds := by
  refine ⟨11920929 / 100000000000000, 1 - 11920929 / 100000000000000, rfl, rfl, by norm_num, fun y hy => ?_⟩
  show ((1 - y : ℝ) : EReal) ≠ 0
  have : (0 : ℝ) < 1 - y := by linarith
  exact_mod_cast this.ne'

theorem B64.rnd_small_dyadic (n k : ℤ) (hn : |n| < 2 ^ 53) (hk : -60 ≤ k) (hk' : k ≤ 0) :
    B64.rnd ((n : ℝ) * 2 ^ k) = (((n : ℝ) * 2 ^ k : ℝ) : EReal) := by
  have hr : B64.rndFin ((n : ℝ) * 2 ^ k) = (n : ℝ) * 2 ^ k := B64.rndFin_of_representable ⟨n, k, by exact_mod_cast hn, by omega, rfl⟩
  rw [B64.rnd_of_fin] <;> rw [hr]
  rw [abs_mul, abs_of_pos (B64.pow_pos' k)]
  have h1 : (2 : ℝ) ^ k ≤ 1 := by
    have := B64.pow_mono hk'
    simpa using this
  have h2 : |(n : ℝ)| < 2 ^ (53 : ℤ) := by
    have : (|n| : ℤ) < 2 ^ 53 := hn
    exact_mod_cast this
  calc |(n : ℝ)| * 2 ^ k ≤ |(n : ℝ)| * 1 := by gcongr
    _ < 2 ^ (53 : ℤ) := by rw [mul_one]; exact h2
    _ ≤ 2 ^ (1024 : ℤ) := B64.pow_mono (by norm_num)

theorem FP.binary64With_odds (exp : ℝ → Option ℝ) (log : ℝ → ℝ) : (FP.binary64With exp log).Odds := by
  have p : ∀ n k : ℤ, |n| < 2 ^ 53 → -60 ≤ k → k ≤ 0 → B64.rnd ((n : ℝ) * 2 ^ k) = (((n : ℝ) * 2 ^ k : ℝ) : EReal) :=
    fun n k a b c => B64.rnd_small_dyadic n k a b c
  have r23 := p 1 (-23) (by norm_num) (by norm_num) (by norm_num)
  have r22 := p 1 (-22) (by norm_num) (by norm_num) (by norm_num)
  have rh := p (2 ^ 23 - 1) (-23) (by norm_num) (by norm_num) (by norm_num)
  have rl := p (2 ^ 22 - 1) (-22) (by norm_num) (by norm_num) (by norm_num)
  have z23 : (2 : ℝ) ^ (-23 : ℤ) = 1 / 8388608 := by norm_num [zpow_neg]
  have z22 : (2 : ℝ) ^ (-22 : ℤ) = 1 / 4194304 := by norm_num [zpow_neg]
  rw [z23] at r23 rh
  rw [z22] at r22 rl
  norm_num at r23 r22 rh rl
  have fin_of : ∀ {x lo hi : ℝ}, lo ≤ x → x ≤ hi → B64.rnd lo = (lo : EReal) → B64.rnd hi = (hi : EReal) →
      ∃ e : ℝ, B64.rnd x = (e : EReal) ∧ lo ≤ e ∧ e ≤ hi := by
    intro x lo hi h1 h2 h3 h4
    have a := B64.rnd_mono h1
    have b := B64.rnd_mono h2
    rw [h3] at a
    rw [h4] at b
    have t : B64.rnd x ≠ ⊤ := fun h => by rw [h] at b; exact absurd (top_le_iff.1 b) (EReal.coe_ne_top _)
    have u : B64.rnd x ≠ ⊥ := fun h => by rw [h] at a; exact absurd (le_bot_iff.1 a) (EReal.coe_ne_bot _)
    refine ⟨(B64.rnd x).toReal, (EReal.coe_toReal t u).symm, ?_, ?_⟩
    · rw [← EReal.coe_toReal t u] at a; exact_mod_cast a
    · rw [← EReal.coe_toReal t u] at b; exact_mod_cast b
  obtain ⟨e, he, h1, h2⟩ := fin_of (x := 11920929 / 100000000000000) (lo := 1 / 8388608) (hi := 1 / 4194304) (by norm_num) (by norm_num)
    (by simpa using r23) (by simpa using r22)
  obtain ⟨h, hh, h3, h4⟩ := fin_of (x := 1 - e) (lo := 4194303 / 4194304) (hi := 8388607 / 8388608) (by linarith) (by linarith)
    (by simpa using rl) (by simpa using rh)
  refine ⟨e, h, he, hh, by linarith, fun y hy => ?_⟩
  have h5 := B64.rnd_mono (show (1 / 8388608 : ℝ) ≤ 1 - y by linarith)
  rw [show B64.rnd (1 / 8388608) = ((1 / 8388608 : ℝ) : EReal) by simpa using r23] at h5
  intro h0
  have h0 : B64.rnd (1 - y) = 0 := h0
  rw [h0] at h5
  have : ((1 / 8388608 : ℝ) : EReal) ≤ ((0 : ℝ) : EReal) := by simpa using h5
  exact absurd (EReal.coe_le_coe_iff.1 this) (by norm_num)

namespace XR
variable {fp : FP}

theorem odds_total (hs : fp.Sound) (ho : fp.Odds) (x : XR fp) :
    ∃ y, clip x gbEps (ofInt 1 -ₚ gbEps) /ₚ (ofInt 1 -ₚ clip x gbEps (ofInt 1 -ₚ gbEps)) = .ok y := by
  obtain ⟨e, h, he, hh, hle, hy⟩ := ho
  have h1 : (gbEps : XR fp) = fin e := by
    show XR.round ((11920929 : ℤ) / ((100000000000000 : ℕ) : ℝ)) = _
    unfold XR.round
    rw [show (((11920929 : ℤ) : ℝ) / ((100000000000000 : ℕ) : ℝ)) = 11920929 / 100000000000000 by norm_num, he, ofEReal_coe]
  have h2 : (ofInt 1 -ₚ gbEps : XR fp) = fin h := by
    rw [h1, XR.ofInt_one hs]
    show XR.round (1 + -e) = _
    unfold XR.round
    rw [← sub_eq_add_neg, hh, ofEReal_coe]
  rw [h2, h1]
  have hc : clip x (fin e : XR fp) (fin h) = nan ∨ ∃ y, clip x (fin e : XR fp) (fin h) = fin y ∧ y ≤ h := by
    unfold clip
    cases x with
    | fin r =>
      by_cases a : r < e
      · have : ((fin r : XR fp) <ₚ fin e) = true := by show XR.lt _ _ = _; simp [XR.lt, a]
        rw [this]; exact .inr ⟨e, rfl, hle⟩
      · have : ((fin r : XR fp) <ₚ fin e) = false := by show XR.lt _ _ = _; simp [XR.lt, not_lt.1 a]
        rw [this]
        by_cases b : h < r
        · have : ((fin h : XR fp) <ₚ fin r) = true := by show XR.lt _ _ = _; simp [XR.lt, b]
          rw [this]; exact .inr ⟨h, rfl, le_rfl⟩
        · have : ((fin h : XR fp) <ₚ fin r) = false := by show XR.lt _ _ = _; simp [XR.lt, not_lt.1 b]
          rw [this]; exact .inr ⟨r, rfl, not_lt.1 b⟩
    | pinf => exact .inr ⟨h, rfl, le_rfl⟩
    | ninf => exact .inr ⟨e, rfl, hle⟩
    | nan => exact .inl rfl
  rcases hc with hc | ⟨y, hc, hyh⟩
  · rw [hc, XR.ofInt_one hs]
    exact ⟨nan, rfl⟩
  · rw [hc, XR.ofInt_one hs]
    refine div_total ?_
    show XR.round (1 + -y) ≠ _
    intro h0
    have h3 : toE (XR.round (1 + -y) : XR fp) = fp.rnd (1 + -y) := toE_round _
    rw [h0, ← sub_eq_add_neg] at h3
    exact hy y hyh (by rw [← h3]; rfl)

end XR

theorem noTrap {fp : FP} (hs : fp.Sound) (hm : fp.MonoExp) (ho : fp.Odds) : NoTrap (XR fp) where
  div := XR.div_ne hs
  exp := XR.safeExp_total hs
  log := XR.safeLog_total hs
  expit := XR.expit_total hs
  pair := XR.pair_total hs hm
  norm := XR.norm_total hs
  one := XR.eq_zero_false hs (XR.count_ne hs (n := 1) one_pos)
  count n hn := XR.eq_zero_false hs (XR.count_ne hs hn)
  odds := XR.odds_total hs ho

theorem noTrap_binary64 : NoTrap (XR FP.binary64) :=
  noTrap FP.binary64_sound FP.binary64_monoExp (FP.binary64With_odds _ _)

end PurePredict
