import Verif.Lemmas.Peak
/-
In exact arithmetic the steps are strictly monotone, so that the first largest element keeps its position.
-/
namespace PurePredict
open scoped Classical
namespace XR

/-- The entry at `i` is at least every entry, and larger than the earlier ones. -/
def First (l : List Ex) (i : Nat) : Prop :=
  ∃ p, l[i]? = some p ∧ (∀ q ∈ l, toE q ≤ toE p) ∧ ∀ j, j < i → ∀ q, l[j]? = some q → toE q < toE p

theorem first_argmax {l : List Ex} {i : Nat} (hn : nan ∉ l) (h : argmax l = .ok i) : First l i := by
  obtain ⟨hi, hm, hf⟩ := (argmax_iff toE (ordOn_toE hn)).1 h
  have hi' : i < l.length := by simpa using hi
  refine ⟨l[i], List.getElem?_eq_getElem hi', fun q hq => ?_, fun j hj q hq => ?_⟩
  · obtain ⟨j, hj, rfl⟩ := List.getElem_of_mem hq
    have := hm j (by simpa using hj)
    rwa [List.getElem_map, List.getElem_map] at this
  · obtain ⟨hj', rfl⟩ := List.getElem?_eq_some_iff.1 hq
    have := hf j hj
    rwa [List.getElem_map, List.getElem_map] at this

/-- The order is kept strictly. -/
def Rises (g : Ex → Py Ex) : Prop := ∀ x y u v, x ≠ nan → y ≠ nan → g x = .ok u → g y = .ok v → toE x < toE y → toE u < toE v

theorem Rises.first {g : Ex → Py Ex} (hg : Keeps g) (hr : Rises g) {l p : List Ex} (h : l.mapM g = .ok p)
    (hn : XR.nan ∉ p) {i : Nat} (hp : First l i) : First p i := by
  obtain ⟨x, hx, hm, hf⟩ := hp
  obtain ⟨q, hq, hqm⟩ := hg.peak h hn ⟨x, hx, hm⟩
  refine ⟨q, hq, hqm, fun j hj r hrj => ?_⟩
  have hl := hg.mem_nan h hn
  have hF := mapM_ok_iff.1 h
  obtain ⟨hi, rfl⟩ := List.getElem?_eq_some_iff.1 hx
  obtain ⟨hi', rfl⟩ := List.getElem?_eq_some_iff.1 hq
  obtain ⟨hj', rfl⟩ := List.getElem?_eq_some_iff.1 hrj
  have hj0 : j < l.length := by rw [hF.length_eq]; exact hj'
  have e1 : g l[j] = .ok p[j] := hF.get hj0 hj'
  have e2 : g l[i] = .ok p[i] := hF.get hi hi'
  exact hr _ _ _ _ (fun e => hl (e ▸ List.getElem_mem hj0)) (fun e => hl (e ▸ List.getElem_mem hi)) e1 e2
    (hf j hj _ (List.getElem?_eq_getElem hj0))

theorem safeExp_exact (r : ℝ) : safeExp (fin r : Ex) = .ok (fin (Real.exp r)) := rfl

theorem rises_exp : Rises safeExp := by
  intro x y u v hx hy hu hv h
  cases x with
  | nan => exact absurd rfl hx
  | pinf => exact absurd h (by simp [toE])
  | ninf =>
    cases hu
    cases y with
    | nan => exact absurd rfl hy
    | ninf => exact absurd h (by simp [toE])
    | pinf => cases hv; exact EReal.coe_lt_top 0
    | fin b =>
      rw [safeExp_exact] at hv; cases hv
      show ((0 : ℝ) : EReal) < (Real.exp b : EReal)
      exact_mod_cast Real.exp_pos b
  | fin a =>
    rw [safeExp_exact] at hu; cases hu
    cases y with
    | nan => exact absurd rfl hy
    | ninf => exact absurd h (by simp [toE])
    | pinf => cases hv; exact EReal.coe_lt_top _
    | fin b =>
      rw [safeExp_exact] at hv; cases hv
      have h' : (a : EReal) < (b : EReal) := h
      have h'' : a < b := by exact_mod_cast h'
      show (Real.exp a : EReal) < (Real.exp b : EReal)
      exact_mod_cast Real.exp_lt_exp.2 h''

theorem rises_sub (c : ℝ) : Rises (fun x => .ok (x -ₚ fin c)) := by
  intro x y u v hx hy hu hv h
  cases hu; cases hv
  cases x <;> cases y <;> first
    | exact absurd rfl hx
    | exact absurd rfl hy
    | (exfalso; simp [toE] at h; done)
    | exact bot_lt_top
    | (rw [sub_exact]; exact EReal.bot_lt_coe _)
    | (rw [sub_exact]; exact EReal.coe_lt_top _)
    | (rename_i a b
       rw [sub_exact, sub_exact]
       have h' : (a : EReal) < (b : EReal) := h
       have h'' : a < b := by exact_mod_cast h'
       show ((a - c : ℝ) : EReal) < ((b - c : ℝ) : EReal)
       exact_mod_cast sub_lt_sub_right h'' c)

theorem rises_div {s : ℝ} (hs : 0 < s) : Rises (fun x => x /ₚ fin s) := by
  intro x y u v hx hy hu hv h
  have i1 : (infMul true s : Ex) = pinf := by simp [infMul, hs.ne', hs]
  have i2 : (infMul false s : Ex) = ninf := by simp [infMul, hs.ne', hs]
  change XR.div x _ = _ at hu
  change XR.div y _ = _ at hv
  cases x <;> cases y <;> simp only [XR.div, if_neg hs.ne', i1, i2, Except.ok.injEq, round_exact] at hu hv <;>
    subst hu <;> subst hv <;> first
    | exact absurd rfl hx
    | exact absurd rfl hy
    | (exfalso; simp [toE] at h; done)
    | exact bot_lt_top
    | exact EReal.bot_lt_coe _
    | exact EReal.coe_lt_top _
    | (rename_i a b
       have h' : (a : EReal) < (b : EReal) := h
       have h'' : a < b := by exact_mod_cast h'
       show ((a / s : ℝ) : EReal) < ((b / s : ℝ) : EReal)
       exact_mod_cast (div_lt_div_iff_of_pos_right hs).2 h'')

theorem expit_fin (a : ℝ) : expit (fin a : Ex) = .ok (fin (1 / (1 + Real.exp (-a)))) := by
  have h1 : safeExp (Arith.neg (fin a : Ex)) = .ok (fin (Real.exp (-a))) := rfl
  have : (1 : ℝ) + Real.exp (-a) ≠ 0 := (by positivity : (0 : ℝ) < 1 + Real.exp (-a)).ne'
  simp only [expit, h1, py_ok_bind, ofInt_exact, Int.cast_one, add_exact]
  exact div_exact 1 this

theorem expit_pinf : expit (pinf : Ex) = .ok (fin 1) := by
  have h1 : safeExp (Arith.neg (pinf : Ex)) = .ok (fin 0) := rfl
  simp only [expit, h1, py_ok_bind, ofInt_exact, Int.cast_one, add_exact, add_zero]
  rw [div_exact 1 one_ne_zero, div_one]

theorem expit_ninf : expit (ninf : Ex) = .ok (fin 0) := by
  have h1 : safeExp (Arith.neg (ninf : Ex)) = .ok pinf := rfl
  simp only [expit, h1, py_ok_bind, ofInt_exact]
  rfl

theorem rises_expit : Rises expit := by
  intro x y u v hx hy hu hv h
  have hp : ∀ a : ℝ, 0 < Real.exp (-a) := fun a => Real.exp_pos _
  cases x with
  | nan => exact absurd rfl hx
  | pinf => exact absurd h (by simp [toE])
  | ninf =>
    rw [expit_ninf] at hu; cases hu
    cases y with
    | nan => exact absurd rfl hy
    | ninf => exact absurd h (by simp [toE])
    | pinf =>
      rw [expit_pinf] at hv; cases hv
      show ((0 : ℝ) : EReal) < ((1 : ℝ) : EReal)
      exact_mod_cast (zero_lt_one' ℝ)
    | fin b =>
      rw [expit_fin] at hv; cases hv
      have h' : (0 : ℝ) < 1 / (1 + Real.exp (-b)) := by positivity
      show ((0 : ℝ) : EReal) < ((1 / (1 + Real.exp (-b)) : ℝ) : EReal)
      exact_mod_cast h'
  | fin a =>
    rw [expit_fin] at hu; cases hu
    cases y with
    | nan => exact absurd rfl hy
    | ninf => exact absurd h (by simp [toE])
    | pinf =>
      rw [expit_pinf] at hv; cases hv
      have h' : 1 / (1 + Real.exp (-a)) < 1 := by
        rw [div_lt_one (by positivity)]
        linarith [hp a]
      show ((1 / (1 + Real.exp (-a)) : ℝ) : EReal) < ((1 : ℝ) : EReal)
      exact_mod_cast h'
    | fin b =>
      rw [expit_fin] at hv; cases hv
      have h' : (a : EReal) < (b : EReal) := h
      have h'' : a < b := by exact_mod_cast h'
      have h3 : 1 / (1 + Real.exp (-a)) < 1 / (1 + Real.exp (-b)) := by
        apply one_div_lt_one_div_of_lt (by positivity)
        have := Real.exp_lt_exp.2 (neg_lt_neg h'')
        linarith
      show ((1 / (1 + Real.exp (-a)) : ℝ) : EReal) < ((1 / (1 + Real.exp (-b)) : ℝ) : EReal)
      exact_mod_cast h3

/-! ### Rows of probabilities -/

private theorem hs : FP.exact.Sound := FP.exact_sound
private theorem hm : FP.exact.MonoExp := FP.exact_monoExp

theorem all_fin {e : List Ex} (hNN : ∀ x ∈ e, NN x) (hp : pinf ∉ e) : ∃ r : List ℝ, e = r.map fin ∧ ∀ x ∈ r, 0 ≤ x := by
  induction e with
  | nil => exact ⟨[], rfl, by simp⟩
  | cons x e ih =>
    rw [List.mem_cons, not_or] at hp
    obtain ⟨r, rfl, hr⟩ := ih (fun y hy => hNN y (List.mem_cons_of_mem _ hy)) hp.2
    rcases (hNN x List.mem_cons_self).cases with rfl | ⟨a, rfl, ha, -⟩
    · exact absurd rfl hp.1
    · exact ⟨a :: r, rfl, by simpa using ⟨ha, hr⟩⟩

theorem sum_pinf {e : List Ex} (hNN : ∀ x ∈ e, NN x) (hp : pinf ∈ e) : pySum e = pinf := by
  obtain ⟨h1, h2⟩ := pySum_NN hs hNN
  have := h2 _ hp
  rcases h1.cases with h | ⟨r, h, -, -⟩
  · exact h
  · rw [h] at this
    exact absurd this (by simp [toE])

/-- Dividing by the sum. -/
theorem first_divSum {e p : List Ex} (hNN : ∀ x ∈ e, NN x) (h : e.mapM (fun x => x /ₚ pySum e) = .ok p) (hn : XR.nan ∉ p)
    {i : Nat} (hi : First e i) : First p i := by
  have hF := mapM_ok_iff.1 h
  have hp : pinf ∉ e := by
    intro hc
    obtain ⟨j, hj, hje⟩ := List.getElem_of_mem hc
    have hj' : j < p.length := by rw [← hF.length_eq]; exact hj
    have h3 : e[j] /ₚ pySum e = .ok p[j] := hF.get hj hj'
    rw [hje, sum_pinf hNN hc] at h3
    have h4 : ∀ q : Ex, (pinf : Ex) /ₚ pinf = .ok q → q = nan := by intro q hq; cases hq; rfl
    exact hn (h4 _ h3 ▸ List.getElem_mem hj')
  have hk := keeps_div hs (pySum_NN hs hNN).1.2.1
  obtain ⟨r, rfl, hr⟩ := all_fin hNN hp
  obtain ⟨x, hx, -, -⟩ := id hi
  have hpos : 0 < r.sum := by
    refine lt_of_le_of_ne (List.sum_nonneg hr) fun h0 => ?_
    obtain ⟨hi', rfl⟩ := List.getElem?_eq_some_iff.1 hx
    have hi'' : i < p.length := by rw [← hF.length_eq]; exact hi'
    have h3 : (r.map (fin : ℝ → Ex))[i] /ₚ pySum (r.map fin) = .ok p[i] := hF.get hi' hi''
    rw [pySum_exact, ← h0, List.getElem_map] at h3
    have h4 : ∀ (a : ℝ) (q : Ex), (fin a : Ex) /ₚ fin 0 ≠ .ok q := by
      intro a q hq
      change XR.div (fin a) (fin 0) = _ at hq
      simp [XR.div] at hq
    exact h4 _ _ h3
  refine Rises.first hk ?_ h hn hi
  rw [pySum_exact]
  exact rises_div hpos

theorem first_sfmax {a p : List Ex} (h : sfmax a = .ok p) (hn : XR.nan ∉ p) {i : Nat} (hi : First a i) : First p i := by
  have ha := (peak_sfmax hs hm h hn).1
  obtain ⟨e, he, h⟩ := bind_ok_iff.1 h
  have hNN : ∀ x ∈ e, NN x := by
    intro x hx
    obtain ⟨y, hy, hxy⟩ := mapM_mem he hx
    obtain ⟨v, hv, hNv⟩ := safeExp_NN hs (x := y) (fun e => ha (e ▸ hy))
    rw [hxy] at hv; cases hv; exact hNv
  exact first_divSum hNN h hn (Rises.first (keeps_exp hs hm) rises_exp he (fun h => (hNN _ h).1 rfl) hi)

theorem first_normRow {a b p : List Ex} (hb : a.mapM expit = .ok b) (h : Linear.normRow b = .ok p) (hn : XR.nan ∉ p)
    {i : Nat} (hi : First a i) : First p i := by
  have ha := (peak_normRow hs hm hb h hn).1
  have hNN : ∀ x ∈ b, NN x := by
    intro x hx
    obtain ⟨y, hy, hxy⟩ := mapM_mem hb hx
    obtain ⟨v, hv, ⟨r, hr, hr0, -⟩, hrep⟩ := expit_unit hs (x := y) (fun e => ha (e ▸ hy))
    rw [hxy] at hv; cases hv
    subst hr
    exact NN.fin hr0 hrep
  have hfb := Rises.first (keeps_expit hs hm) rises_expit hb (fun h => (hNN _ h).1 rfl) hi
  unfold Linear.normRow at h
  cases hz : (pySum b ==ₚ ofInt 0) with
  | true =>
    simp only [hz, Bool.not_true, Bool.false_eq_true, if_false] at h
    obtain ⟨x, hx, -, -⟩ := hfb
    obtain ⟨hi', rfl⟩ := List.getElem?_eq_some_iff.1 hx
    have hF := mapM_ok_iff.1 h
    have hi'' : i < p.length := by rw [← hF.length_eq]; exact hi'
    have h3 : (.ok Arith.nan : Py Ex) = .ok p[i] := hF.get hi' hi''
    have h4 : (nan : Ex) = p[i] := by injection h3
    exact absurd (h4 ▸ List.getElem_mem hi'') hn
  | false =>
    simp only [hz, Bool.not_false, if_true] at h
    exact first_divSum hNN h hn hfb

theorem first_logNormalize {a l p : List Ex} (hl : logNormalize a = .ok l) (h : l.mapM safeExp = .ok p) (hn : XR.nan ∉ p)
    {i : Nat} (hi : First a i) : First p i := by
  have hk := keeps_exp hs hm
  have ha := (peak_logNormalize hs hm hl h hn).1
  obtain ⟨e, he, hl⟩ := bind_ok_iff.1 hl
  obtain ⟨lp, hlp, hl⟩ := bind_ok_iff.1 hl
  cases hl
  have hln := hk.mem_nan h hn
  have hNN : ∀ x ∈ e, NN x := by
    intro x hx
    obtain ⟨y, hy, hxy⟩ := mapM_mem he hx
    obtain ⟨v, hv, hNv⟩ := safeExp_NN hs (x := y) (fun e => ha (e ▸ hy))
    rw [hxy] at hv; cases hv; exact hNv
  have hF := mapM_ok_iff.1 he
  have hp : pinf ∉ e := by
    intro hc
    rw [sum_pinf hNN hc] at hlp
    have hlp' : lp = pinf := by
      have : safeLog (pinf : Ex) = .ok pinf := by
        unfold safeLog
        rw [ofInt_exact]
        rfl
      rw [this] at hlp
      cases hlp; rfl
    subst hlp'
    obtain ⟨x, hx, hxe⟩ := mapM_mem he hc
    refine hln (List.mem_map.2 ⟨x, hx, ?_⟩)
    cases x with
    | fin r => rw [safeExp_exact] at hxe; cases hxe
    | pinf => rfl
    | ninf => cases hxe
    | nan => rfl
  obtain ⟨r, rfl, hr⟩ := all_fin hNN hp
  rw [pySum_exact] at hlp
  have hmap : a.mapM (fun x => (.ok (x -ₚ lp) : Py Ex)) = .ok (a.map fun x => x -ₚ lp) := mapM_ok_map fun _ _ => rfl
  obtain ⟨x, hx, -, -⟩ := id hi
  obtain ⟨hi', rfl⟩ := List.getElem?_eq_some_iff.1 hx
  have hpos : 0 < r.sum := by
    refine lt_of_le_of_ne (List.sum_nonneg hr) fun h0 => ?_
    have hlp' : lp = ninf := by
      have : safeLog (fin 0 : Ex) = .ok ninf := by
        unfold safeLog
        have : ((fin 0 : Ex) ==ₚ ofInt 0) = true := by
          rw [ofInt_exact]
          show XR.eq (fin 0) (fin _) = true
          simp [XR.eq]
        rw [if_pos this]; rfl
      rw [← h0, this] at hlp
      cases hlp; rfl
    subst hlp'
    have hall : ∀ x ∈ r, x = 0 := fun x hx => le_antisymm (h0 ▸ List.single_le_sum hr x hx) (hr x hx)
    have hi'' : i < (r.map (fin : ℝ → Ex)).length := by rw [← hF.length_eq]; exact hi'
    have h3 : safeExp a[i] = .ok (r.map (fin : ℝ → Ex))[i] := hF.get hi' hi''
    rw [List.getElem_map, hall _ (List.getElem_mem _)] at h3
    refine hln (List.mem_map.2 ⟨a[i], List.getElem_mem hi', ?_⟩)
    generalize a[i] = x at h3
    cases x with
    | fin r =>
      rw [safeExp_exact] at h3
      injection h3 with h3
      injection h3 with h3
      exact absurd h3 (Real.exp_pos r).ne'
    | pinf => cases h3
    | ninf => rfl
    | nan => rfl
  have hlp' : lp = fin (Real.log r.sum) := by
    unfold safeLog at hlp
    have e1 : ((fin r.sum : Ex) ==ₚ ofInt 0) = false := by
      rw [ofInt_exact]
      show XR.eq (fin _) (fin _) = false
      simp [XR.eq, hpos.ne']
    have e2 : ((fin r.sum : Ex) <ₚ ofInt 0) = false := by
      rw [ofInt_exact]
      show XR.lt (fin _) (fin _) = false
      simp [XR.lt, hpos.le]
    rw [e1, e2] at hlp
    simp only [Bool.false_eq_true, if_false] at hlp
    rw [log_exact hpos] at hlp
    cases hlp; rfl
  subst hlp'
  exact Rises.first hk rises_exp h hn (Rises.first (keeps_sub hs _) (rises_sub _) hmap hln hi)

theorem first_pair_of {a b : Ex} {c : Bool} (h1 : c = true → toE a < toE b) (h2 : c = false → toE b ≤ toE a) :
    First [a, b] (if c then 1 else 0) := by
  cases c with
  | true =>
    have h := h1 rfl
    refine ⟨b, rfl, fun q hq => ?_, fun j hj q hq => ?_⟩
    · simp only [List.mem_cons, List.not_mem_nil, or_false] at hq
      rcases hq with rfl | rfl
      · exact h.le
      · exact le_rfl
    · have : j = 0 := by simpa using hj
      subst this
      cases hq
      exact h
  | false =>
    have h := h2 rfl
    refine ⟨a, rfl, fun q hq => ?_, fun j hj q hq => by simp at hj⟩
    simp only [List.mem_cons, List.not_mem_nil, or_false] at hq
    rcases hq with rfl | rfl
    · exact le_rfl
    · exact h

theorem first_neg_pair {x : Ex} (hx : x ≠ XR.nan) : First [Arith.neg x, x] (if ofInt 0 <ₚ x then 1 else 0) := by
  refine first_pair_of (fun h => ?_) (fun h => ?_)
  · rw [ofInt_exact] at h
    change XR.lt (fin _) x = true at h
    show toE (XR.neg x) < toE x
    cases x with
    | fin y =>
      have h' : 0 < y := by simpa [XR.lt] using h
      show ((-y : ℝ) : EReal) < (y : EReal)
      exact_mod_cast (by linarith : -y < y)
    | pinf => exact bot_lt_top
    | ninf => simp [XR.lt] at h
    | nan => exact absurd rfl hx
  · rw [ofInt_exact] at h
    change XR.lt (fin _) x = false at h
    show toE x ≤ toE (XR.neg x)
    cases x with
    | fin y =>
      have h' : y ≤ 0 := by simpa [XR.lt] using h
      show (y : EReal) ≤ ((-y : ℝ) : EReal)
      exact_mod_cast (by linarith : y ≤ -y)
    | pinf => simp [XR.lt] at h
    | ninf => exact bot_le
    | nan => exact absurd rfl hx

theorem first_pair {x a : Ex} (h : expit x = .ok a) (hn : XR.nan ∉ [ofInt 1 -ₚ a, a]) :
    First [ofInt 1 -ₚ a, a] (if ofInt 0 <ₚ x then 1 else 0) := by
  have hx : x ≠ XR.nan := by
    rintro rfl
    exact hn (by rw [(keeps_expit hs hm).nan a h]; simp)
  have h0 : expit (fin 0 : Ex) = .ok (fin (1 / 2)) := by
    rw [expit_fin, neg_zero, Real.exp_zero]; norm_num
  obtain ⟨p, hp, ⟨r, rfl, hr0, hr1⟩, -⟩ := expit_unit hs hx
  rw [h] at hp; cases hp
  have e1 : (ofInt 1 -ₚ fin r : Ex) = fin (1 - r) := by rw [ofInt_exact, Int.cast_one, sub_exact]
  rw [e1]
  refine first_pair_of (fun hc => ?_) (fun hc => ?_)
  · have hlt : toE (fin 0 : Ex) < toE x := by
      rw [ofInt_exact] at hc
      change XR.lt (fin _) x = true at hc
      cases x with
      | fin y =>
        have h' : 0 < y := by simpa [XR.lt] using hc
        show ((0 : ℝ) : EReal) < (y : EReal)
        exact_mod_cast h'
      | pinf => exact EReal.coe_lt_top 0
      | ninf => simp [XR.lt] at hc
      | nan => exact absurd rfl hx
    have := rises_expit _ _ _ _ (by simp) hx h0 h hlt
    have h' : ((1 / 2 : ℝ) : EReal) < (r : EReal) := this
    have h2 : 1 / 2 < r := by exact_mod_cast h'
    show ((1 - r : ℝ) : EReal) < (r : EReal)
    exact_mod_cast (by linarith : 1 - r < r)
  · have hle : toE x ≤ toE (fin 0 : Ex) := by
      rw [ofInt_exact] at hc
      change XR.lt (fin _) x = false at hc
      cases x with
      | fin y =>
        have h' : y ≤ 0 := by simpa [XR.lt] using hc
        show (y : EReal) ≤ ((0 : ℝ) : EReal)
        exact_mod_cast h'
      | pinf => simp [XR.lt] at hc
      | ninf => exact bot_le
      | nan => exact absurd rfl hx
    have := (keeps_expit hs hm).mono _ _ _ _ hx (by simp) h h0 (by simp) (by simp) hle
    have h' : (r : EReal) ≤ ((1 / 2 : ℝ) : EReal) := this
    have h2 : r ≤ 1 / 2 := by exact_mod_cast h'
    show (r : EReal) ≤ ((1 - r : ℝ) : EReal)
    exact_mod_cast (by linarith : r ≤ 1 - r)

end XR
end PurePredict
