import Verif.Py.ExpMono
import Verif.Model.Linear
import Verif.Model.NaiveBayes
import Verif.Model.Tree
import Verif.Lemmas.Argmax
import Verif.Lemmas.RoundedLinks
/-
Monotone steps of floating point code keep the position of a largest element.
-/
namespace PurePredict
open scoped Classical
namespace XR
variable {fp : FP}

/-- The entry at `i` is at least every entry. -/
def Peak (l : List (XR fp)) (i : Nat) : Prop := ∃ p, l[i]? = some p ∧ ∀ q ∈ l, toE q ≤ toE p

theorem peak_argmax {l : List (XR fp)} {i : Nat} (hn : nan ∉ l) (h : argmax l = .ok i) : Peak l i := by
  obtain ⟨hi, hm, -⟩ := (argmax_iff toE (ordOn_toE hn)).1 h
  have hi' : i < l.length := by simpa using hi
  refine ⟨l[i], List.getElem?_eq_getElem hi', fun q hq => ?_⟩
  obtain ⟨j, hj, rfl⟩ := List.getElem_of_mem hq
  have := hm j (by simpa using hj)
  rwa [List.getElem_map, List.getElem_map] at this

/-- NaN stays NaN and the order is kept. -/
structure Keeps (g : XR fp → Py (XR fp)) : Prop where
  nan : ∀ u, g nan = .ok u → u = XR.nan
  mono : ∀ x y u v, x ≠ XR.nan → y ≠ XR.nan → g x = .ok u → g y = .ok v → u ≠ XR.nan → v ≠ XR.nan →
    toE x ≤ toE y → toE u ≤ toE v

theorem Keeps.mem_nan {g : XR fp → Py (XR fp)} (hg : Keeps g) {l p : List (XR fp)} (h : l.mapM g = .ok p)
    (hn : XR.nan ∉ p) : XR.nan ∉ l := by
  induction l generalizing p with
  | nil => simp
  | cons x l ih =>
    rw [mapM_cons'] at h
    obtain ⟨u, hu, h⟩ := bind_ok_iff.1 h
    obtain ⟨us, hus, h⟩ := bind_ok_iff.1 h
    cases h
    rw [List.mem_cons, not_or] at hn ⊢
    refine ⟨?_, ih hus hn.2⟩
    rintro rfl
    exact hn.1 (hg.nan u hu).symm

theorem Keeps.peak {g : XR fp → Py (XR fp)} (hg : Keeps g) {l p : List (XR fp)} (h : l.mapM g = .ok p)
    (hn : XR.nan ∉ p) {i : Nat} (hp : Peak l i) : Peak p i := by
  have hl := hg.mem_nan h hn
  have hf := mapM_ok_iff.1 h
  obtain ⟨x, hx, hm⟩ := hp
  have hi : i < l.length := (List.getElem?_eq_some_iff.1 hx).1
  have hi' : i < p.length := by rw [← hf.length_eq]; exact hi
  have hat : ∀ (j : Nat) (hj : j < l.length) (hj' : j < p.length), g l[j] = .ok p[j] := fun j hj hj' => hf.get hj hj'
  have hxi : l[i] = x := (List.getElem?_eq_some_iff.1 hx).2
  refine ⟨p[i], List.getElem?_eq_getElem hi', fun q hq => ?_⟩
  obtain ⟨j, hj, rfl⟩ := List.getElem_of_mem hq
  have hj' : j < l.length := by rw [hf.length_eq]; exact hj
  refine hg.mono l[j] l[i] _ _ ?_ ?_ (hat j hj' hj) (hat i hi hi') ?_ ?_ ?_
  · exact fun e => hl (e ▸ List.getElem_mem hj')
  · exact fun e => hl (e ▸ List.getElem_mem hi)
  · exact fun e => hn (e ▸ List.getElem_mem hj)
  · exact fun e => hn (e ▸ List.getElem_mem hi')
  · rw [hxi]; exact hm _ (List.getElem_mem hj')

/-! ### The steps -/

theorem safeExp_fin (r : ℝ) : safeExp (fin r : XR fp) = match fp.exp r with
    | some v => .ok (fin v)
    | none => .ok pinf := by
  unfold safeExp
  cases he : fp.exp r with
  | none =>
    have : Arith.exp (fin r : XR fp) = .error .overflowError := by
      show XR.exp (fin r) = _
      simp [XR.exp, he]
    rw [this]; rfl
  | some v =>
    have : Arith.exp (fin r : XR fp) = .ok (fin v) := by
      show XR.exp (fin r) = _
      simp [XR.exp, he]
    rw [this]

theorem keeps_exp (hs : fp.Sound) (hm : fp.MonoExp) : Keeps (safeExp : XR fp → Py (XR fp)) where
  nan := by intro u h; cases h; rfl
  mono := by
    intro x y u v hx hy hu hv _ _ h
    cases y with
    | nan => exact absurd rfl hy
    | pinf => cases hv; exact le_top
    | ninf =>
      cases hv
      cases x with
      | ninf => cases hu; exact le_rfl
      | nan => exact absurd rfl hx
      | pinf => exact absurd h (by simp [toE])
      | fin r => exact absurd h (by simp [toE])
    | fin b =>
      cases x with
      | nan => exact absurd rfl hx
      | pinf => exact absurd h (by simp [toE])
      | ninf =>
        cases hu
        obtain ⟨w, hw, hNN⟩ := safeExp_NN hs (x := (fin b : XR fp)) (by simp)
        rw [hv] at hw; cases hw
        exact hNN.2.1
      | fin a =>
        have hab : a ≤ b := by
          have : (a : EReal) ≤ (b : EReal) := h
          exact_mod_cast this
        rw [safeExp_fin] at hu hv
        cases hb : fp.exp b with
        | none => rw [hb] at hv; cases hv; exact le_top
        | some w =>
          obtain ⟨z, hz, hzw⟩ := hm.exp_mono a b w hab hb
          rw [hb] at hv; rw [hz] at hu
          cases hu; cases hv
          show (z : EReal) ≤ (w : EReal)
          exact_mod_cast hzw

theorem toE_neg {x : XR fp} (hx : x ≠ nan) : toE (Arith.neg x) = - toE x := by
  show toE (XR.neg x) = _
  cases x <;> simp_all [XR.neg, toE]

theorem neg_ne_nan {x : XR fp} (hx : x ≠ nan) : Arith.neg x ≠ nan := by
  show XR.neg x ≠ nan
  cases x <;> simp_all [XR.neg]

/-- adding is monotone as long as no NaN appears -/
theorem toE_add_le (hs : fp.Sound) {x y c : XR fp} (h : toE x ≤ toE y) (hx : x +ₚ c ≠ nan) (hy : y +ₚ c ≠ nan) :
    toE (x +ₚ c) ≤ toE (y +ₚ c) := by
  change XR.add x c ≠ nan at hx
  change XR.add y c ≠ nan at hy
  show toE (XR.add x c) ≤ toE (XR.add y c)
  cases x <;> cases y <;> cases c <;> simp only [XR.add, ne_eq, not_true_eq_false] at hx hy ⊢ <;>
    first
    | exact le_rfl
    | exact le_top
    | exact bot_le
    | (exfalso; simp [toE] at h; done)
    | (rename_i a b c
       rw [toE_round, toE_round]
       refine hs.mono ?_
       have : (a : EReal) ≤ (b : EReal) := h
       have : a ≤ b := by exact_mod_cast this
       linarith)

theorem keeps_sub (hs : fp.Sound) (c : XR fp) : Keeps (fun x => .ok (x -ₚ c)) where
  nan := by
    intro u h
    cases h
    show XR.add XR.nan (XR.neg c) = _
    cases c <;> rfl
  mono := by
    intro x y u v hx hy hu hv hnu hnv h
    cases hu; cases hv
    exact toE_add_le hs h hnu hnv

theorem toE_div_le (hs : fp.Sound) {x y s u v : XR fp} (hS : 0 ≤ toE s) (hu : x /ₚ s = .ok u) (hv : y /ₚ s = .ok v)
    (hnu : u ≠ nan) (hnv : v ≠ nan) (h : toE x ≤ toE y) (hx : x ≠ nan) (hy : y ≠ nan) : toE u ≤ toE v := by
  change XR.div x s = _ at hu
  change XR.div y s = _ at hv
  cases s with
  | nan => exact absurd hS (by simp [toE])
  | ninf => exact absurd hS (by simp [toE])
  | pinf =>
    cases x <;> cases y <;> simp only [XR.div, Except.ok.injEq] at hu hv <;> subst hu <;> subst hv <;>
      first
      | exact le_rfl
      | exact absurd rfl hnu
      | exact absurd rfl hnv
  | fin s =>
    have hs0 : 0 ≤ s := by
      have : (0 : EReal) ≤ (s : EReal) := hS
      exact_mod_cast this
    by_cases h0 : s = 0
    · cases x <;> simp [XR.div, h0] at hu
    have hpos : 0 < s := lt_of_le_of_ne hs0 (Ne.symm h0)
    have i1 : (infMul true s : XR fp) = pinf := by simp [infMul, h0, hpos]
    have i2 : (infMul false s : XR fp) = ninf := by simp [infMul, h0, hpos]
    cases x <;> cases y <;> simp only [XR.div, if_neg h0, i1, i2, Except.ok.injEq] at hu hv <;> subst hu <;> subst hv <;>
      first
      | exact le_rfl
      | exact le_top
      | exact bot_le
      | exact absurd rfl hx
      | exact absurd rfl hy
      | (exfalso; simp [toE] at h; done)
      | (rename_i a b
         rw [toE_round, toE_round]
         refine hs.mono ((div_le_div_iff_of_pos_right hpos).2 ?_)
         have : (a : EReal) ≤ (b : EReal) := h
         exact_mod_cast this)

theorem nan_div {s u : XR fp} (h : (XR.nan : XR fp) /ₚ s = .ok u) : u = XR.nan := by
  change XR.div XR.nan s = _ at h
  cases s <;> simp only [XR.div] at h
  · split at h
    · cases h
    · cases h; rfl
  all_goals (cases h; rfl)

theorem keeps_div (hs : fp.Sound) {s : XR fp} (hS : 0 ≤ toE s) : Keeps (fun x => x /ₚ s) where
  nan := by
    intro u h
    exact nan_div h
  mono := by
    intro x y u v hx hy hu hv hnu hnv h
    exact toE_div_le hs hS hu hv hnu hnv h hx hy

/-- `1 / (1 + v)` as a function of a non-negative `v` is antitone. -/
theorem inv_antitone (hs : fp.Sound) {v w p q : XR fp} (hv : NN v) (hw : NN w) (h : toE v ≤ toE w)
    (hp : ofInt 1 /ₚ (ofInt 1 +ₚ v) = .ok p) (hq : ofInt 1 /ₚ (ofInt 1 +ₚ w) = .ok q) : toE q ≤ toE p := by
  have h1 : NN (fin 1 : XR fp) := NN.fin zero_le_one hs.one
  rw [ofInt_one hs] at hp hq
  obtain ⟨a1, a2, -⟩ := NN.add hs h1 hv
  obtain ⟨b1, b2, -⟩ := NN.add hs h1 hw
  have hcomm : ∀ z : XR fp, NN z → (fin 1 : XR fp) +ₚ z = z +ₚ fin 1 := by
    intro z hz
    show XR.add (fin 1) z = XR.add z (fin 1)
    rcases hz.cases with rfl | ⟨r, rfl, -, -⟩
    · rfl
    · simp only [XR.add, add_comm]
  have hle : toE ((fin 1 : XR fp) +ₚ v) ≤ toE ((fin 1 : XR fp) +ₚ w) := by
    rw [hcomm v hv, hcomm w hw]
    exact toE_add_le hs h (by rw [← hcomm v hv]; exact a1.1) (by rw [← hcomm w hw]; exact b1.1)
  generalize (fin 1 : XR fp) +ₚ v = s at *
  generalize (fin 1 : XR fp) +ₚ w = t at *
  rcases b1.cases with rfl | ⟨t, rfl, -, ht⟩
  · cases hq
    rcases a1.cases with rfl | ⟨s, rfl, -, hs'⟩
    · cases hp; exact le_rfl
    · have : (1 : ℝ) ≤ s := by
        have h' : ((1 : ℝ) : EReal) ≤ (s : EReal) := a2
        exact_mod_cast h'
      rw [div_fin, if_neg (by linarith)] at hp
      cases hp
      exact (NN.round hs (by positivity)).2.1
  · rcases a1.cases with rfl | ⟨s, rfl, -, hs'⟩
    · exact absurd hle (by simp [toE])
    · have h1s : (1 : ℝ) ≤ s := by
        have h' : ((1 : ℝ) : EReal) ≤ (s : EReal) := a2
        exact_mod_cast h'
      have hst : s ≤ t := by
        have h' : (s : EReal) ≤ (t : EReal) := hle
        exact_mod_cast h'
      rw [div_fin, if_neg (by linarith)] at hp hq
      cases hp; cases hq
      rw [toE_round, toE_round]
      exact hs.mono (one_div_le_one_div_of_le (by linarith) hst)

theorem keeps_expit (hs : fp.Sound) (hm : fp.MonoExp) : Keeps (expit : XR fp → Py (XR fp)) where
  nan := by
    intro u h
    have h1 : safeExp (Arith.neg (XR.nan : XR fp)) = .ok XR.nan := rfl
    simp only [expit, h1, py_ok_bind] at h
    have h2 : ofInt 1 +ₚ (XR.nan : XR fp) = XR.nan := by
      rw [ofInt_one hs]; rfl
    rw [h2, ofInt_one hs] at h
    cases h; rfl
  mono := by
    intro x y u v hx hy hu hv _ _ h
    obtain ⟨a, ha, hNa⟩ := safeExp_NN hs (neg_ne_nan hx)
    obtain ⟨b, hb, hNb⟩ := safeExp_NN hs (neg_ne_nan hy)
    simp only [expit, ha, hb, py_ok_bind] at hu hv
    refine inv_antitone hs hNb hNa ?_ hv hu
    refine (keeps_exp hs hm).mono _ _ _ _ (neg_ne_nan hy) (neg_ne_nan hx) hb ha hNb.1 hNa.1 ?_
    rw [toE_neg hx, toE_neg hy]
    exact EReal.neg_le_neg_iff.2 h

/-! ### Rows of probabilities -/

theorem peak_sfmax (hs : fp.Sound) (hm : fp.MonoExp) {a p : List (XR fp)} (h : sfmax a = .ok p) (hn : XR.nan ∉ p) :
    XR.nan ∉ a ∧ ∀ i, Peak a i → Peak p i := by
  obtain ⟨e, he, h⟩ := bind_ok_iff.1 h
  have hk := keeps_exp hs hm
  -- the exponentials are NaN or non-negative
  by_cases ha : XR.nan ∈ a
  · exfalso
    obtain ⟨j, hj, hja⟩ := List.getElem_of_mem ha
    have hf := mapM_ok_iff.1 he
    have hj' : j < e.length := by rw [← hf.length_eq]; exact hj
    have h1 : safeExp a[j] = .ok e[j] := hf.get hj hj'
    rw [hja] at h1
    have h2 := hk.nan _ h1
    have hf' := mapM_ok_iff.1 h
    have hj'' : j < p.length := by rw [← hf'.length_eq]; exact hj'
    have h3 : e[j] /ₚ pySum e = .ok p[j] := hf'.get hj' hj''
    rw [h2] at h3
    have h4 : p[j] = XR.nan := nan_div h3
    exact hn (h4 ▸ List.getElem_mem hj'')
  refine ⟨ha, fun i hi => ?_⟩
  have hNN : ∀ x ∈ e, NN x := by
    intro x hx
    obtain ⟨y, hy, hxy⟩ := mapM_mem he hx
    obtain ⟨v, hv, hNv⟩ := safeExp_NN hs (x := y) (fun e => ha (e ▸ hy))
    rw [hxy] at hv; cases hv; exact hNv
  have hd := keeps_div hs (pySum_NN hs hNN).1.2.1
  exact hd.peak h hn (hk.peak he (fun h => (hNN _ h).1 rfl) hi)

theorem peak_normRow (hs : fp.Sound) (hm : fp.MonoExp) {a b p : List (XR fp)} (hb : a.mapM expit = .ok b)
    (h : Linear.normRow b = .ok p) (hn : XR.nan ∉ p) : XR.nan ∉ a ∧ ∀ i, Peak a i → Peak p i := by
  have hk := keeps_expit hs hm
  unfold Linear.normRow at h
  cases hz : (pySum b ==ₚ ofInt 0) with
  | true =>
    simp only [hz, Bool.not_true, Bool.false_eq_true, if_false] at h
    have : p = [] := by
      cases p with
      | nil => rfl
      | cons q p =>
        obtain ⟨y, -, hy⟩ := mapM_mem h (List.mem_cons_self (a := q) (l := p))
        cases hy
        exact absurd List.mem_cons_self hn
    subst this
    have hl := mapM_length h
    have hl' := mapM_length hb
    have : a = [] := List.length_eq_zero_iff.1 (by rw [← hl', ← hl]; rfl)
    subst this
    exact ⟨by simp, fun i hi => hi⟩
  | false =>
    simp only [hz, Bool.not_false, if_true] at h
    have hbn : XR.nan ∉ b := by
      intro hc
      obtain ⟨j, hj, hjb⟩ := List.getElem_of_mem hc
      have hf := mapM_ok_iff.1 h
      have hj' : j < p.length := by rw [← hf.length_eq]; exact hj
      have h3 : b[j] /ₚ pySum b = .ok p[j] := hf.get hj hj'
      rw [hjb] at h3
      have h4 : p[j] = XR.nan := nan_div h3
      exact hn (h4 ▸ List.getElem_mem hj')
    have ha := hk.mem_nan hb hbn
    refine ⟨ha, fun i hi => ?_⟩
    have hNN : ∀ x ∈ b, NN x := by
      intro x hx
      obtain ⟨y, hy, hxy⟩ := mapM_mem hb hx
      obtain ⟨v, hv, ⟨r, hr, hr0, -⟩, hrep⟩ := expit_unit hs (x := y) (fun e => ha (e ▸ hy))
      rw [hxy] at hv; cases hv
      subst hr
      exact NN.fin hr0 hrep
    exact (keeps_div hs (pySum_NN hs hNN).1.2.1).peak h hn (hk.peak hb hbn hi)

theorem peak_logNormalize (hs : fp.Sound) (hm : fp.MonoExp) {a l p : List (XR fp)} (hl : logNormalize a = .ok l)
    (h : l.mapM safeExp = .ok p) (hn : XR.nan ∉ p) : XR.nan ∉ a ∧ ∀ i, Peak a i → Peak p i := by
  have hk := keeps_exp hs hm
  obtain ⟨e, he, hl⟩ := bind_ok_iff.1 hl
  obtain ⟨lp, hlp, hl⟩ := bind_ok_iff.1 hl
  cases hl
  have hd := keeps_sub hs lp
  have hln := hk.mem_nan h hn
  have hm' : a.mapM (fun x => (.ok (x -ₚ lp) : Py (XR fp))) = .ok (a.map fun x => x -ₚ lp) :=
    mapM_ok_map fun _ _ => rfl
  exact ⟨hd.mem_nan hm' hln, fun i hi => hk.peak h hn (hd.peak hm' hln hi)⟩

/-- the two columns of a binary model -/
theorem peak_pair (hs : fp.Sound) (hm : fp.MonoExp) {x a : XR fp} (h : expit x = .ok a)
    (hn : XR.nan ∉ [ofInt 1 -ₚ a, a]) : Peak [ofInt 1 -ₚ a, a] (if ofInt 0 <ₚ x then 1 else 0) := by
  have hk := keeps_expit hs hm
  have hx : x ≠ XR.nan := by
    rintro rfl
    exact hn (by rw [hk.nan a h]; simp)
  obtain ⟨p, hp, ⟨r, rfl, hr0, hr1⟩, hrep⟩ := expit_unit hs hx
  rw [h] at hp; cases hp
  -- the middle
  have hmid : expit (fin 0 : XR fp) = .ok (fin (1 / 2)) := by
    have h0 : safeExp (Arith.neg (fin 0 : XR fp)) = .ok (fin 1) := by
      show safeExp (fin (-0)) = _
      rw [safeExp_fin, neg_zero, hs.exp_zero]
    simp only [expit, h0, py_ok_bind, ofInt_one hs]
    have h2 : (fin 1 : XR fp) +ₚ fin 1 = fin 2 := by
      show XR.round (1 + 1) = _
      rw [show (1 : ℝ) + 1 = 2 by norm_num]
      exact round_rep hm.two
    rw [h2, div_fin, if_neg (by norm_num), round_rep hm.half]
  have e1 : (ofInt 1 -ₚ fin r : XR fp) = round (1 + -r) := by rw [ofInt_one hs]; rfl
  rw [e1]
  have hrnd : fp.rnd r = (r : EReal) := hrep
  cases hlt : (ofInt 0 <ₚ x) with
  | true =>
    have hxe : toE (fin 0 : XR fp) ≤ toE x := by
      rw [ofInt_zero hs] at hlt
      change XR.lt (fin 0) x = true at hlt
      cases x with
      | fin y =>
        simp only [XR.lt, decide_eq_true_eq] at hlt
        show ((0 : ℝ) : EReal) ≤ (y : EReal)
        exact_mod_cast hlt.le
      | pinf => exact le_top
      | ninf => simp [XR.lt] at hlt
      | nan => exact absurd rfl hx
    have hge := hk.mono _ _ _ _ (by simp) hx hmid h (by simp) (by simp) hxe
    have hr2 : 1 / 2 ≤ r := by
      have h' : ((1 / 2 : ℝ) : EReal) ≤ (r : EReal) := hge
      exact_mod_cast h'
    refine ⟨fin r, rfl, fun q hq => ?_⟩
    simp only [List.mem_cons, List.not_mem_nil, or_false] at hq
    rcases hq with rfl | rfl
    · rw [toE_round]
      show _ ≤ (r : EReal)
      rw [← hrnd]
      exact hs.mono (by linarith)
    · exact le_rfl
  | false =>
    have hxe : toE x ≤ toE (fin 0 : XR fp) := by
      rw [ofInt_zero hs] at hlt
      change XR.lt (fin 0) x = false at hlt
      cases x with
      | fin y =>
        simp only [XR.lt, decide_eq_false_iff_not, not_lt] at hlt
        show (y : EReal) ≤ ((0 : ℝ) : EReal)
        exact_mod_cast hlt
      | pinf => simp [XR.lt] at hlt
      | ninf => exact bot_le
      | nan => exact absurd rfl hx
    have hge := hk.mono _ _ _ _ hx (by simp) h hmid (by simp) (by simp) hxe
    have hr2 : r ≤ 1 / 2 := by
      have h' : (r : EReal) ≤ ((1 / 2 : ℝ) : EReal) := hge
      exact_mod_cast h'
    refine ⟨round (1 + -r), rfl, fun q hq => ?_⟩
    simp only [List.mem_cons, List.not_mem_nil, or_false] at hq
    rcases hq with rfl | rfl
    · exact le_rfl
    · rw [toE_round]
      show (r : EReal) ≤ _
      rw [← hrnd]
      exact hs.mono (by linarith)

/-- the two scores of a binary multinomial model -/
theorem peak_neg_pair (hs : fp.Sound) {x : XR fp} (hx : x ≠ XR.nan) :
    Peak [Arith.neg x, x] (if ofInt 0 <ₚ x then 1 else 0) := by
  rw [ofInt_zero hs]
  have key : ∀ (a b : XR fp), toE a ≤ toE b → (Peak [a, b] 1 ∧ Peak [b, a] 0) := by
    intro a b h
    constructor
    · refine ⟨b, rfl, fun q hq => ?_⟩
      simp only [List.mem_cons, List.not_mem_nil, or_false] at hq
      rcases hq with rfl | rfl
      · exact h
      · exact le_rfl
    · refine ⟨b, rfl, fun q hq => ?_⟩
      simp only [List.mem_cons, List.not_mem_nil, or_false] at hq
      rcases hq with rfl | rfl
      · exact le_rfl
      · exact h
  cases hlt : ((fin 0 : XR fp) <ₚ x) with
  | true =>
    refine (key _ _ ?_).1
    change XR.lt (fin 0) x = true at hlt
    show toE (XR.neg x) ≤ toE x
    cases x with
    | fin y =>
      simp only [XR.lt, decide_eq_true_eq] at hlt
      show ((-y : ℝ) : EReal) ≤ (y : EReal)
      exact_mod_cast (by linarith : -y ≤ y)
    | pinf => exact le_top
    | ninf => simp [XR.lt] at hlt
    | nan => exact absurd rfl hx
  | false =>
    refine (key _ _ ?_).2
    change XR.lt (fin 0) x = false at hlt
    show toE x ≤ toE (XR.neg x)
    cases x with
    | fin y =>
      simp only [XR.lt, decide_eq_false_iff_not, not_lt] at hlt
      show (y : EReal) ≤ ((-y : ℝ) : EReal)
      exact_mod_cast (by linarith : y ≤ -y)
    | pinf => simp [XR.lt] at hlt
    | ninf => exact bot_le
    | nan => exact absurd rfl hx

end XR
end PurePredict
