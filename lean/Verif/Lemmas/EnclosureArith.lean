import Verif.Spec.Enclosure
import Verif.Lemmas.RisingArith
import Verif.Lemmas.Mat
import Verif.Py.FPError
import Verif.Lemmas.SumError
/-
Computed numbers are in the intervals of a certificate.
-/
namespace PurePredict
open Spec
variable {fp : FP}

/-! ### Lists -/

theorem forall₂_mapM {α β γ δ : Type} {T : α → β → Prop} {H : α → γ → Prop} {K : β → δ → Prop} {f : γ → Py δ} {as : List α} {bs : List β}
    {xs : List γ} (ht : List.Forall₂ T as bs) (hx : List.Forall₂ H as xs) (hf : ∀ a b x, T a b → H a x → ∃ y, f x = .ok y ∧ K b y) :
    ∃ ys, xs.mapM f = .ok ys ∧ List.Forall₂ K bs ys := by
  induction ht generalizing xs with
  | nil =>
    cases hx
    exact ⟨[], rfl, .nil⟩
  | cons h _ ih =>
    cases hx with
    | cons k k' =>
      obtain ⟨y, e1, e2⟩ := hf _ _ _ h k
      obtain ⟨ys, e3, e4⟩ := ih k'
      exact ⟨y :: ys, by rw [mapM_cons', e1, py_ok_bind, e3]; rfl, .cons e2 e4⟩

theorem forall₂_map_of {α β γ δ : Type} {T : α → β → Prop} {H : α → γ → Prop} {K : β → δ → Prop} {f : γ → δ} {as : List α} {bs : List β}
    {xs : List γ} (ht : List.Forall₂ T as bs) (hx : List.Forall₂ H as xs) (hf : ∀ a b x, T a b → H a x → K b (f x)) :
    List.Forall₂ K bs (xs.map f) := by
  induction ht generalizing xs with
  | nil =>
    cases hx
    exact .nil
  | cons h _ ih =>
    cases hx with
    | cons k k' => exact .cons (hf _ _ _ h k) (ih k')

theorem columns_zipWith {α β γ δ ε ζ : Type} {T : α → β → γ → Prop} {H : α → δ → Prop} {K : β → ε → Prop} {L : γ → ζ → Prop} {f : δ → ε → ζ}
    {as : List α} {bs : List β} {cs : List γ} {xs : List δ} {ys : List ε} (h : Columns T as bs cs) (hx : List.Forall₂ H as xs)
    (hy : List.Forall₂ K bs ys) (hf : ∀ a b c x y, T a b c → H a x → K b y → L c (f x y)) : List.Forall₂ L cs (List.zipWith f xs ys) := by
  induction h generalizing xs ys with
  | nil =>
    cases hx
    exact .nil
  | cons h _ ih =>
    cases hx with
    | cons k k' =>
      cases hy with
      | cons j j' => exact .cons (hf _ _ _ _ _ h k j) (ih k' j')

theorem Spec.Columns.lengths {α β γ : Type} {T : α → β → γ → Prop} {as : List α} {bs : List β} {cs : List γ} (h : Columns T as bs cs) :
    bs.length = as.length ∧ cs.length = as.length := by
  induction h with
  | nil => exact ⟨rfl, rfl⟩
  | cons _ _ ih => simp [ih.1, ih.2]

/-! ### Arithmetic -/

theorem close_round (hc : fp.Close) {z : ℝ} {d : Span} (h : Rounded z d) : d.Holds (XR.round z : XR fp) := by
  obtain ⟨h1, h2, h3⟩ := h
  obtain ⟨v, e, hv⟩ := hc.rnd z h1
  refine ⟨v, XR.round_eq_fin.2 e, ?_, ?_⟩ <;> have := abs_le.1 hv <;> linarith

theorem holds_add (hc : fp.Close) {a b d : Span} (h : Added a b d) {x y : XR fp} (hx : a.Holds x) (hy : b.Holds y) : d.Holds (x +ₚ y) := by
  obtain ⟨u, rfl, hu⟩ := hx
  obtain ⟨v, rfl, hv⟩ := hy
  exact close_round hc (h u v hu hv)

theorem holds_sub (hc : fp.Close) {a b d : Span} (h : Subtracted a b d) {x y : XR fp} (hx : a.Holds x) (hy : b.Holds y) : d.Holds (x -ₚ y) := by
  obtain ⟨u, rfl, hu⟩ := hx
  obtain ⟨v, rfl, hv⟩ := hy
  show d.Holds (XR.round (u + -v))
  rw [← sub_eq_add_neg]
  exact close_round hc (h u v hu hv)

theorem holds_mul (hc : fp.Close) {a b d : Span} (h : Multiplied a b d) {x y : XR fp} (hx : a.Holds x) (hy : b.Holds y) : d.Holds (x *ₚ y) := by
  obtain ⟨u, rfl, hu⟩ := hx
  obtain ⟨v, rfl, hv⟩ := hy
  exact close_round hc (h u v hu hv)

theorem holds_div (hc : fp.Close) {a b d : Span} (h : Divided a b d) {x y : XR fp} (hx : a.Holds x) (hy : b.Holds y) :
    ∃ q, x /ₚ y = .ok q ∧ d.Holds q := by
  obtain ⟨u, rfl, hu⟩ := hx
  obtain ⟨v, rfl, hv⟩ := hy
  obtain ⟨h1, h2⟩ := h u v hu hv
  exact ⟨_, by rw [XR.div_fin, if_neg h1], close_round hc h2⟩

theorem holds_neg {a : Span} {x : XR fp} (hx : a.Holds x) : a.negated.Holds (Arith.neg x) := by
  obtain ⟨u, rfl, h1, h2⟩ := hx
  exact ⟨-u, rfl, neg_le_neg h2, neg_le_neg h1⟩

theorem holds_exp (hc : fp.Close) {a d : Span} (h : Exponential a d) {x : XR fp} (hx : a.Holds x) : ∃ y, safeExp x = .ok y ∧ d.Holds y := by
  obtain ⟨u, rfl, hu⟩ := hx
  obtain ⟨h1, h2, h3⟩ := h u hu
  obtain ⟨v, e, hv⟩ := hc.exp u h1
  refine ⟨.fin v, ?_, v, rfl, ?_, ?_⟩
  · have : Arith.exp (.fin u : XR fp) = .ok (.fin v) := by
      show XR.exp (.fin u) = _
      simp only [XR.exp, e]
    rw [safeExp, this]
  all_goals have := abs_le.1 hv; linarith

theorem holds_log (hs : fp.Sound) (hc : fp.Close) {a d : Span} (h : Logarithm a d) {x : XR fp} (hx : a.Holds x) :
    ∃ y, safeLog x = .ok y ∧ d.Holds y := by
  obtain ⟨u, rfl, hu⟩ := hx
  obtain ⟨h1, h2, h3⟩ := h u hu
  have hv := abs_le.1 (hc.log u h1)
  refine ⟨.fin (fp.log u), ?_, fp.log u, rfl, by linarith, by linarith⟩
  unfold safeLog
  rw [XR.ofInt_zero hs, show ((.fin u : XR fp) ==ₚ .fin 0) = false from decide_eq_false h1.ne',
    show ((.fin u : XR fp) <ₚ .fin 0) = false from decide_eq_false (not_lt.2 h1.le)]
  show XR.log (.fin u) = _
  simp only [XR.log, if_neg (not_le.2 h1)]

theorem holds_nought (hs : fp.Sound) : nought.Holds (ofInt 0 : XR fp) := ⟨0, XR.ofInt_zero hs, le_rfl, le_rfl⟩
theorem holds_one (hs : fp.Sound) : one.Holds (ofInt 1 : XR fp) := ⟨1, XR.ofInt_one hs, le_rfl, le_rfl⟩

theorem holds_ofInt (hc : fp.Close) {n : Int} {d : Span} (h : Rounded n d) : d.Holds (ofInt n : XR fp) := close_round hc h

theorem holds_running (hc : fp.Close) {a e : Span} {l : List Span} (h : Running a l e) {x : XR fp} {xs : List (XR fp)} (hx : a.Holds x)
    (hxs : InBox l xs) : e.Holds (xs.foldl Arith.add x) := by
  induction h generalizing x xs with
  | nil =>
    cases hxs
    exact hx
  | cons h _ ih =>
    cases hxs with
    | cons k k' =>
      rw [List.foldl_cons]
      exact ih (holds_add hc h hx k) k'

theorem holds_sum (hs : fp.Sound) (hc : fp.Close) {l : List Span} {e : Span} (h : Summed l e) {xs : List (XR fp)} (hxs : InBox l xs) :
    e.Holds (pySum xs) :=
  holds_running hc h (holds_nought hs) hxs

theorem holds_expit (hs : fp.Sound) (hc : fp.Close) {a d : Span} (h : Logistic a d) {x : XR fp} (hx : a.Holds x) :
    ∃ y, expit x = .ok y ∧ d.Holds y := by
  obtain ⟨e, s, h1, h2, h3⟩ := h
  obtain ⟨y, e1, e2⟩ := holds_exp hc h1 (holds_neg hx)
  obtain ⟨q, e3, e4⟩ := holds_div hc h3 (holds_one hs) (holds_add hc h2 (holds_one hs) e2)
  exact ⟨q, by rw [expit, e1, py_ok_bind, e3], e4⟩

theorem holds_softmax (hs : fp.Sound) (hc : fp.Close) {ss P : List Span} (h : Softmax ss P) {xs : List (XR fp)} (hx : InBox ss xs) :
    ∃ ys, sfmax xs = .ok ys ∧ InBox P ys := by
  obtain ⟨es, t, h1, h2, h3⟩ := h
  obtain ⟨us, e1, e2⟩ := forall₂_mapM (f := safeExp) h1 hx fun a b x h k => holds_exp hc h k
  obtain ⟨ys, e3, e4⟩ := forall₂_mapM (f := fun x => x /ₚ pySum us) h3 e2 fun a b x h k => holds_div hc h k (holds_sum hs hc h2 e2)
  exact ⟨ys, by rw [sfmax, e1, py_ok_bind, e3], e4⟩

/-! ### The largest of several numbers -/

theorem inBox_fins {B : List Span} {x : List (XR fp)} (h : InBox B x) : ∃ r : List ℝ, x = r.map .fin ∧ List.Forall₂ Span.Has B r := by
  induction h with
  | nil => exact ⟨[], rfl, .nil⟩
  | cons h _ ih =>
    obtain ⟨z, rfl, hz⟩ := h
    obtain ⟨r, rfl, hr⟩ := ih
    exact ⟨z :: r, rfl, .cons hz hr⟩

theorem forall₂_getElem?_left {α β : Type} {R : α → β → Prop} {l : List α} {l' : List β} (h : List.Forall₂ R l l') {i : Nat} {b : β}
    (hb : l'[i]? = some b) : ∃ a, l[i]? = some a ∧ R a b := by
  induction h generalizing i with
  | nil => simp at hb
  | cons h _ ih =>
    cases i with
    | zero => cases hb; exact ⟨_, rfl, h⟩
    | succ i => exact ih (by simpa using hb)

theorem forall₂_getElem?_right {α β : Type} {R : α → β → Prop} {l : List α} {l' : List β} (h : List.Forall₂ R l l') {i : Nat} {a : α}
    (ha : l[i]? = some a) : ∃ b, l'[i]? = some b ∧ R a b := by
  induction h generalizing i with
  | nil => simp at ha
  | cons h _ ih =>
    cases i with
    | zero => cases ha; exact ⟨_, rfl, h⟩
    | succ i => exact ih (by simpa using ha)

theorem leads_argmax {ss : List Span} {k : Nat} (h : Leads ss k) {x : List (XR fp)} (hx : InBox ss x) : argmax x = .ok k := by
  obtain ⟨r, rfl, hr⟩ := inBox_fins hx
  obtain ⟨s, h1, h2, h3⟩ := h
  obtain ⟨z, hz, hsz⟩ := forall₂_getElem?_right hr h1
  obtain ⟨hk, rfl⟩ := List.getElem?_eq_some_iff.1 hz
  have ho : OrdOn XR.toReal (r.map (.fin : ℝ → XR fp)) := by
    constructor
    all_goals
      intro x hx y hy
      obtain ⟨a, _, rfl⟩ := List.mem_map.1 hx
      obtain ⟨b, _, rfl⟩ := List.mem_map.1 hy
      exact decide_eq_decide.2 Iff.rfl
  rw [argmax_iff XR.toReal ho, List.map_map, show (XR.toReal ∘ XR.fin : ℝ → ℝ) = id from rfl, List.map_id]
  refine ⟨hk, fun j hj => ?_, fun j hj => ?_⟩
  · obtain ⟨t, ht, htz⟩ := forall₂_getElem?_left hr (List.getElem?_eq_getElem hj)
    rcases Nat.lt_trichotomy j k with hjk | rfl | hjk
    · exact (htz.2.trans (h2 j t ht hjk).le).trans hsz.1
    · exact le_rfl
    · exact (htz.2.trans (h3 j t ht hjk)).trans hsz.1
  · obtain ⟨t, ht, htz⟩ := forall₂_getElem?_left hr (List.getElem?_eq_getElem (hj.trans hk))
    exact lt_of_lt_of_le (lt_of_le_of_lt htz.2 (h2 j t ht hj)) hsz.1

/-! ### Double precision and exact arithmetic -/

theorem ulps_nonneg (z : ℝ) : 0 ≤ ulps z := by unfold ulps; positivity
theorem ulpsLib_nonneg (z : ℝ) : 0 ≤ ulpsLib z := by unfold ulpsLib; positivity

theorem ulps_le_lib (z : ℝ) : ulps z ≤ ulpsLib z := by
  unfold ulps ulpsLib
  have h : (2 : ℝ) ^ (-53 : ℤ) ≤ 2 ^ (-52 : ℤ) := zpow_le_zpow_right₀ (by norm_num) (by norm_num)
  have h' : (2 : ℝ) ^ (-1075 : ℤ) ≤ 2 ^ (-1074 : ℤ) := zpow_le_zpow_right₀ (by norm_num) (by norm_num)
  gcongr

theorem FP.exact_close : FP.exact.Close where
  rnd z _ := ⟨z, rfl, by simpa using ulps_nonneg z⟩
  exp z _ := ⟨_, rfl, by simpa using ulpsLib_nonneg _⟩
  log z _ := by
    show |Real.log z - Real.log z| ≤ _
    simpa using ulpsLib_nonneg _

theorem B64.rnd_near {z : ℝ} (h : |z| ≤ 2 ^ 1000) : B64.rnd z = ((B64.rndFin z : ℝ) : EReal) := by
  refine B64.rnd_of_fin ?_
  have h1 := B64.rndFin_err z
  have h2 : (2 : ℝ) ^ (-53 : ℤ) ≤ 1 := by
    rw [← zpow_zero (2 : ℝ)]
    exact zpow_le_zpow_right₀ (by norm_num) (by norm_num)
  have h3 : (2 : ℝ) ^ (-1075 : ℤ) ≤ 1 := by
    rw [← zpow_zero (2 : ℝ)]
    exact zpow_le_zpow_right₀ (by norm_num) (by norm_num)
  have h4 : |B64.rndFin z| ≤ |z| + |B64.rndFin z - z| := by
    have := abs_add_le z (B64.rndFin z - z)
    rwa [add_sub_cancel] at this
  have h5 : (2 : ℝ) ^ (-53 : ℤ) * |z| ≤ |z| := by nlinarith [abs_nonneg z]
  have h6 : (2 : ℝ) ^ (1024 : ℤ) = 2 ^ 24 * 2 ^ 1000 := by
    rw [show (1024 : ℤ) = ((24 + 1000 : ℕ) : ℤ) by norm_num, zpow_natCast, pow_add]
  have h7 : (1 : ℝ) ≤ 2 ^ 1000 := one_le_pow₀ (by norm_num)
  rw [h6]
  have h8 : |B64.rndFin z - z| ≤ |z| + 1 := h1.trans (add_le_add h5 h3)
  clear h1 h2 h3 h5 h6
  generalize (2 : ℝ) ^ 1000 = t at *
  norm_num
  linarith

theorem exp_six_hundred : Real.exp 600 ≤ 2 ^ 1000 := by
  have h : Real.exp 1 < 2.7182818286 := Real.exp_one_lt_d9
  have h1 : Real.exp 600 = Real.exp 1 ^ 600 := by rw [← Real.exp_nat_mul]; norm_num
  have h2 : Real.exp 1 ^ 3 ≤ 2 ^ 5 := by
    have : Real.exp 1 ≤ 3 := by linarith
    calc Real.exp 1 ^ 3 ≤ 3 ^ 3 := by gcongr
      _ ≤ 2 ^ 5 := by norm_num
  rw [h1, show (600 : ℕ) = 3 * 200 from rfl, pow_mul, show (1000 : ℕ) = 5 * 200 from rfl, pow_mul]
  gcongr

theorem FP.binary64_close : FP.binary64.Close where
  rnd z h := ⟨B64.rndFin z, B64.rnd_near h, B64.rndFin_err z⟩
  exp z h := by
    have h1 : |Real.exp z| ≤ 2 ^ 1000 := by
      rw [abs_of_pos (Real.exp_pos z)]
      exact (Real.exp_le_exp.2 h).trans exp_six_hundred
    refine ⟨B64.rndFin (Real.exp z), ?_, (B64.rndFin_err _).trans (ulps_le_lib _)⟩
    show B64.exp z = _
    unfold B64.exp
    rw [B64.rnd_near h1, if_neg (EReal.coe_ne_top _)]
  log z _ := (B64.rndFin_err _).trans (ulps_le_lib _)

end PurePredict
