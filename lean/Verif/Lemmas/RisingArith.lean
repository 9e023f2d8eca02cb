import Verif.Spec.Rising
import Verif.Lemmas.Peak
import Verif.Lemmas.Scale
/-
Order between two runs of the same floating point code.
-/
namespace PurePredict
open Spec

/-! ### Two runs side by side -/

/-- If both computations return, the results are related. -/
def Both {α β : Type} (R : α → β → Prop) (a : Py α) (b : Py β) : Prop := ∀ x y, a = .ok x → b = .ok y → R x y

section
variable {α β γ δ : Type} {R : α → β → Prop} {S : γ → δ → Prop}

theorem Both.pure {x : α} {y : β} (h : R x y) : Both R (.ok x) (.ok y) := by
  intro a b ha hb
  cases ha; cases hb; exact h

theorem Both.bind {a : Py α} {b : Py β} {f : α → Py γ} {g : β → Py δ} (h : Both R a b) (hf : ∀ x y, R x y → Both S (f x) (g y)) :
    Both S (a >>= f) (b >>= g) := by
  intro x y hx hy
  obtain ⟨u, hu, hx⟩ := bind_ok_iff.1 hx
  obtain ⟨v, hv, hy⟩ := bind_ok_iff.1 hy
  exact hf u v (h u v hu hv) x y hx hy

theorem Both.mapM {l : List α} {l' : List β} {f : α → Py γ} {g : β → Py δ} (h : List.Forall₂ R l l')
    (hf : ∀ x y, R x y → Both S (f x) (g y)) : Both (List.Forall₂ S) (l.mapM f) (l'.mapM g) := by
  induction h with
  | nil => exact .pure .nil
  | cons h _ ih =>
    rw [mapM_cons', mapM_cons']
    exact (hf _ _ h).bind fun u v huv => ih.bind fun us vs hus => .pure (.cons huv hus)

theorem Both.mono {R' : α → β → Prop} {a : Py α} {b : Py β} (h : Both R a b) (hR : ∀ x y, R x y → R' x y) : Both R' a b :=
  fun x y hx hy => hR x y (h x y hx hy)

theorem Both.same {a : Py α} : Both (fun x y => x = y) a a := by
  intro x y hx hy
  rw [hx] at hy
  cases hy; rfl

end

/-! ### Numbers -/

namespace XR
variable {fp : FP}

theorem notAbove_iff {x y : XR fp} : NotAbove x y ↔ x = nan ∨ y = nan ∨ toE x ≤ toE y := by
  show XR.lt y x = false ↔ _
  cases x <;> cases y <;> simp [XR.lt, toE]

theorem ordered_iff {x y : XR fp} : (x ≤ₚ y) = true ↔ x ≠ nan ∧ y ≠ nan ∧ toE x ≤ toE y := by
  show (XR.lt x y || XR.eq x y) = true ↔ _
  cases x <;> cases y <;> simp [XR.lt, XR.eq, toE, le_iff_lt_or_eq]

theorem below_iff {x y : XR fp} : (x <ₚ y) = true ↔ x ≠ nan ∧ y ≠ nan ∧ toE x < toE y := by
  show XR.lt x y = true ↔ _
  cases x <;> cases y <;> simp [XR.lt, toE]

theorem notAbove_refl (x : XR fp) : NotAbove x x := notAbove_iff.2 (.inr (.inr le_rfl))

theorem notAbove_of {x y : XR fp} (h : toE x ≤ toE y) : NotAbove x y := notAbove_iff.2 (.inr (.inr h))

theorem add_comm' (x y : XR fp) : x +ₚ y = y +ₚ x := by
  show XR.add x y = XR.add y x
  cases x <;> cases y <;> simp [XR.add, add_comm]

theorem add_nan (x : XR fp) : x +ₚ nan = nan := by
  show XR.add x nan = nan
  cases x <;> rfl

theorem nan_add (x : XR fp) : nan +ₚ x = nan := by rw [add_comm', add_nan]

theorem notAbove_add (hs : fp.Sound) {a b c d : XR fp} (h1 : NotAbove a b) (h2 : NotAbove c d) : NotAbove (a +ₚ c) (b +ₚ d) := by
  have left : ∀ {x y z : XR fp}, NotAbove x y → NotAbove (x +ₚ z) (y +ₚ z) := by
    intro x y z h
    rcases notAbove_iff.1 h with rfl | rfl | h
    · exact notAbove_iff.2 (.inl (nan_add _))
    · exact notAbove_iff.2 (.inr (.inl (nan_add _)))
    · by_cases hx : x +ₚ z = nan
      · exact notAbove_iff.2 (.inl hx)
      · by_cases hy : y +ₚ z = nan
        · exact notAbove_iff.2 (.inr (.inl hy))
        · exact notAbove_of (toE_add_le hs h hx hy)
  by_cases hc : c = nan
  · subst hc; exact notAbove_iff.2 (.inl (add_nan _))
  by_cases hd : d = nan
  · subst hd; exact notAbove_iff.2 (.inr (.inl (add_nan _)))
  by_cases ha : a = nan
  · subst ha; exact notAbove_iff.2 (.inl (nan_add _))
  by_cases hb : b = nan
  · subst hb; exact notAbove_iff.2 (.inr (.inl (nan_add _)))
  have e1 : toE a ≤ toE b := by simpa [ha, hb] using notAbove_iff.1 h1
  have e2 : toE c ≤ toE d := by simpa [hc, hd] using notAbove_iff.1 h2
  -- through `b + c` unless that is NaN
  by_cases hm : b +ₚ c = nan
  · change XR.add b c = nan at hm
    show NotAbove (XR.add a c) (XR.add b d)
    refine notAbove_iff.2 ?_
    cases b <;> cases c <;> simp only [XR.add, reduceCtorEq] at hm ⊢
    · exact absurd hm (round_ne_nan _)
    · cases d <;> cases a <;> simp_all [XR.add, toE]
    · cases d <;> cases a <;> simp_all [XR.add, toE]
    all_goals (first | exact absurd rfl hb | exact absurd rfl hc | (cases d <;> cases a <;> simp_all [XR.add, toE]))
  · have l := left (z := c) h1
    have r : NotAbove (b +ₚ c) (b +ₚ d) := by rw [add_comm' b c, add_comm' b d]; exact left h2
    rcases notAbove_iff.1 l with l | l | l
    · exact notAbove_iff.2 (.inl l)
    · exact absurd l hm
    · rcases notAbove_iff.1 r with r | r | r
      · exact absurd r hm
      · exact notAbove_iff.2 (.inr (.inl r))
      · exact notAbove_of (l.trans r)

theorem notAbove_sum (hs : fp.Sound) {l l' : List (XR fp)} (h : List.Forall₂ NotAbove l l') : NotAbove (pySum l) (pySum l') := by
  unfold pySum
  have : ∀ a b : XR fp, NotAbove a b → NotAbove (l.foldl Arith.add a) (l'.foldl Arith.add b) := by
    induction h with
    | nil => intro a b h; exact h
    | cons h _ ih => intro a b hab; exact ih _ _ (notAbove_add hs hab h)
  exact this _ _ (notAbove_refl _)

theorem notAbove_neg {x y : XR fp} (h : NotAbove x y) : NotAbove (Arith.neg y) (Arith.neg x) := by
  rcases notAbove_iff.1 h with rfl | rfl | h
  · exact notAbove_iff.2 (.inr (.inl rfl))
  · exact notAbove_iff.2 (.inl rfl)
  · by_cases hx : x = nan
    · subst hx; exact notAbove_iff.2 (.inr (.inl rfl))
    by_cases hy : y = nan
    · subst hy; exact notAbove_iff.2 (.inl rfl)
    refine notAbove_of ?_
    rw [toE_neg hx, toE_neg hy]
    exact EReal.neg_le_neg_iff.2 h

theorem notAbove_sub (hs : fp.Sound) {x y : XR fp} (c : XR fp) (h : NotAbove x y) : NotAbove (c -ₚ y) (c -ₚ x) :=
  notAbove_add hs (notAbove_refl c) (notAbove_neg h)

/-- A step that keeps order keeps it between two runs. -/
theorem Keeps.both {g : XR fp → Py (XR fp)} (hg : Keeps g) {x y : XR fp} (h : NotAbove x y) : Both NotAbove (g x) (g y) := by
  intro u v hu hv
  by_cases hx : x = XR.nan
  · subst hx; exact notAbove_iff.2 (.inl (hg.nan u hu))
  by_cases hy : y = XR.nan
  · subst hy; exact notAbove_iff.2 (.inr (.inl (hg.nan v hv)))
  have h : toE x ≤ toE y := by simpa [hx, hy] using notAbove_iff.1 h
  by_cases hnu : u = XR.nan
  · exact notAbove_iff.2 (.inl hnu)
  by_cases hnv : v = XR.nan
  · exact notAbove_iff.2 (.inr (.inl hnv))
  exact notAbove_of (hg.mono x y u v hx hy hu hv hnu hnv h)

theorem mul_comm' (x y : XR fp) : x *ₚ y = y *ₚ x := by
  show XR.mul x y = XR.mul y x
  cases x <;> cases y <;> simp [XR.mul, mul_comm]

theorem notAbove_mul (hs : fp.Sound) {x y : XR fp} {r : ℝ} (hr : 0 ≤ r) (h : NotAbove x y) : NotAbove (x *ₚ .fin r) (y *ₚ .fin r) := by
  show NotAbove (XR.mul x (.fin r)) (XR.mul y (.fin r))
  rcases notAbove_iff.1 h with rfl | rfl | h
  · exact notAbove_iff.2 (.inl rfl)
  · exact notAbove_iff.2 (.inr (.inl rfl))
  · by_cases h0 : r = 0
    · subst h0
      refine notAbove_iff.2 ?_
      cases x <;> cases y <;> simp [XR.mul, infMul]
    · have hpos : 0 < r := lt_of_le_of_ne hr (Ne.symm h0)
      have i1 : (infMul true r : XR fp) = pinf := by simp [infMul, h0, hpos]
      have i2 : (infMul false r : XR fp) = ninf := by simp [infMul, h0, hpos]
      refine notAbove_iff.2 ?_
      cases x <;> cases y <;> simp only [XR.mul, i1, i2] <;>
        first
        | exact .inl rfl
        | exact .inr (.inl rfl)
        | exact .inr (.inr le_top)
        | exact .inr (.inr bot_le)
        | exact .inr (.inr le_rfl)
        | (exfalso; simp [toE] at h; done)
        | (refine .inr (.inr ?_)
           rw [toE_round, toE_round]
           refine hs.mono (mul_le_mul_of_nonneg_right ?_ hr)
           exact EReal.coe_le_coe_iff.1 h)

theorem notAbove_mul_neg (hs : fp.Sound) {x y : XR fp} {r : ℝ} (hr : r ≤ 0) (h : NotAbove x y) : NotAbove (y *ₚ .fin r) (x *ₚ .fin r) := by
  have key : ∀ z : XR fp, z *ₚ .fin r = Arith.neg (z *ₚ .fin (-r)) := by
    intro z
    show XR.mul z (.fin r) = XR.neg (XR.mul z (.fin (-r)))
    cases z with
    | fin a =>
      simp only [XR.mul]
      have e := hs.neg (a * r)
      have : a * -r = -(a * r) := by ring
      rw [this]
      unfold round
      rw [e]
      generalize fp.rnd (a * r) = q
      induction q with
      | bot => simp [ofEReal, XR.neg]
      | top => simp [ofEReal, XR.neg]
      | coe q =>
        have : -((q : ℝ) : EReal) = ((-q : ℝ) : EReal) := by push_cast; rfl
        rw [this]
        simp [ofEReal, XR.neg]
    | pinf =>
      simp only [XR.mul, infMul]
      rcases lt_trichotomy r 0 with h | h | h
      · simp [h.ne, h, h.not_gt, XR.neg]
      · simp [h, XR.neg]
      · linarith
    | ninf =>
      simp only [XR.mul, infMul]
      rcases lt_trichotomy r 0 with h | h | h
      · simp [h.ne, h, h.not_gt, XR.neg]
      · simp [h, XR.neg]
      · linarith
    | nan => rfl
  rw [key x, key y]
  exact notAbove_neg (notAbove_mul hs (by linarith) h)

/-! ### Steps that keep strict order of numbers -/

theorem ordered_sub (hs : fp.Sound) {x y : XR fp} (m : ℝ) (h : (x ≤ₚ y) = true) : (x -ₚ .fin m ≤ₚ y -ₚ .fin m) = true := by
  obtain ⟨h1, h2, h3⟩ := ordered_iff.1 h
  obtain ⟨a, b, c⟩ := sub_mono hs (m := m) h1 h2 h3
  exact ordered_iff.2 ⟨b, c, a⟩

theorem ordered_add (hs : fp.Sound) {x y : XR fp} (m : ℝ) (h : (x ≤ₚ y) = true) : (x +ₚ .fin m ≤ₚ y +ₚ .fin m) = true := by
  have e : ∀ z : XR fp, z +ₚ .fin m = z -ₚ .fin (-m) := by
    intro z
    show XR.add z (.fin m) = XR.add z (.fin (- -m))
    rw [neg_neg]
  rw [e, e]
  exact ordered_sub hs _ h

theorem mul_ne_nan {x : XR fp} {r : ℝ} (hr : 0 < r) (hx : x ≠ nan) : x *ₚ .fin r ≠ nan := by
  show XR.mul x (.fin r) ≠ nan
  cases x with
  | fin a => exact round_ne_nan _
  | pinf => simp [XR.mul, infMul, hr.ne', hr]
  | ninf => simp [XR.mul, infMul, hr.ne', hr]
  | nan => exact absurd rfl hx

theorem ordered_mul (hs : fp.Sound) {x y : XR fp} {r : ℝ} (hr : 0 < r) (h : (x ≤ₚ y) = true) : (x *ₚ .fin r ≤ₚ y *ₚ .fin r) = true := by
  obtain ⟨h1, h2, h3⟩ := ordered_iff.1 h
  have n1 := mul_ne_nan hr h1
  have n2 := mul_ne_nan hr h2
  have := notAbove_iff.1 (notAbove_mul hs hr.le (notAbove_of h3))
  simp only [n1, n2, false_or] at this
  exact ordered_iff.2 ⟨n1, n2, this⟩

theorem ordered_div (hs : fp.Sound) {x y u v : XR fp} {r : ℝ} (hr : 0 < r) (h : (x ≤ₚ y) = true) (hu : x /ₚ .fin r = .ok u)
    (hv : y /ₚ .fin r = .ok v) : (u ≤ₚ v) = true := by
  obtain ⟨h1, h2, h3⟩ := ordered_iff.1 h
  rw [div_quot _ hr.ne'] at hu hv
  cases hu; cases hv
  have ne : ∀ z : XR fp, z ≠ nan → quot z r ≠ nan := by
    intro z hz
    cases z with
    | fin a => exact round_ne_nan _
    | pinf => simp [quot, infMul, hr.ne', hr]
    | ninf => simp [quot, infMul, hr.ne', hr]
    | nan => exact absurd rfl hz
  exact ordered_iff.2 ⟨ne x h1, ne y h2, quot_mono hs hr h1 h2 h3⟩

end XR

/-! ### Labels of two classes -/

section
variable {fp : FP}
open XR

theorem argmax_two (a b : XR fp) : argmax [a, b] = .ok (if (a <ₚ b) = true then 1 else 0) := by
  unfold argmax
  simp only [pyMaxPos, maxScan, py_ok_bind]
  by_cases h : (a <ₚ b) = true
  · have he : (a ==ₚ b) = false := by
      obtain ⟨h1, h2, h3⟩ := below_iff.1 h
      show XR.eq a b = false
      cases a <;> cases b <;> simp_all [XR.eq, toE]
      exact (by assumption : _ < _).ne
    simp [h, he, List.findIdx?_cons, py_pure]
  · simp [h, py_pure]

theorem shifted_label {a b c d : XR fp} (h : Shifted [a, b] [c, d]) (hn : nan ∉ [c, d]) (hab : (a <ₚ b) = true) : (c <ₚ d) = true := by
  cases h with
  | mk h1 h2 =>
    simp only [List.mem_cons, List.not_mem_nil, or_false, not_or] at hn
    obtain ⟨na, nb, hlt⟩ := below_iff.1 hab
    have e1 : toE c ≤ toE a := by simpa [Ne.symm hn.1, na] using notAbove_iff.1 h1
    have e2 : toE b ≤ toE d := by simpa [Ne.symm hn.2, nb] using notAbove_iff.1 h2
    exact below_iff.2 ⟨Ne.symm hn.1, Ne.symm hn.2, e1.trans_lt (hlt.trans_le e2)⟩

/-- Labels read off rows of two probabilities. -/
theorem labels_shift {C : Type} {c0 c1 : C} (hc : c0 ≠ c1) {P Q : List (List (XR fp))} (h : List.Forall₂ Shifted P Q) {ls ms : List C}
    (h1 : (P.mapM fun a => do pyGet [c0, c1] (← argmax a)) = .ok ls) (h2 : (Q.mapM fun a => do pyGet [c0, c1] (← argmax a)) = .ok ms)
    (i : Nat) (r : List (XR fp)) (hr : Q[i]? = some r) (hn : nan ∉ r) (hl : ls[i]? = some c1) : ms[i]? = some c1 := by
  induction h generalizing i ls ms with
  | nil => simp at hr
  | @cons p q P Q hpq _ ih =>
    rw [mapM_cons'] at h1 h2
    obtain ⟨x, hx, h1⟩ := bind_ok_iff.1 h1
    obtain ⟨xs, hxs, h1⟩ := bind_ok_iff.1 h1
    obtain ⟨y, hy, h2⟩ := bind_ok_iff.1 h2
    obtain ⟨ys, hys, h2⟩ := bind_ok_iff.1 h2
    cases h1; cases h2
    cases i with
    | succ i => exact ih hxs hys i (by simpa using hr) (by simpa using hl)
    | zero =>
      simp only [List.getElem?_cons_zero, Option.some.injEq] at hr hl ⊢
      subst hr hl
      cases hpq with
      | @mk a b c d u v =>
        rw [argmax_two, py_ok_bind] at hx hy
        by_cases hab : (a <ₚ b) = true
        · rw [if_pos (shifted_label (.mk u v) hn hab)] at hy
          exact (Except.ok.inj hy).symm
        · rw [if_neg hab] at hx
          exact absurd (Except.ok.inj hx) hc

end
end PurePredict
