import Verif.Spec.PyNumbers
import Verif.Lemmas.AlikeBase
import Verif.Py.ExpMono
/-
The operators on Python numbers, and on the floats they stand for.
-/
namespace PurePredict
open Spec
open scoped Classical
variable {fp : FP}

namespace PyNum

@[simp] theorem val_signed (s : Bool) (x : XR fp) : (signed s x).val = x := by
  unfold signed
  split
  · rename_i h; exact h.2.symm
  · rfl

@[simp] theorem isInt_signed (s : Bool) (x : XR fp) : (signed s x).isInt = false := by
  unfold signed
  split <;> rfl

theorem toFloat?_flt {a : PyNum fp} (h : a.isInt = false) : a.toFloat? = some a.val := by
  cases a with
  | int n => simp [isInt] at h
  | flt x => rfl
  | negZero => rfl

theorem toFloat_flt {a : PyNum fp} (h : a.isInt = false) : a.toFloat = a.val := by
  unfold toFloat
  rw [toFloat?_flt h]
  rfl

theorem add_flt {a b : PyNum fp} (h : a.isInt = false ∨ b.isInt = false) :
    (add a b).isInt = false ∧ (add a b).val = XR.add a.toFloat b.toFloat := by
  cases a <;> cases b <;> first | (exfalso; simp [isInt] at h; done) | exact ⟨isInt_signed _ _, val_signed _ _⟩

theorem sub_flt {a b : PyNum fp} (h : a.isInt = false ∨ b.isInt = false) :
    (sub a b).isInt = false ∧ (sub a b).val = XR.sub a.toFloat b.toFloat := by
  cases a <;> cases b <;> first | (exfalso; simp [isInt] at h; done) | exact ⟨isInt_signed _ _, val_signed _ _⟩

theorem mul_flt {a b : PyNum fp} (h : a.isInt = false ∨ b.isInt = false) :
    (mul a b).isInt = false ∧ (mul a b).val = XR.mul a.toFloat b.toFloat := by
  cases a <;> cases b <;> first | (exfalso; simp [isInt] at h; done) | exact ⟨isInt_signed _ _, val_signed _ _⟩

theorem div_flt {a b : PyNum fp} (h : a.isInt = false ∨ b.isInt = false) :
    div a b = (do return signed (isNeg a != isNeg b) (← XR.div (← asFloat a) (← asFloat b))) := by
  cases a <;> cases b <;> first | (exfalso; simp [isInt] at h; done) | rfl

theorem neg_val (a : PyNum fp) : (neg a).val = a.val.neg := by
  cases a with
  | int n => simp [neg, val, XR.neg]
  | flt x =>
    show (if x = .fin 0 then negZero else flt x.neg).val = x.neg
    split
    · rename_i h; simp [val, XR.neg, h]
    · rfl
  | negZero => simp [neg, val, XR.neg]

theorem neg_isInt (a : PyNum fp) : (neg a).isInt = a.isInt := by
  cases a with
  | int n => rfl
  | flt x =>
    show (if x = .fin 0 then negZero else flt x.neg).isInt = false
    split <;> rfl
  | negZero => rfl

theorem abs_val (a : PyNum fp) : (abs a).val = a.val.abs := by
  cases a with
  | int n => simp [abs, val, XR.abs]
  | flt x => rfl
  | negZero => simp [abs, val, XR.abs]

theorem abs_isInt (a : PyNum fp) : (abs a).isInt = a.isInt := by cases a <;> rfl

theorem sq_flt {a : PyNum fp} (h : a.isInt = false) : sq a = (do return flt (← XR.sq a.val)) := by
  cases a <;> simp_all [isInt, sq]

theorem int_of_val {n m : Int} (h : (int n : PyNum fp).val = (int m : PyNum fp).val) : n = m := by
  simp only [val] at h
  injection h with h
  exact_mod_cast h

theorem of_same {a b : PyNum fp} (h1 : a.isInt = b.isInt) (h2 : a.val = b.val) : (∃ n, a = int n ∧ b = int n) ∨ (a.isInt = false ∧ b.isInt = false) := by
  cases a with
  | int n =>
    cases b with
    | int m => exact .inl ⟨n, rfl, by rw [int_of_val h2]⟩
    | _ => simp [isInt] at h1
  | flt x =>
    cases b with
    | int m => simp [isInt] at h1
    | _ => exact .inr ⟨rfl, rfl⟩
  | negZero =>
    cases b with
    | int m => simp [isInt] at h1
    | _ => exact .inr ⟨rfl, rfl⟩

/-- the float an int becomes, if it fits -/
theorem toFloat?_int (n : Int) (y : XR fp) : (int n : PyNum fp).toFloat? = some y ↔ (XR.round n : XR fp) = y ∧ ∃ r, y = .fin r := by
  simp only [toFloat?]
  generalize (XR.round n : XR fp) = x
  cases x with
  | fin r =>
    constructor
    · intro h
      injection h with h
      exact ⟨h, r, h.symm⟩
    · rintro ⟨rfl, -⟩
      rfl
  | _ =>
    constructor
    · intro h; simp at h
    · rintro ⟨rfl, r, h⟩; simp at h

theorem round_neg (hs : fp.Sound) (r : ℝ) : (XR.round (-r) : XR fp) = (XR.round r).neg := by
  unfold XR.round
  rw [hs.neg]
  generalize fp.rnd r = x
  unfold XR.ofEReal
  induction x with
  | bot => simp [XR.neg]
  | top => simp [XR.neg]
  | coe x =>
    have h1 : ((x : EReal)) ≠ ⊤ := EReal.coe_ne_top x
    have h2 : ((x : EReal)) ≠ ⊥ := EReal.coe_ne_bot x
    have h3 : (-(x : EReal)) ≠ ⊤ := by rw [← EReal.coe_neg]; exact EReal.coe_ne_top _
    have h4 : (-(x : EReal)) ≠ ⊥ := by rw [← EReal.coe_neg]; exact EReal.coe_ne_bot _
    rw [if_neg h1, if_neg h2, if_neg h3, if_neg h4]
    simp [XR.neg]

/-- `-a` as a float -/
theorem toFloat?_neg (hs : fp.Sound) (a : PyNum fp) : (neg a).toFloat? = a.toFloat?.map XR.neg := by
  cases h : a.isInt with
  | false => rw [toFloat?_flt (by rw [neg_isInt, h]), toFloat?_flt h, neg_val]; rfl
  | true =>
    cases a with
    | int n =>
      simp only [neg, toFloat?]
      push_cast
      rw [round_neg hs]
      cases (XR.round (n : ℝ) : XR fp) <;> rfl
    | _ => simp [isInt] at h

end PyNum

open PyNum

theorem cast_zero (d : DType) : castTo d (ofInt 0 : PyNum fp) = .ok (ofInt 0) := by
  cases d with
  | int => rfl
  | float => rfl
  | bool =>
    have : (XR.eq (fp := fp) (.fin ((0 : Int) : ℝ)) (.fin ((0 : Int) : ℝ))) = true := by simp [XR.eq]
    show (Except.ok (ofBool !(XR.eq (fp := fp) (.fin ((0 : Int) : ℝ)) (.fin ((0 : Int) : ℝ)))) : Py (PyNum fp)) = _
    rw [this]
    rfl

theorem equalNumbers_sound (hs : fp.Sound) : (equalNumbers fp).Sound where
  num_of_flt h := ⟨h.2.2, by rw [toFloat?_flt h.1, toFloat?_flt h.2.1, h.2.2]⟩
  value_of_num h := h.2
  zero := ⟨rfl, rfl⟩
  one := ⟨rfl, rfl⟩
  two := rfl
  rat n d := ⟨isInt_signed _ _, isInt_signed _ _, rfl⟩
  pi := ⟨rfl, rfl, rfl⟩
  nan := ⟨rfl, rfl, rfl⟩
  pinf := ⟨rfl, rfl, rfl⟩
  ninf := ⟨rfl, rfl, rfl⟩
  add_left {a b c d} h h' := by
    obtain ⟨u1, u2⟩ := add_flt (b := c) (.inl h.1)
    obtain ⟨v1, v2⟩ := add_flt (b := d) (.inl h.2.1)
    refine ⟨u1, v1, ?_⟩
    show (add a c).val = (add b d).val
    rw [u2, v2, toFloat_flt h.1, toFloat_flt h.2.1, h.2.2, toFloat, toFloat, show c.toFloat? = d.toFloat? from h']
  add_right {a b c d} h h' := by
    obtain ⟨u1, u2⟩ := add_flt (a := a) (.inr h'.1)
    obtain ⟨v1, v2⟩ := add_flt (a := b) (.inr h'.2.1)
    refine ⟨u1, v1, ?_⟩
    show (add a c).val = (add b d).val
    rw [u2, v2, toFloat_flt h'.1, toFloat_flt h'.2.1, h'.2.2, toFloat, toFloat, show a.toFloat? = b.toFloat? from h]
  sub_left {a b c d} h h' := by
    obtain ⟨u1, u2⟩ := sub_flt (b := c) (.inl h.1)
    obtain ⟨v1, v2⟩ := sub_flt (b := d) (.inl h.2.1)
    refine ⟨u1, v1, ?_⟩
    show (sub a c).val = (sub b d).val
    rw [u2, v2, toFloat_flt h.1, toFloat_flt h.2.1, h.2.2, toFloat, toFloat, show c.toFloat? = d.toFloat? from h']
  sub_right {a b c d} h h' := by
    obtain ⟨u1, u2⟩ := sub_flt (a := a) (.inr h'.1)
    obtain ⟨v1, v2⟩ := sub_flt (a := b) (.inr h'.2.1)
    refine ⟨u1, v1, ?_⟩
    show (sub a c).val = (sub b d).val
    rw [u2, v2, toFloat_flt h'.1, toFloat_flt h'.2.1, h'.2.2, toFloat, toFloat, show a.toFloat? = b.toFloat? from h]
  mul_left {a b c d} h h' := by
    obtain ⟨u1, u2⟩ := mul_flt (b := c) (.inl h.1)
    obtain ⟨v1, v2⟩ := mul_flt (b := d) (.inl h.2.1)
    refine ⟨u1, v1, ?_⟩
    show (mul a c).val = (mul b d).val
    rw [u2, v2, toFloat_flt h.1, toFloat_flt h.2.1, h.2.2, toFloat, toFloat, show c.toFloat? = d.toFloat? from h']
  mul_right {a b c d} h h' := by
    obtain ⟨u1, u2⟩ := mul_flt (a := a) (.inr h'.1)
    obtain ⟨v1, v2⟩ := mul_flt (a := b) (.inr h'.2.1)
    refine ⟨u1, v1, ?_⟩
    show (mul a c).val = (mul b d).val
    rw [u2, v2, toFloat_flt h'.1, toFloat_flt h'.2.1, h'.2.2, toFloat, toFloat, show a.toFloat? = b.toFloat? from h]
  div_left {a b c d} h h' := by
    show Par _ (div a c) (div b d)
    rw [div_flt (.inl h.1), div_flt (.inl h.2.1)]
    unfold asFloat
    rw [toFloat?_flt h.1, toFloat?_flt h.2.1, h.2.2, show c.toFloat? = d.toFloat? from h']
    simp only [py_ok_bind]
    refine (par_self _).bind fun x _ e => ?_
    cases e
    refine (par_self _).bind fun x _ e => ?_
    cases e
    exact .done ⟨isInt_signed _ _, isInt_signed _ _, by simp⟩
  div_right {a b c d} h h' := by
    show Par _ (div a c) (div b d)
    rw [div_flt (.inr h'.1), div_flt (.inr h'.2.1)]
    unfold asFloat
    rw [toFloat?_flt h'.1, toFloat?_flt h'.2.1, h'.2.2, show a.toFloat? = b.toFloat? from h]
    refine (par_self _).bind fun x _ e => ?_
    cases e
    refine (par_self _).bind fun x _ e => ?_
    cases e
    refine (par_self _).bind fun x _ e => ?_
    cases e
    exact .done ⟨isInt_signed _ _, isInt_signed _ _, by simp⟩
  neg_num {a b} h := by
    refine ⟨?_, ?_⟩
    · show (neg a).val = (neg b).val
      rw [neg_val, neg_val, h.1]
    · show (neg a).toFloat? = (neg b).toFloat?
      rw [toFloat?_neg hs, toFloat?_neg hs, h.2]
  neg {a b} h := by
    refine ⟨?_, ?_, ?_⟩
    · show (neg a).isInt = false
      rw [neg_isInt, h.1]
    · show (neg b).isInt = false
      rw [neg_isInt, h.2.1]
    · show (neg a).val = (neg b).val
      rw [neg_val, neg_val, h.2.2]
  sq {a b} h := by
    show Par _ (sq a) (sq b)
    rw [sq_flt h.1, sq_flt h.2.1, h.2.2]
    exact (par_self _).bind fun x _ e => by cases e; exact .done ⟨rfl, rfl, rfl⟩
  exp {a b} h := by
    show Par _ (PyNum.exp a) (PyNum.exp b)
    unfold PyNum.exp asFloat
    rw [h.2]
    refine (par_self _).bind fun x _ e => ?_
    cases e
    exact (par_self _).bind fun x _ e => by cases e; exact .done ⟨rfl, rfl, rfl⟩
  log {a b} h := by
    show Par _ (PyNum.log a) (PyNum.log b)
    unfold PyNum.log
    rw [h.1, h.2]
    exact (par_self _).bind fun x _ e => by cases e; exact .done ⟨rfl, rfl, rfl⟩
  sqrt {a b} h := by
    show Par _ (PyNum.sqrt a) (PyNum.sqrt b)
    unfold PyNum.sqrt asFloat
    rw [h.2]
    refine (par_self _).bind fun x _ e => ?_
    cases e
    exact (par_self _).bind fun x _ e => by cases e; exact .done ⟨isInt_signed _ _, isInt_signed _ _, by simp⟩
  lt {a b c d} h h' := by
    show XR.lt a.val c.val = XR.lt b.val d.val
    rw [h.1, h'.1]
  le {a b c d} h h' := by
    show XR.le a.val c.val = XR.le b.val d.val
    rw [h.1, h'.1]
  eq {a b c d} h h' := by
    show XR.eq a.val c.val = XR.eq b.val d.val
    rw [h.1, h'.1]
  isnan {a b} h := by
    show XR.isnan a.val = XR.isnan b.val
    rw [h.1]
  cast d e := by
    rw [cast_zero, cast_zero]
    exact .done ⟨rfl, rfl⟩

/-! ### Signs of zeros -/

theorem equal_of_signs {a b : PyNum fp} (h : (zeroSigns fp).num a b) : (equalNumbers fp).num a b := by
  rcases of_same h.1 h.2 with ⟨n, rfl, rfl⟩ | ⟨h1, h2⟩
  · exact ⟨rfl, rfl⟩
  · exact ⟨h.2, by rw [toFloat?_flt h1, toFloat?_flt h2, h.2]⟩

theorem zeroSigns_sound (hs : fp.Sound) : (zeroSigns fp).Sound where
  num_of_flt h := ⟨by rw [h.1, h.2.1], h.2.2⟩
  value_of_num h := h
  zero := ⟨rfl, rfl⟩
  one := ⟨rfl, rfl⟩
  two := ⟨rfl, rfl⟩
  rat := (equalNumbers_sound hs).rat
  pi := (equalNumbers_sound hs).pi
  nan := (equalNumbers_sound hs).nan
  pinf := (equalNumbers_sound hs).pinf
  ninf := (equalNumbers_sound hs).ninf
  add_left h h' := (equalNumbers_sound hs).add_left h (equal_of_signs h').2
  add_right h h' := (equalNumbers_sound hs).add_right (equal_of_signs h).2 h'
  sub_left h h' := (equalNumbers_sound hs).sub_left h (equal_of_signs h').2
  sub_right h h' := (equalNumbers_sound hs).sub_right (equal_of_signs h).2 h'
  mul_left h h' := (equalNumbers_sound hs).mul_left h (equal_of_signs h').2
  mul_right h h' := (equalNumbers_sound hs).mul_right (equal_of_signs h).2 h'
  div_left h h' := (equalNumbers_sound hs).div_left h (equal_of_signs h').2
  div_right h h' := (equalNumbers_sound hs).div_right (equal_of_signs h).2 h'
  neg_num {a b} h := by
    refine ⟨?_, ((equalNumbers_sound hs).neg_num (equal_of_signs h)).1⟩
    show (neg a).isInt = (neg b).isInt
    rw [neg_isInt, neg_isInt, h.1]
  neg := (equalNumbers_sound hs).neg
  sq := (equalNumbers_sound hs).sq
  exp h := (equalNumbers_sound hs).exp (equal_of_signs h)
  log h := (equalNumbers_sound hs).log (equal_of_signs h)
  sqrt h := (equalNumbers_sound hs).sqrt (equal_of_signs h)
  lt h h' := (equalNumbers_sound hs).lt (equal_of_signs h) (equal_of_signs h')
  le h h' := (equalNumbers_sound hs).le (equal_of_signs h) (equal_of_signs h')
  eq h h' := (equalNumbers_sound hs).eq (equal_of_signs h) (equal_of_signs h')
  isnan h := (equalNumbers_sound hs).isnan (equal_of_signs h)
  cast d e := by
    rw [cast_zero, cast_zero]
    exact .done ⟨rfl, rfl⟩

theorem zeroSigns_closed (hs : fp.Sound) : (zeroSigns fp).Closed where
  add {a b c d} h h' := by
    rcases of_same h.1 h.2 with ⟨n, rfl, rfl⟩ | ⟨h1, h2⟩
    · rcases of_same h'.1 h'.2 with ⟨m, rfl, rfl⟩ | ⟨h3, h4⟩
      · exact ⟨rfl, rfl⟩
      · exact (zeroSigns_sound hs).num_of_flt ((zeroSigns_sound hs).add_right h ⟨h3, h4, h'.2⟩)
    · exact (zeroSigns_sound hs).num_of_flt ((zeroSigns_sound hs).add_left ⟨h1, h2, h.2⟩ h')
  mul {a b c d} h h' := by
    rcases of_same h.1 h.2 with ⟨n, rfl, rfl⟩ | ⟨h1, h2⟩
    · rcases of_same h'.1 h'.2 with ⟨m, rfl, rfl⟩ | ⟨h3, h4⟩
      · exact ⟨rfl, rfl⟩
      · exact (zeroSigns_sound hs).num_of_flt ((zeroSigns_sound hs).mul_right h ⟨h3, h4, h'.2⟩)
    · exact (zeroSigns_sound hs).num_of_flt ((zeroSigns_sound hs).mul_left ⟨h1, h2, h.2⟩ h')
  abs {a b} h := by
    refine ⟨?_, ?_⟩
    · show (PyNum.abs a).isInt = (PyNum.abs b).isInt
      rw [abs_isInt, abs_isInt, h.1]
    · show (PyNum.abs a).val = (PyNum.abs b).val
      rw [abs_val, abs_val, h.2]
  div {a b c d} h h' := by
    rcases of_same h.1 h.2 with ⟨n, rfl, rfl⟩ | ⟨h1, h2⟩
    · rcases of_same h'.1 h'.2 with ⟨m, rfl, rfl⟩ | ⟨h3, h4⟩
      · exact .refl (fun _ => ⟨rfl, rfl⟩) _
      · exact ((zeroSigns_sound hs).div_right h ⟨h3, h4, h'.2⟩).mono fun _ _ h => (zeroSigns_sound hs).num_of_flt h
    · exact ((zeroSigns_sound hs).div_left ⟨h1, h2, h.2⟩ h').mono fun _ _ h => (zeroSigns_sound hs).num_of_flt h

/-! ### Floats of the model without ints and signed zeros -/

theorem reals_flt {a : PyNum fp} {y : XR fp} (h : (asReals fp).flt a y) : (equalNumbers fp).flt a (.flt y) := ⟨h.1, rfl, h.2⟩
theorem reals_num {a : PyNum fp} {y : XR fp} (h : (asReals fp).num a y) : (equalNumbers fp).num a (.flt y) := ⟨h.1, h.2⟩
theorem reals_value {a : PyNum fp} {y : XR fp} (h : (asReals fp).value a y) : (equalNumbers fp).value a (.flt y) := h

theorem reals_par {p : Py (PyNum fp)} {q : Py (PyNum fp)} {r : Py (XR fp)} (h : Par (equalNumbers fp).flt p q) (hq : Par (fun (a : PyNum fp) y => a.val = y) q r) :
    Par (asReals fp).flt p r := by
  cases h with
  | fail => cases hq; exact .fail
  | done h => cases hq with
    | done h' => exact .done ⟨h.1, h.2.2.trans h'⟩

theorem par_val {s : Bool} (q : Py (XR fp)) : Par (fun (a : PyNum fp) y => a.val = y) (q >>= fun x => pure (signed s x)) q := by
  cases q with
  | ok x => exact .done (val_signed s x)
  | error e => exact .fail

theorem par_val' (q : Py (XR fp)) : Par (fun (a : PyNum fp) y => a.val = y) (q >>= fun x => pure (.flt x)) q := by
  cases q with
  | ok x => exact .done rfl
  | error e => exact .fail

theorem asReals_sound (hs : fp.Sound) (h2 : fp.rnd 2 = ((2 : ℝ) : EReal)) : (asReals fp).Sound where
  num_of_flt h := ⟨h.2, by rw [toFloat?_flt h.1, h.2]⟩
  value_of_num h := h.2
  zero := by
    have : (ofInt 0 : XR fp) = .fin 0 := XR.ofInt_zero hs
    rw [this]
    refine ⟨by simp [Arith.ofInt, val], ?_⟩
    show (PyNum.int 0 : PyNum fp).toFloat? = _
    rw [toFloat?_int]
    exact ⟨by rw [← this]; rfl, 0, rfl⟩
  one := by
    have : (ofInt 1 : XR fp) = .fin 1 := XR.ofInt_one hs
    rw [this]
    refine ⟨by simp [Arith.ofInt, val], ?_⟩
    show (PyNum.int 1 : PyNum fp).toFloat? = _
    rw [toFloat?_int]
    exact ⟨by rw [← this]; rfl, 1, rfl⟩
  two := by
    show (PyNum.int 2 : PyNum fp).toFloat? = _
    rw [toFloat?_int]
    refine ⟨rfl, 2, ?_⟩
    show (XR.round ((2 : Int) : ℝ) : XR fp) = _
    unfold XR.round
    push_cast
    rw [h2]
    simp [XR.ofEReal]
  rat n d := ⟨isInt_signed _ _, val_signed _ _⟩
  pi := ⟨rfl, rfl⟩
  nan := ⟨rfl, rfl⟩
  pinf := ⟨rfl, rfl⟩
  ninf := ⟨rfl, rfl⟩
  add_left h h' := by
    have := (equalNumbers_sound hs).add_left (reals_flt h) (reals_value h')
    exact ⟨this.1, this.2.2.trans (add_flt (.inl rfl)).2⟩
  add_right h h' := by
    have := (equalNumbers_sound hs).add_right (reals_value h) (reals_flt h')
    exact ⟨this.1, this.2.2.trans (add_flt (.inl rfl)).2⟩
  sub_left h h' := by
    have := (equalNumbers_sound hs).sub_left (reals_flt h) (reals_value h')
    exact ⟨this.1, this.2.2.trans (sub_flt (.inl rfl)).2⟩
  sub_right h h' := by
    have := (equalNumbers_sound hs).sub_right (reals_value h) (reals_flt h')
    exact ⟨this.1, this.2.2.trans (sub_flt (.inl rfl)).2⟩
  mul_left h h' := by
    have := (equalNumbers_sound hs).mul_left (reals_flt h) (reals_value h')
    exact ⟨this.1, this.2.2.trans (mul_flt (.inl rfl)).2⟩
  mul_right h h' := by
    have := (equalNumbers_sound hs).mul_right (reals_value h) (reals_flt h')
    exact ⟨this.1, this.2.2.trans (mul_flt (.inl rfl)).2⟩
  div_left h h' := reals_par ((equalNumbers_sound hs).div_left (reals_flt h) (reals_value h')) (par_val _)
  div_right h h' := reals_par ((equalNumbers_sound hs).div_right (reals_value h) (reals_flt h')) (par_val _)
  neg_num {a y} h := by
    refine ⟨?_, ?_⟩
    · show (neg a).val = y.neg
      rw [neg_val, h.1]
    · show (neg a).toFloat? = some y.neg
      rw [toFloat?_neg hs, h.2]
      rfl
  neg {a y} h := by
    refine ⟨?_, ?_⟩
    · show (neg a).isInt = false
      rw [neg_isInt, h.1]
    · show (neg a).val = y.neg
      rw [neg_val, h.2]
  sq h := reals_par ((equalNumbers_sound hs).sq (reals_flt h)) (par_val' _)
  exp h := reals_par ((equalNumbers_sound hs).exp (reals_num h)) (par_val' _)
  log h := reals_par ((equalNumbers_sound hs).log (reals_num h)) (par_val' _)
  sqrt h := reals_par ((equalNumbers_sound hs).sqrt (reals_num h)) (par_val _)
  lt {a b c d} h h' := by
    show XR.lt a.val c.val = XR.lt b d
    rw [h.1, h'.1]
  le {a b c d} h h' := by
    show XR.le a.val c.val = XR.le b d
    rw [h.1, h'.1]
  eq {a b c d} h h' := by
    show XR.eq a.val c.val = XR.eq b d
    rw [h.1, h'.1]
  isnan {a b} h := by
    show XR.isnan a.val = XR.isnan b
    rw [h.1]
  cast d e := by
    have hz : (ofInt 0 : XR fp) = .fin 0 := XR.ofInt_zero hs
    have h0 : castTo e (ofInt 0 : XR fp) = .ok (.fin 0) := by
      cases e with
      | int => rw [hz]; show XR.trunc (.fin 0 : XR fp) = .ok (.fin 0); simp [XR.trunc]
      | float => rw [hz]; rfl
      | bool =>
        rw [castTo, hz]
        have : ((XR.fin 0 : XR fp) ==ₚ .fin 0) = true := by show XR.eq _ _ = true; simp [XR.eq]
        rw [this]
        show (Except.ok (ofInt 0 : XR fp) : Py (XR fp)) = _
        rw [hz]
    rw [cast_zero, h0]
    refine .done ⟨by simp [Arith.ofInt, val], ?_⟩
    show (PyNum.int 0 : PyNum fp).toFloat? = _
    rw [toFloat?_int]
    exact ⟨by rw [← hz]; rfl, 0, rfl⟩

end PurePredict
