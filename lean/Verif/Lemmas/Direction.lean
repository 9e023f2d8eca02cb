import Verif.Spec.Direction
import Verif.Lemmas.GaugeFit
import Verif.Lemmas.Idle
import Verif.Lemmas.TransformBatch
/-
Normalising in exact arithmetic does not depend on positive factors of the records.
-/
namespace PurePredict.Dir
open Spec Gauge

/-! ### Norms -/

/-- not negative: a finite number from 0 on, infinity or NaN -/
def NonNeg : Ex → Prop
  | .fin a => 0 ≤ a
  | .ninf => False
  | _ => True

theorem nonNeg_add {a b : Ex} (ha : NonNeg a) (hb : NonNeg b) : NonNeg (a +ₚ b) := by
  show NonNeg (XR.add a b)
  cases a <;> cases b <;> simp_all [NonNeg, XR.add, round_exact, add_nonneg]

theorem add_eq_zero {a b : Ex} (ha : NonNeg a) (hb : NonNeg b) (h : a +ₚ b = .fin 0) : a = .fin 0 ∧ b = .fin 0 := by
  revert h
  show XR.add a b = _ → _
  cases a <;> cases b <;> simp_all [NonNeg, XR.add, round_exact]
  intro h
  constructor <;> linarith

theorem zero_fin : (ofInt 0 : Ex) = .fin 0 := by
  show (XR.round _ : Ex) = _
  simp [round_exact]

theorem fold_nonNeg {l : List Ex} (hl : ∀ x ∈ l, NonNeg x) {a : Ex} (ha : NonNeg a) : NonNeg (l.foldl Arith.add a) ∧
    (l.foldl Arith.add a = .fin 0 → a = .fin 0 ∧ ∀ x ∈ l, x = .fin 0) := by
  induction l generalizing a with
  | nil => exact ⟨ha, fun h => ⟨h, by simp⟩⟩
  | cons x l ih =>
    have hx := hl x (by simp)
    obtain ⟨h1, h2⟩ := ih (fun y hy => hl y (by simp [hy])) (nonNeg_add ha hx)
    refine ⟨h1, fun h => ?_⟩
    obtain ⟨h3, h4⟩ := h2 h
    obtain ⟨h5, h6⟩ := add_eq_zero ha hx h3
    refine ⟨h5, fun y hy => ?_⟩
    rcases List.mem_cons.1 hy with rfl | hy
    · exact h6
    · exact h4 y hy

theorem sum_nonNeg {l : List Ex} (hl : ∀ x ∈ l, NonNeg x) : NonNeg (pySum l) ∧ (pySum l = .fin 0 → ∀ x ∈ l, x = .fin 0) := by
  have h := fold_nonNeg hl (a := ofInt 0) (by rw [zero_fin]; exact le_refl _)
  exact ⟨h.1, fun e => (h.2 e).2⟩

theorem eq_zero {s : Ex} (h : (s ==ₚ ofInt 0) = true) : s = .fin 0 := by
  revert h
  rw [zero_fin]
  show XR.eq s _ = true → _
  cases s <;> simp [XR.eq]

theorem abs_times {k : ℝ} (hk : 0 < k) (x : Ex) : Arith.abs (x *ₚ (.fin k : Ex)) = Arith.abs x *ₚ .fin k := by
  show XR.abs (XR.mul x _) = XR.mul (XR.abs x) _
  cases x <;> simp [XR.abs, XR.mul, round_exact, infMul_pos, hk, abs_mul, abs_of_pos hk]

theorem abs_nonNeg (x : Ex) : NonNeg (Arith.abs x) := by
  show NonNeg (XR.abs x)
  cases x <;> simp [XR.abs, NonNeg]

theorem abs_zero {x : Ex} (h : Arith.abs x = .fin 0) : x = .fin 0 := by
  revert h
  show XR.abs x = _ → _
  cases x <;> simp [XR.abs]

theorem square_times {k : ℝ} (hk : 0 < k) (x : Ex) : (x *ₚ (.fin k : Ex)) *ₚ (x *ₚ .fin k) = ((x *ₚ x) *ₚ .fin k) *ₚ .fin k := by
  rw [times_inner hk, mul_comm_ex _ x, times_inner hk]

theorem square_nonNeg (x : Ex) : NonNeg (x *ₚ x) := by
  show NonNeg (XR.mul x x)
  cases x <;> simp [XR.mul, NonNeg, round_exact, mul_self_nonneg]

theorem square_zero {x : Ex} (h : x *ₚ x = .fin 0) : x = .fin 0 := by
  revert h
  show XR.mul x x = _ → _
  cases x <;> simp [XR.mul, round_exact]

theorem sqrt_times {k : ℝ} (hk : 0 < k) (s : Ex) : Alongside (fun a b => b = a *ₚ (.fin k : Ex)) (Arith.sqrt s) (Arith.sqrt ((s *ₚ .fin k) *ₚ .fin k)) := by
  show Alongside _ (XR.sqrt s) (XR.sqrt (XR.mul (XR.mul s _) _))
  cases s with
  | fin a =>
    have e : XR.mul (XR.mul (XR.fin a : Ex) (.fin k)) (.fin k) = .fin (a * k * k) := by simp [XR.mul, round_exact]
    rw [e]
    simp only [XR.sqrt]
    by_cases h : a < 0
    · rw [if_pos h, if_pos (mul_neg_of_neg_of_pos (mul_neg_of_neg_of_pos h hk) hk)]
      exact .fail
    · have h0 : 0 ≤ a := not_lt.1 h
      rw [if_neg h, if_neg (not_lt.2 (mul_nonneg (mul_nonneg h0 hk.le) hk.le))]
      refine .done ?_
      show _ = XR.mul _ _
      simp only [round_exact, XR.mul, mul_assoc]
      rw [Real.sqrt_mul h0, Real.sqrt_mul_self hk.le]
  | pinf =>
    have e : XR.mul (XR.pinf : Ex) (.fin k) = .pinf := by simp [XR.mul, infMul_pos, hk]
    rw [e, e]
    exact .done e.symm
  | ninf =>
    have e : XR.mul (XR.mul (XR.ninf : Ex) (.fin k)) (.fin k) = .ninf := by simp [XR.mul, infMul_pos, hk]
    rw [e]
    exact .fail
  | nan => exact .done rfl

theorem sqrt_zero {s t : Ex} (hs : NonNeg s) (h : Arith.sqrt s = .ok t) (ht : t = .fin 0) : s = .fin 0 := by
  subst ht
  revert h
  show XR.sqrt s = _ → _
  cases s with
  | fin a =>
    have h0 : 0 ≤ a := hs
    simp only [XR.sqrt, if_neg (not_lt.2 h0), round_exact]
    intro h
    have : Real.sqrt a = 0 := by simpa using h
    rw [(Real.sqrt_eq_zero h0).1 this]
  | pinf => simp [XR.sqrt]
  | ninf => simp [XR.sqrt]
  | nan => simp [XR.sqrt]

theorem zeros_times {k : ℝ} {l : List Ex} (h : ∀ x ∈ l, x = .fin 0) : timesAll k l = l := by
  unfold timesAll
  refine (List.map_congr_left fun x hx => ?_).trans (List.map_id l)
  rw [h x hx]
  have := times_zero k
  rwa [zero_fin] at this

/-- How the norm of a record and that of the longer one are related. -/
def Norms (P : Prop) (k : ℝ) (s s' : Ex) : Prop := s' = s *ₚ .fin k ∧ ((s ==ₚ ofInt 0) = true → P)

/-- The norm of a list of numbers. -/
noncomputable def normOf (n : Norm) (l : List Ex) : Py Ex :=
  match n with
  | .l1 => .ok (pySum (l.map Arith.abs))
  | .l2 => Arith.sqrt (pySum (l.map fun x => x *ₚ x))
  | _ => .error .valueError

theorem normOf_times {k : ℝ} (hk : 0 < k) (n : Norm) (l : List Ex) :
    Alongside (Norms (∀ x ∈ l, x = .fin 0) k) (normOf n l) (normOf n (timesAll k l)) := by
  cases n with
  | l1 =>
    refine .done ⟨?_, fun h x hx => ?_⟩
    · rw [← sum_times hk]
      congr 1
      unfold timesAll
      rw [List.map_map, List.map_map]
      exact List.map_congr_left fun x _ => abs_times hk x
    · refine abs_zero ((sum_nonNeg (l := l.map Arith.abs) ?_).2 (eq_zero h) _ (List.mem_map.2 ⟨x, hx, rfl⟩))
      intro y hy
      obtain ⟨z, _, rfl⟩ := List.mem_map.1 hy
      exact abs_nonNeg z
  | l2 =>
    have hn : ∀ y ∈ l.map (fun x => x *ₚ x), NonNeg y := by
      intro y hy
      obtain ⟨z, _, rfl⟩ := List.mem_map.1 hy
      exact square_nonNeg z
    have e : pySum ((timesAll k l).map fun x => x *ₚ x) = (pySum (l.map fun x => x *ₚ x) *ₚ .fin k) *ₚ .fin k := by
      rw [← sum_times hk, ← sum_times hk]
      congr 1
      unfold timesAll
      rw [List.map_map, List.map_map, List.map_map]
      exact List.map_congr_left fun x _ => square_times hk x
    have hs := sqrt_times hk (pySum (l.map fun x => x *ₚ x))
    have h0 : ∀ t, Arith.sqrt (pySum (l.map fun x => x *ₚ x)) = .ok t → (t ==ₚ ofInt 0) = true → ∀ x ∈ l, x = .fin 0 := by
      intro t ht hz x hx
      have := sqrt_zero (sum_nonNeg hn).1 ht (eq_zero hz)
      exact square_zero ((sum_nonNeg hn).2 this _ (List.mem_map.2 ⟨x, hx, rfl⟩))
    show Alongside _ (Arith.sqrt _) (Arith.sqrt _)
    rw [e]
    generalize Arith.sqrt (pySum (l.map fun x => x *ₚ x)) = p at hs h0 ⊢
    generalize Arith.sqrt (pySum (l.map fun x => x *ₚ x) *ₚ .fin k *ₚ .fin k) = q at hs ⊢
    cases hs with
    | fail => exact .fail
    | done h => exact .done ⟨h, h0 _ rfl⟩
  | max => exact .fail
  | bad => exact .fail

/-! ### Dividing by the norms -/

/-- A record and its norm, and the longer record and its norm. -/
def Pairs {α : Type} (scale : ℝ → α → α) (p p' : α × Ex) : Prop :=
  ∃ k : ℝ, 0 < k ∧ p'.1 = scale k p.1 ∧ Norms (p'.1 = p.1) k p.2 p'.2

theorem mapM_pairs {α : Type} {scale : ℝ → α → α} {f : α → Py Ex} {A A' : List α} (h : List.Forall₂ (fun a a' => ∃ k : ℝ, 0 < k ∧ a' = scale k a) A A')
    (hf : ∀ a ∈ A, ∀ k : ℝ, 0 < k → Alongside (Norms (scale k a = a) k) (f a) (f (scale k a))) :
    Alongside (fun q q' => List.Forall₂ (Pairs scale) (A.zip q) (A'.zip q')) (A.mapM f) (A'.mapM f) := by
  induction h with
  | nil => exact .done .nil
  | @cons a a' A A' h _ ih =>
    obtain ⟨k, hk, rfl⟩ := h
    rw [mapM_cons', mapM_cons']
    refine (hf a (by simp) k hk).bind fun s s' hs => ?_
    refine (ih fun a ha => hf a (by simp [ha])).bind fun q q' hq => ?_
    exact .done (.cons ⟨k, hk, rfl, hs⟩ hq)

theorem of_okEq {α : Type} {a b : Py α} (h : OkEq a b) : Alongside Eq a b := by
  cases a with
  | error e =>
    cases b with
    | error e' => exact .fail
    | ok b => exact absurd ((h b).2 rfl) (by simp)
  | ok a =>
    rw [(h a).1 rfl]
    exact .done rfl

theorem alongside_eqs {α β : Type} {R : α → β → Prop} {a a' : Py α} {b b' : Py β} (h1 : Alongside Eq a a') (h : Alongside R a' b') (h2 : Alongside Eq b b') : Alongside R a b := by
  cases h with
  | fail => cases h1; cases h2; exact .fail
  | done h =>
    cases h1 with
    | done e =>
      cases e
      cases h2 with
      | done e =>
        cases e
        exact .done h

/-- division as the code does it: a norm 0 counts as 1 -/
noncomputable def by1 (s : Ex) : Ex := if s ==ₚ ofInt 0 then ofInt 1 else s

theorem by1_zero {s : Ex} (h : (s ==ₚ ofInt 0) = true) : by1 s = ofInt 1 := by unfold by1; rw [if_pos h]
theorem by1_other {s : Ex} (h : (s ==ₚ ofInt 0) = false) : by1 s = s := by unfold by1; rw [if_neg (by rw [h]; exact Bool.false_ne_true)]

theorem zero_both {k : ℝ} (hk : 0 < k) (s : Ex) : ((s *ₚ (.fin k : Ex)) ==ₚ ofInt 0) = (s ==ₚ ofInt 0) := by
  have := eq_times hk s (ofInt 0)
  rwa [times_zero] at this

theorem divList {p p' : List Ex × Ex} (h : Pairs timesAll p p') : (p.1.mapM fun a => a /ₚ by1 p.2) = p'.1.mapM fun a => a /ₚ by1 p'.2 := by
  obtain ⟨k, hk, h1, h2, h3⟩ := h
  cases hz : (p.2 ==ₚ ofInt 0) with
  | true => rw [h3 hz, by1_zero hz, h2, by1_zero (by rw [zero_both hk]; exact hz)]
  | false =>
    rw [by1_other hz, h1, h2, by1_other (by rw [zero_both hk]; exact hz)]
    unfold timesAll
    rw [mapM_map']
    exact mapM_congr fun a _ => (div_times hk a p.2).symm

/-- the stored values times a number -/
noncomputable def timesDict (k : ℝ) (d : Dict Int Ex) : Dict Int Ex := d.map fun p => (p.1, p.2 *ₚ .fin k)

theorem divStored {p p' : Dict Int Ex × Ex} (h : Pairs timesDict p p') :
    (p.1.mapM fun kv => (do return (kv.1, ← kv.2 /ₚ by1 p.2) : Py (Int × Ex))) = p'.1.mapM fun kv => (do return (kv.1, ← kv.2 /ₚ by1 p'.2) : Py (Int × Ex)) := by
  obtain ⟨k, hk, h1, h2, h3⟩ := h
  cases hz : (p.2 ==ₚ ofInt 0) with
  | true => rw [h3 hz, by1_zero hz, h2, by1_zero (by rw [zero_both hk]; exact hz)]
  | false =>
    rw [by1_other hz, h1, h2, by1_other (by rw [zero_both hk]; exact hz)]
    unfold timesDict
    rw [mapM_map']
    refine mapM_congr fun a _ => ?_
    simp only [Function.comp, div_times hk]

theorem forall₂_eq {α : Type} {l l' : List α} (h : List.Forall₂ Eq l l') : l = l' := by
  induction h with
  | nil => rfl
  | cons h _ ih => rw [h, ih]

theorem dense_norms {n : Norm} (hn : n ≠ .max) {w : Nat} {A : List (List Ex)} (hA : A ≠ []) (hw : ∀ r ∈ A, r.length = w) :
    Alongside Eq (denseNorms n (.ofMat A)) (A.mapM (normOf n)) := by
  cases n with
  | l1 =>
    simp only [denseNorms, apply2d_ofMat]
    rw [mapM_ok_map (g := fun a : List Ex => a.map Arith.abs) fun a _ => mapM_ok_map fun _ _ => rfl, py_ok_bind, applyAxis2d_ofMat, mapM_map']
    exact .same _
  | l2 =>
    have hm : matmultSameDim (.ofMat A) (.ofMat A) = .ok (.ofMat (A.map fun r => List.zipWith Arith.mul r r)) := by
      have hsh := shape_ofMat hA (w := w) hw
      have e : matmultSameDim (.ofMat A) (.ofMat A) = (do
          let rs ← (List.zip (A.map Row.list) (A.map Row.list)).mapM fun p => mulRows w p.1 p.2
          return .ofMat rs) := by
        simp only [matmultSameDim, hsh, py_ok_bind, bne_self_eq_false, Bool.false_eq_true, if_false]
        rfl
      rw [e]
      have hz : List.zip (A.map Row.list) (A.map Row.list) = A.map fun r => (Row.list r, Row.list r) := by
        clear hA hw hsh e
        induction A with
        | nil => rfl
        | cons r A ih => simpa using ih
      rw [hz, mapM_map', mapM_ok_map (g := fun r => List.zipWith Arith.mul r r)]
      · rfl
      · intro r hr
        rw [← hw r hr]
        exact mulRows_self r
    simp only [denseNorms, rowNorms, hm, py_ok_bind]
    show Alongside _ ((applyAxis2d (.ofMat _) _) >>= _) _
    rw [applyAxis2d_ofMat, mapM_map', mapM_ok_map (g := fun r => pySum (List.zipWith Arith.mul r r)) fun _ _ => rfl, py_ok_bind, mapM_map']
    have : A.mapM (normOf .l2) = A.mapM fun x => Arith.sqrt (pySum (List.zipWith Arith.mul x x)) := by
      refine mapM_congr fun r _ => ?_
      show Arith.sqrt _ = Arith.sqrt _
      rw [zipWith_self]
    rw [this]
    exact .same _
  | max => exact absurd rfl hn
  | bad =>
    cases A with
    | nil => exact absurd rfl hA
    | cons r A => exact .fail

theorem sparse_norms {n : Norm} (hn : n ≠ .max) {size : Option Nat} {dt : DType} {A : List (Dict Int Ex)} (hA : A ≠ []) (hd : ∀ d ∈ A, (d.map Prod.fst).Nodup) :
    Alongside Eq (sparseNorms n (.sparse A size dt) A) (A.mapM fun d => normOf n d.values) := by
  have e : (A.mapM fun d => normOf n d.values) = A.mapM (sparseNorm n) := by
    refine mapM_congr fun d hm => ?_
    cases n with
    | l1 => rfl
    | l2 =>
      show Arith.sqrt _ = Arith.sqrt _
      rw [mulDicts_self (hd d hm)]
      simp only [Dict.values, List.map_map]
      rfl
    | max => exact absurd rfl hn
    | bad => rfl
  rw [e]
  exact of_okEq (sparseNorms_rowwise n size dt hA)

theorem values_times (k : ℝ) (d : Dict Int Ex) : (timesDict k d).values = timesAll k d.values := by
  simp [timesDict, timesAll, Dict.values]

theorem normalizeRows_dense {n : Norm} (hn : n ≠ .max) {w : Nat} {M M' : List (List Ex)} (hM : M ≠ []) (hw : ∀ r ∈ M, r.length = w) (h : List.Forall₂ Longer M M') :
    Alongside (fun a b => a.1 = b.1) (normalizeRows (.ofMat M) n) (normalizeRows (.ofMat M') n) := by
  have hM' : M' ≠ [] := by
    rintro rfl
    cases h
    exact hM rfl
  have hw' : ∀ r ∈ M', r.length = w := by
    clear hM hM'
    induction h with
    | nil => simp
    | @cons a b l l' h _ ih =>
      obtain ⟨k, _, rfl⟩ := h
      intro r hr
      rcases List.mem_cons.1 hr with rfl | hr
      · rw [timesAll, List.length_map]
        exact hw a (by simp)
      · exact ih (fun r hr => hw r (by simp [hr])) r hr
  have hq : Alongside (fun q q' => List.Forall₂ (Pairs timesAll) (M.zip q) (M'.zip q')) (denseNorms n (.ofMat M)) (denseNorms n (.ofMat M')) :=
    alongside_eqs (dense_norms hn hM hw) (mapM_pairs h fun a _ k hk => (normOf_times hk n a).mono fun s s' hs => ⟨hs.1, fun hz => zeros_times (hs.2 hz)⟩) (dense_norms hn hM' hw')
  have hz : ∀ (A : List (List Ex)) (q : List Ex), List.zip (A.map Row.list) (handleZeros q) = (A.zip q).map fun p => ((Row.list p.1 : Row Ex), by1 p.2) := by
    intro A q
    rw [handleZeros, List.zip_map]
    rfl
  show Alongside _ (denseNorms n (.ofMat M) >>= fun q => _) (denseNorms n (.ofMat M') >>= fun q => _)
  refine hq.bind fun q q' hq => ?_
  simp only [rows_ofMat, py_ok_bind]
  rw [hz, hz, mapM_map', mapM_map']
  refine (Alongside.mapM (S := Eq) hq fun p p' hp => ?_).bind fun u v e => ?_
  · show Alongside Eq (p.1.mapM fun a => a /ₚ by1 p.2) (p'.1.mapM fun a => a /ₚ by1 p'.2)
    rw [divList hp]
    exact .same _
  · rw [forall₂_eq e]
    exact .done rfl

theorem normalizeRows_sparse {n : Norm} (hn : n ≠ .max) {size : Option Nat} {dt : DType} {A A' : List (Dict Int Ex)} (hA : A ≠ []) (hd : ∀ d ∈ A, (d.map Prod.fst).Nodup)
    (h : List.Forall₂ LongerDict A A') : Alongside (fun a b => a.1 = b.1) (normalizeRows (.sparse A size dt) n) (normalizeRows (.sparse A' size dt) n) := by
  have hA' : A' ≠ [] := by
    rintro rfl
    cases h
    exact hA rfl
  have hd' : ∀ d ∈ A', (d.map Prod.fst).Nodup := by
    clear hA hA'
    induction h with
    | nil => simp
    | @cons a b l l' h _ ih =>
      obtain ⟨k, _, rfl⟩ := h
      intro r hr
      rcases List.mem_cons.1 hr with rfl | hr
      · simpa [List.map_map, Function.comp_def] using hd a (by simp)
      · exact ih (fun r hr => hd r (by simp [hr])) r hr
  have hq : Alongside (fun q q' => List.Forall₂ (Pairs timesDict) (A.zip q) (A'.zip q')) (sparseNorms n (.sparse A size dt) A) (sparseNorms n (.sparse A' size dt) A') := by
    refine alongside_eqs (sparse_norms hn hA hd) (mapM_pairs h fun d _ k hk => ?_) (sparse_norms hn hA' hd')
    rw [values_times]
    refine (normOf_times hk n d.values).mono fun s s' hs => ⟨hs.1, fun hz => ?_⟩
    have h0 := hs.2 hz
    unfold timesDict
    refine (List.map_congr_left fun p hp => ?_).trans (List.map_id d)
    have := h0 p.2 (List.mem_map.2 ⟨p, hp, rfl⟩)
    have e := times_zero k
    rw [zero_fin] at e
    rw [this, e, ← this]
    rfl
  have hz : ∀ (A : List (Dict Int Ex)) (q : List Ex), List.zip A (handleZeros q) = (A.zip q).map fun p => (p.1, by1 p.2) := by
    intro A q
    rw [handleZeros, List.zip_map_right]
    rfl
  show Alongside _ (sparseNorms n (.sparse A size dt) A >>= fun q => _) (sparseNorms n (.sparse A' size dt) A' >>= fun q => _)
  refine hq.bind fun q q' hq => ?_
  dsimp only
  rw [hz, hz, mapM_map', mapM_map']
  refine (Alongside.mapM (S := Eq) hq fun p p' hp => ?_).bind fun u v e => ?_
  · have := divStored hp
    simp only [Function.comp]
    rw [this]
    exact .same _
  · rw [forall₂_eq e]
    refine .after _ fun x _ => .done rfl

theorem stretched_check {X X' : Arr Ex} (h : StretchedArr X X') (s : HandleSparse) : Alongside StretchedArr (checkArray X s) (checkArray X' s) := by
  cases h with
  | same X =>
    cases h : checkArray X s with
    | error e => exact .fail
    | ok Y => exact .done (.same _)
  | @dense w M M' hw h =>
    cases h with
    | nil => exact .done (.same _)
    | cons h1 h2 => exact .done (.dense hw (.cons h1 h2))
  | @sparse A A' size dt hd h =>
    cases s with
    | allow => exact .done (.sparse hd h)
    | error => exact .fail
    | bad => exact .fail

theorem stretched_rows {X X' : Arr Ex} {n : Norm} (hn : n ≠ .max) (h : StretchedArr X X') :
    Alongside (fun a b => a.1 = b.1) (normalizeRows X n) (normalizeRows X' n) := by
  cases h with
  | same X => exact (Alongside.same _).mono fun _ _ e => by rw [e]
  | @dense w M M' hw h =>
    cases hM : M with
    | nil =>
      subst hM
      cases h
      exact (Alongside.same _).mono fun _ _ e => by rw [e]
    | cons r M => rw [← hM]; exact normalizeRows_dense hn (by simp [hM]) hw h
  | @sparse A A' size dt hd h =>
    cases hA : A with
    | nil =>
      subst hA
      cases h
      exact (Alongside.same _).mono fun _ _ e => by rw [e]
    | cons r A => rw [← hA]; exact normalizeRows_sparse hn (by simp [hA]) hd h

theorem stretched_sparse {X X' : Arr Ex} (h : StretchedArr X X') : X.issparse = X'.issparse := by
  cases h <;> rfl

theorem stretched_normalize {X X' : Arr Ex} {n : Norm} (hn : n ≠ .max) (h : StretchedArr X X') : Alongside Eq (normalizePure X n) (normalizePure X' n) := by
  unfold normalizePure normalizePure'
  by_cases hb : n = .bad
  · subst hb
    simp only [show ((1 : Int) == 0) = false from rfl, Bool.false_and, Bool.false_eq_true, if_false, if_true]
    exact .fail
  · simp only [show ((1 : Int) == 0) = false from rfl, show ((1 : Int) == 1) = true from rfl, Bool.false_and, Bool.false_eq_true, if_false, hb, Bool.or_true, Bool.not_true,
      Bool.and_false, py_pure, py_ok_bind, bind_assoc]
    refine (stretched_check h .allow).bind fun Y Y' hY => ?_
    refine (stretched_rows hn hY).bind fun u v e => ?_
    exact .done e

theorem stretched_normalizer {X X' : Arr Ex} {n : Norm} (hn : n ≠ .max) (h : StretchedArr X X') : Alongside Eq (normalizerTransform n X) (normalizerTransform n X') :=
  (stretched_check h .allow).bind fun _ _ hY => stretched_normalize hn hY

end PurePredict.Dir
