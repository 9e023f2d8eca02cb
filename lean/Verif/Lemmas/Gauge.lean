import Verif.Spec.Gauge
import Verif.Lemmas.MemberOrderObject
/-
Offsets and factors in exact arithmetic with infinities and NaN.
-/
namespace PurePredict.Gauge
open Spec

/-! ### Numbers -/

theorem round_exact (r : ℝ) : (XR.round r : Ex) = .fin r := by
  simp [XR.round, XR.ofEReal, FP.exact]

theorem infMul_pos (p : Bool) {k : ℝ} (hk : 0 < k) : (XR.infMul p k : Ex) = if p then .pinf else .ninf := by
  unfold XR.infMul
  rw [if_neg hk.ne']
  cases p <;> simp [hk]

theorem times_add {k : ℝ} (hk : 0 < k) (a b : Ex) : (a +ₚ b) *ₚ (.fin k : Ex) = (a *ₚ .fin k) +ₚ (b *ₚ .fin k) := by
  show XR.mul (XR.add a b) _ = XR.add (XR.mul a _) (XR.mul b _)
  cases a <;> cases b <;> simp [XR.add, XR.mul, round_exact, infMul_pos, hk, add_mul]

theorem times_zero (k : ℝ) : (ofInt 0 : Ex) *ₚ .fin k = ofInt 0 := by
  show XR.mul (XR.round _) _ = XR.round _
  simp [round_exact, XR.mul]

theorem sum_times {k : ℝ} (hk : 0 < k) (l : List Ex) : pySum (timesAll k l) = pySum l *ₚ .fin k := by
  unfold pySum timesAll
  have : ∀ a : Ex, (l.map fun x => x *ₚ (.fin k : Ex)).foldl Arith.add (a *ₚ .fin k) = (l.foldl Arith.add a) *ₚ .fin k := by
    induction l with
    | nil => intro a; rfl
    | cons x l ih => intro a; rw [List.map_cons, List.foldl_cons, List.foldl_cons, ← times_add hk, ih]
  rw [← this, times_zero]

theorem exp_plus (c : ℝ) (x : Ex) : Alongside (fun a b => b = a *ₚ (.fin (Real.exp c) : Ex)) (safeExp x) (safeExp (x +ₚ .fin c)) := by
  have e : ∀ x : Ex, safeExp x = XR.exp x := by
    intro x
    have : ∃ y, XR.exp x = .ok y := by cases x <;> exact ⟨_, rfl⟩
    obtain ⟨y, hy⟩ := this
    unfold safeExp
    have h : Arith.exp x = .ok y := hy
    rw [h, hy]
  rw [e, e]
  show Alongside _ (XR.exp x) (XR.exp (XR.add x _))
  cases x with
  | fin a =>
    have h1 : XR.add (XR.fin a : Ex) (.fin c) = .fin (a + c) := by simp only [XR.add, round_exact]
    have h2 : ∀ a : ℝ, XR.exp (XR.fin a : Ex) = .ok (.fin (Real.exp a)) := fun a => rfl
    rw [h1, h2, h2]
    refine .done ?_
    show _ = XR.mul _ _
    simp only [XR.mul, round_exact, Real.exp_add]
  | pinf => exact .done (by show _ = XR.mul _ _; simp [XR.mul, infMul_pos, Real.exp_pos])
  | ninf => exact .done (by show _ = XR.mul _ _; simp [XR.mul, round_exact])
  | nan => exact .done rfl

theorem safeLog_cases (x : Ex) : safeLog x = match x with
    | .fin a => if a = 0 then .ok .ninf else if a < 0 then .ok .nan else .ok (.fin (Real.log a))
    | .pinf => .ok .pinf
    | .ninf => .ok .nan
    | .nan => .ok .nan := by
  unfold safeLog
  show (if XR.eq x (XR.round _) then _ else if XR.lt x (XR.round _) then _ else XR.log x) = _
  simp only [round_exact, Int.cast_zero]
  cases x with
  | fin a =>
    simp only [XR.eq, XR.lt, decide_eq_true_eq, XR.log]
    split
    · rfl
    · split
      · rfl
      · rename_i h1 h2
        have : ¬ a ≤ 0 := fun h => (lt_or_eq_of_le h).elim h2 h1
        rw [if_neg this]
        rfl
  | pinf => simp [XR.eq, XR.lt, XR.log]
  | ninf => simp [XR.eq, XR.lt]; rfl
  | nan => simp [XR.eq, XR.lt, XR.log]

theorem log_times {k : ℝ} (hk : 0 < k) (x : Ex) :
    Alongside (fun a b => b = a +ₚ (.fin (Real.log k) : Ex)) (safeLog x) (safeLog (x *ₚ .fin k)) := by
  rw [safeLog_cases, safeLog_cases]
  cases x with
  | fin a =>
    have : (XR.fin a : Ex) *ₚ .fin k = .fin (a * k) := by show XR.mul _ _ = _; simp [XR.mul, round_exact]
    rw [this]
    simp only [mul_eq_zero, hk.ne', or_false]
    by_cases h : a = 0
    · simp only [h, if_true]; exact .done rfl
    · simp only [h, if_false]
      by_cases h' : a < 0
      · simp only [h', mul_neg_of_neg_of_pos h' hk, if_true]; exact .done rfl
      · have : ¬ a * k < 0 := not_lt.2 (mul_nonneg (not_lt.1 h') hk.le)
        simp only [h', this, if_false]
        refine .done ?_
        show _ = XR.add _ _
        simp [XR.add, round_exact, Real.log_mul h hk.ne']
  | pinf =>
    have : (XR.pinf : Ex) *ₚ .fin k = .pinf := by show XR.mul _ _ = _; simp [XR.mul, infMul_pos, hk]
    rw [this]; exact .done rfl
  | ninf =>
    have : (XR.ninf : Ex) *ₚ .fin k = .ninf := by show XR.mul _ _ = _; simp [XR.mul, infMul_pos, hk]
    rw [this]; exact .done rfl
  | nan => exact .done rfl

theorem div_times {k : ℝ} (hk : 0 < k) (a b : Ex) : (a *ₚ (.fin k : Ex)) /ₚ (b *ₚ .fin k) = a /ₚ b := by
  show XR.div (XR.mul a _) (XR.mul b _) = XR.div a b
  have pos : ∀ r : ℝ, (0 < r * k) = (0 < r) := fun r => by simp [hk]
  have im : ∀ (p : Bool) (r : ℝ), (XR.infMul p (r * k) : Ex) = XR.infMul p r := by
    intro p r
    unfold XR.infMul
    simp [pos, hk.ne']
  cases a <;> cases b <;> simp [XR.mul, XR.div, round_exact, infMul_pos, hk, hk.ne', im]
  split
  · rfl
  · rw [mul_div_mul_right _ _ hk.ne']

theorem sub_plus (c : ℝ) (a b : Ex) : (a +ₚ (.fin c : Ex)) -ₚ (b +ₚ .fin c) = a -ₚ b := by
  show XR.sub (XR.add a _) (XR.add b _) = XR.sub a b
  cases a <;> cases b <;> simp [XR.sub, XR.add, XR.neg, round_exact]

theorem plus_plus (c d : ℝ) (a : Ex) : (a +ₚ (.fin c : Ex)) +ₚ .fin d = a +ₚ .fin (c + d) := by
  show XR.add (XR.add a _) _ = XR.add a _
  cases a <;> simp [XR.add, round_exact, add_assoc]

theorem plus_inner (c : ℝ) (a b : Ex) : (a +ₚ (.fin c : Ex)) +ₚ b = (a +ₚ b) +ₚ .fin c := by
  show XR.add (XR.add a _) _ = XR.add (XR.add a b) _
  cases a <;> cases b <;> simp [XR.add, round_exact]
  ring

theorem plus_last (c : ℝ) (a b : Ex) : a +ₚ (b +ₚ (.fin c : Ex)) = (a +ₚ b) +ₚ .fin c := by
  show XR.add a (XR.add b _) = XR.add (XR.add a b) _
  cases a <;> cases b <;> simp [XR.add, round_exact]
  ring

theorem plus_zero (a : Ex) : a +ₚ (.fin 0 : Ex) = a := by
  show XR.add a _ = a
  cases a <;> simp [XR.add, round_exact]

theorem plus_times (c r : ℝ) (a : Ex) : (a +ₚ (.fin c : Ex)) *ₚ .fin r = (a *ₚ .fin r) +ₚ .fin (c * r) := by
  show XR.mul (XR.add a _) _ = XR.add (XR.mul a _) _
  cases a with
  | fin a => simp [XR.add, XR.mul, round_exact, add_mul]
  | nan => rfl
  | pinf =>
    simp only [XR.add, XR.mul, XR.infMul]
    split
    · rfl
    · split <;> rfl
  | ninf =>
    simp only [XR.add, XR.mul, XR.infMul]
    split
    · rfl
    · split <;> rfl

theorem times_inner {k : ℝ} (hk : 0 < k) (x w : Ex) : x *ₚ (w *ₚ (.fin k : Ex)) = (x *ₚ w) *ₚ .fin k := by
  show XR.mul x (XR.mul w _) = XR.mul (XR.mul x w) _
  have im : ∀ (p : Bool) (r : ℝ), (XR.infMul p (r * k) : Ex) = XR.infMul p r := by
    intro p r
    unfold XR.infMul
    simp [hk, hk.ne']
  have im2 : ∀ (p : Bool) (r : ℝ), XR.mul (XR.infMul p r : Ex) (.fin k) = XR.infMul p r := by
    intro p r
    unfold XR.infMul
    split
    · rfl
    · split <;> simp [XR.mul, infMul_pos, hk]
  cases x with
  | fin a =>
    cases w with
    | fin b => simp [XR.mul, round_exact, mul_assoc]
    | pinf =>
      have : XR.mul (XR.pinf : Ex) (.fin k) = .pinf := by simp [XR.mul, infMul_pos, hk]
      rw [this]
      exact (im2 _ _).symm
    | ninf =>
      have : XR.mul (XR.ninf : Ex) (.fin k) = .ninf := by simp [XR.mul, infMul_pos, hk]
      rw [this]
      exact (im2 _ _).symm
    | nan => rfl
  | pinf =>
    cases w with
    | fin b =>
      have : XR.mul (XR.fin b : Ex) (.fin k) = .fin (b * k) := by simp [XR.mul, round_exact]
      rw [this]
      exact (im _ _).trans (im2 _ _).symm
    | pinf => simp [XR.mul, infMul_pos, hk]
    | ninf => simp [XR.mul, infMul_pos, hk]
    | nan => rfl
  | ninf =>
    cases w with
    | fin b =>
      have : XR.mul (XR.fin b : Ex) (.fin k) = .fin (b * k) := by simp [XR.mul, round_exact]
      rw [this]
      exact (im _ _).trans (im2 _ _).symm
    | pinf => simp [XR.mul, infMul_pos, hk]
    | ninf => simp [XR.mul, infMul_pos, hk]
    | nan => rfl
  | nan => rfl

theorem lt_plus (c : ℝ) (a b : Ex) : ((a +ₚ (.fin c : Ex)) <ₚ (b +ₚ .fin c)) = (a <ₚ b) := by
  show XR.lt (XR.add a _) (XR.add b _) = XR.lt a b
  cases a <;> cases b <;> simp [XR.add, XR.lt, round_exact]

theorem eq_plus (c : ℝ) (a b : Ex) : ((a +ₚ (.fin c : Ex)) ==ₚ (b +ₚ .fin c)) = (a ==ₚ b) := by
  show XR.eq (XR.add a _) (XR.add b _) = XR.eq a b
  cases a <;> cases b <;> simp [XR.add, XR.eq, round_exact]

theorem lt_times {k : ℝ} (hk : 0 < k) (a b : Ex) : ((a *ₚ (.fin k : Ex)) <ₚ (b *ₚ .fin k)) = (a <ₚ b) := by
  show XR.lt (XR.mul a _) (XR.mul b _) = XR.lt a b
  cases a <;> cases b <;> simp [XR.mul, XR.lt, round_exact, infMul_pos, hk]

theorem eq_times {k : ℝ} (hk : 0 < k) (a b : Ex) : ((a *ₚ (.fin k : Ex)) ==ₚ (b *ₚ .fin k)) = (a ==ₚ b) := by
  show XR.eq (XR.mul a _) (XR.mul b _) = XR.eq a b
  cases a <;> cases b <;> simp [XR.mul, XR.eq, round_exact, infMul_pos, hk, hk.ne']

/-! ### Rows -/

theorem maxScan_map (g : Ex → Ex) (hlt : ∀ a b, (g a <ₚ g b) = (a <ₚ b)) (l : List Ex) (pos : Nat) (best : Nat × Ex) :
    maxScan (l.map g) pos (best.1, g best.2) = ((maxScan l pos best).1, g (maxScan l pos best).2) := by
  induction l generalizing pos best with
  | nil => rfl
  | cons x l ih =>
    rw [List.map_cons, maxScan, maxScan]
    simp only [hlt]
    split
    · exact ih _ (pos, x)
    · exact ih _ best

theorem argmax_map (g : Ex → Ex) (hlt : ∀ a b, (g a <ₚ g b) = (a <ₚ b)) (heq : ∀ a b, (g a ==ₚ g b) = (a ==ₚ b)) (l : List Ex) :
    argmax (l.map g) = argmax l := by
  cases l with
  | nil => rfl
  | cons x l =>
    unfold argmax pyMaxPos
    simp only [List.map_cons, py_ok_bind]
    rw [maxScan_map g hlt l 1 (0, x)]
    simp only
    rw [← List.map_cons, ← List.map_take, List.findIdx?_map]
    have : ((fun y => y ==ₚ g (maxScan l 1 (0, x)).2) ∘ g) = fun y => y ==ₚ (maxScan l 1 (0, x)).2 := by
      funext y
      exact heq y _
    rw [this]

theorem argmax_times {k : ℝ} (hk : 0 < k) (l : List Ex) : argmax (timesAll k l) = argmax l := argmax_map _ (lt_times hk) (eq_times hk) l

theorem argmax_plus (c : ℝ) (l : List Ex) : argmax (plusAll c l) = argmax l := argmax_map _ (lt_plus c) (eq_plus c) l

theorem forall₂_times {k : ℝ} {l l' : List Ex} (h : List.Forall₂ (fun a b => b = a *ₚ (.fin k : Ex)) l l') : l' = timesAll k l := by
  induction h with
  | nil => rfl
  | cons h _ ih => rw [h, ih]; rfl

theorem forall₂_plus {c : ℝ} {l l' : List Ex} (h : List.Forall₂ (fun a b => b = a +ₚ (.fin c : Ex)) l l') : l' = plusAll c l := by
  induction h with
  | nil => rfl
  | cons h _ ih => rw [h, ih]; rfl

theorem plus_forall₂ (c : ℝ) (l : List Ex) : List.Forall₂ (fun a b => b = a +ₚ (.fin c : Ex)) l (plusAll c l) := by
  induction l with
  | nil => exact .nil
  | cons x l ih => exact .cons rfl ih

theorem times_forall₂ (k : ℝ) (l : List Ex) : List.Forall₂ (fun a b => b = a *ₚ (.fin k : Ex)) l (timesAll k l) := by
  induction l with
  | nil => exact .nil
  | cons x l ih => exact .cons rfl ih

theorem shares_times {k : ℝ} (hk : 0 < k) (v : List Ex) :
    ((timesAll k v).mapM fun a => a /ₚ pySum (timesAll k v)) = v.mapM fun a => a /ₚ pySum v := by
  rw [sum_times hk]
  unfold timesAll
  rw [mapM_map']
  simp only [div_times hk]

theorem exps_plus (c : ℝ) (l : List Ex) : Alongside (fun a b => b = timesAll (Real.exp c) a) (l.mapM safeExp) ((plusAll c l).mapM safeExp) :=
  (Alongside.mapM (plus_forall₂ c l) fun a b e => by rw [e]; exact exp_plus c a).mono fun _ _ h => forall₂_times h

theorem sfmax_plus (c : ℝ) (l : List Ex) : Alongside Eq (sfmax l) (sfmax (plusAll c l)) := by
  unfold sfmax
  refine (exps_plus c l).bind fun u v e => ?_
  rw [e, shares_times (Real.exp_pos c)]
  exact .same _

theorem logNormalize_plus (c : ℝ) (l : List Ex) : Alongside Eq (logNormalize l) (logNormalize (plusAll c l)) := by
  unfold logNormalize
  refine (exps_plus c l).bind fun u v e => ?_
  rw [e, sum_times (Real.exp_pos c)]
  refine (log_times (Real.exp_pos c) _).bind fun a b e => ?_
  rw [e, Real.log_exp]
  refine .done ?_
  unfold plusAll
  rw [List.map_map]
  refine List.map_congr_left fun x _ => ?_
  exact (sub_plus c x a).symm

/-! ### Scores -/

theorem dot_times {k : ℝ} (hk : 0 < k) (x : Row Ex) (B : List (List Ex)) :
    Alongside (fun a b => b = timesAll k a) (dot x B) (dot x (B.map (timesAll k))) := by
  unfold dot
  rw [mapM_map']
  refine (Alongside.mapM (S := fun a b => b = a *ₚ (.fin k : Ex)) (forall₂_same (R := Eq) (fun _ => rfl) B) fun r _ e => ?_).mono fun _ _ h => forall₂_times h
  cases e
  cases x with
  | scalar x => exact .fail
  | list l =>
    refine .done ?_
    unfold dotList
    rw [← sum_times hk]
    congr 1
    unfold timesAll
    rw [List.map_zipWith, List.zipWith_map_right]
    congr 1
    funext a b
    exact times_inner hk a b
  | dict d =>
    show Alongside _ (dotDict d r) (dotDict d (timesAll k r))
    unfold dotDict
    refine Alongside.bind (R := fun a b => b = timesAll k a) ?_ fun u v e => ?_
    · refine (Alongside.mapM (S := fun a b => b = a *ₚ (.fin k : Ex)) (forall₂_same (R := Eq) (fun _ => rfl) d) fun p _ e => ?_).mono fun _ _ h => forall₂_times h
      cases e
      refine (pyGet_along (times_forall₂ k r) p.1).bind fun a b e => ?_
      rw [e]
      exact .done (times_inner hk _ _)
    · rw [e]
      exact .done (sum_times hk u)

/-- the finite value, or 0 -/
noncomputable def re : Ex → ℝ
  | .fin r => r
  | _ => 0

theorem fin_re {x : Ex} (h : ∃ r : ℝ, x = .fin r) : x = .fin (re x) := by
  obtain ⟨r, rfl⟩ := h
  rfl

theorem sum_plus (l : List Ex) (o : List ℝ) (h : l.length = o.length) :
    pySum (List.zipWith (fun x (c : ℝ) => x +ₚ (.fin c : Ex)) l o) = pySum l +ₚ .fin o.sum := by
  unfold pySum
  have : ∀ (a : Ex) (s : ℝ), (List.zipWith (fun x (c : ℝ) => x +ₚ (.fin c : Ex)) l o).foldl Arith.add (a +ₚ .fin s) = (l.foldl Arith.add a) +ₚ .fin (s + o.sum) := by
    induction l generalizing o with
    | nil =>
      cases o with
      | nil => intro a s; simp
      | cons => simp at h
    | cons x l ih =>
      cases o with
      | nil => simp at h
      | cons c o =>
        intro a s
        rw [List.zipWith_cons_cons, List.foldl_cons, List.foldl_cons, plus_inner, plus_last, plus_plus, ih o (by simpa using h), List.sum_cons]
        congr 2
        ring
  have := this (ofInt 0) 0
  rwa [plus_zero, zero_add] at this

theorem times_plus (r c : ℝ) (w : Ex) : (.fin r : Ex) *ₚ (w +ₚ .fin c) = ((.fin r : Ex) *ₚ w) +ₚ .fin (r * c) := by
  rw [mul_comm_ex, plus_times, mul_comm_ex w, mul_comm c]

/-- what the vector adds to the score of this record -/
noncomputable def added (v : List ℝ) : Row Ex → ℝ
  | .list l => (List.zipWith (fun x c => re x * c) l v).sum
  | .dict d => (d.map fun p => match pyGet v p.1 with | .ok c => re p.2 * c | .error _ => 0).sum
  | .scalar _ => 0

theorem plusVec_forall₂ {v : List ℝ} {r : List Ex} (h : r.length = v.length) : List.Forall₂ (fun (c : ℝ) b => ∃ a, b = a +ₚ (.fin c : Ex)) v (plusVec v r) := by
  unfold plusVec
  induction v generalizing r with
  | nil => cases r with
    | nil => exact .nil
    | cons => simp at h
  | cons c v ih => cases r with
    | nil => simp at h
    | cons x r => exact .cons ⟨x, rfl⟩ (ih (by simpa using h))

theorem pyGet_plusVec {v : List ℝ} {r : List Ex} (h : r.length = v.length) (i : Int) :
    (∃ e e', pyGet r i = .error e ∧ pyGet (plusVec v r) i = .error e') ∨
      ∃ a c, pyGet r i = .ok a ∧ pyGet v i = .ok c ∧ pyGet (plusVec v r) i = .ok (a +ₚ .fin c) := by
  have hl : (plusVec v r).length = r.length := by simp [plusVec, h]
  unfold pyGet
  rw [hl, ← h]
  generalize (if i < 0 then i + (r.length : Int) else i) = j
  by_cases hj : j < 0
  · simp only [if_pos hj]
    exact .inl ⟨_, _, rfl, rfl⟩
  · simp only [if_neg hj]
    generalize j.toNat = n
    by_cases hn : n < r.length
    · refine .inr ⟨r[n], v[n]'(h ▸ hn), ?_, ?_, ?_⟩
      · rw [List.getElem?_eq_getElem hn]
      · rw [List.getElem?_eq_getElem (h ▸ hn)]
      · rw [List.getElem?_eq_getElem (by rw [hl]; exact hn)]
        simp [plusVec]
    · rw [List.getElem?_eq_none (by omega), List.getElem?_eq_none (by omega)]
      exact .inl ⟨_, _, rfl, rfl⟩

theorem dot_plus {v : List ℝ} (x : Row Ex) (hx : FiniteRow x) (B : List (List Ex)) (hB : ∀ r ∈ B, r.length = v.length) :
    Alongside (fun a b => b = plusAll (added v x) a) (dot x B) (dot x (B.map (plusVec v))) := by
  unfold dot
  rw [mapM_map']
  have hBB : List.Forall₂ (fun r r' : List Ex => r = r' ∧ r.length = v.length) B B := by
    induction B with
    | nil => exact .nil
    | cons r B ih => exact .cons ⟨rfl, hB r (by simp)⟩ (ih fun r hr => hB r (by simp [hr]))
  refine (Alongside.mapM (S := fun a b => b = a +ₚ (.fin (added v x) : Ex)) hBB fun r _ e => ?_).mono fun _ _ h => forall₂_plus h
  obtain ⟨rfl, hr⟩ := e
  cases x with
  | scalar x => exact .fail
  | list l =>
    refine .done ?_
    show pySum (List.zipWith Arith.mul l (plusVec v r)) = pySum (List.zipWith Arith.mul l r) +ₚ .fin (List.zipWith (fun x c => re x * c) l v).sum
    rw [← sum_plus _ _ (by simp [hr])]
    congr 1
    unfold plusVec
    clear hB hBB
    induction l generalizing r v with
    | nil => simp
    | cons a l ih =>
      cases r with
      | nil => simp
      | cons b r =>
        cases v with
        | nil => simp at hr
        | cons c v =>
          simp only [List.zipWith_cons_cons]
          rw [ih r (by simpa using hr) fun y hy => hx y (by simp [hy])]
          congr 1
          have := fin_re (hx a (by simp))
          rw [this]
          exact times_plus _ _ _
  | dict d =>
    show Alongside _ (dotDict d r) (dotDict d (plusVec v r))
    unfold dotDict
    refine Alongside.bind (R := fun a b => a.length = (d.map fun p => match pyGet v p.1 with | .ok c => re p.2 * c | .error _ => 0).length ∧
      b = List.zipWith (fun x (c : ℝ) => x +ₚ (.fin c : Ex)) a (d.map fun p => match pyGet v p.1 with | .ok c => re p.2 * c | .error _ => 0)) ?_ fun u w e => ?_
    · clear hB hBB
      induction d with
      | nil => exact .done ⟨rfl, rfl⟩
      | cons p d ih =>
        rw [mapM_cons', mapM_cons']
        have ih := ih fun q hq => hx q (by simp [hq])
        rcases pyGet_plusVec hr p.1 with ⟨e, e', h1, h2⟩ | ⟨a, c, h1, h2, h3⟩
        · rw [h1, h2]; exact .fail
        · rw [h1, h3]
          simp only [py_ok_bind]
          refine ih.bind fun s t hst => .done ?_
          simp only [List.map_cons, h2, List.length_cons, List.zipWith_cons_cons, hst.1, hst.2, true_and]
          congr 1
          have := fin_re (hx p (by simp))
          rw [this]
          exact times_plus _ _ _
    · rw [e.2]
      exact .done (sum_plus _ _ e.1)

end PurePredict.Gauge
