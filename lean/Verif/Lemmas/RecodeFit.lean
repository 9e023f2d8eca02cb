import Verif.Lemmas.RecodeStep
/-
Predictors fitted in other units.
-/
namespace PurePredict
open Spec
variable {fp : FP}

/-! ### Linear models -/

/-- a finite amount more -/
noncomputable def more (d : ℝ) (x : Ex) : Ex := x +ₚ .fin d

theorem more_fin (d x : ℝ) : more d (.fin x) = .fin (x + d) := XR.add_exact x d
theorem more_pinf (d : ℝ) : more d .pinf = .pinf := rfl
theorem more_ninf (d : ℝ) : more d .ninf = .ninf := rfl
theorem more_nan (d : ℝ) : more d .nan = .nan := rfl

theorem more_add (c d : ℝ) (a b : Ex) : more c a +ₚ more d b = more (c + d) (a +ₚ b) := by
  cases a <;> cases b <;> first
    | rfl
    | (simp only [more_fin, XR.add_exact]; congr 1; ring)
    | (simp only [more_fin, more_pinf, more_ninf, more_nan]; rfl)

theorem more_foldl (ds : List ℝ) (l : List Ex) (hl : l.length = ds.length) (c : ℝ) (a : Ex) :
    (ds.zipWith more l).foldl Arith.add (more c a) = more (c + ds.sum) (l.foldl Arith.add a) := by
  induction ds generalizing l c a with
  | nil =>
    cases l with
    | nil => simp
    | cons _ _ => simp at hl
  | cons d ds ih =>
    cases l with
    | nil => simp at hl
    | cons b l =>
      rw [List.zipWith_cons_cons, List.foldl_cons, List.foldl_cons, more_add, ih l (by simpa using hl), List.sum_cons, add_assoc]

theorem more_sum (ds : List ℝ) (l : List Ex) (hl : l.length = ds.length) : pySum (ds.zipWith more l) = more ds.sum (pySum l) := by
  have := more_foldl ds l hl 0 (ofInt 0)
  unfold pySum
  rw [zero_add] at this
  rw [← this, XR.ofInt_exact, more_fin]
  simp

theorem dot_rates {cs : List Change} (hu : ∀ c ∈ cs, c.factor ≠ 0) {r : List ℝ} (hr : r.length = cs.length) {x y : List Ex}
    (h : Recoded (cs.map Change.on) x y) : dotList y (floats FP.exact (rates cs r)) = more (drift cs r) (dotList x (floats FP.exact r)) := by
  unfold dotList drift
  rw [← more_sum]
  · congr 1
    unfold rates floats
    induction cs generalizing r x y with
    | nil => cases h; simp
    | cons c cs ih =>
      cases r with
      | nil => simp at hr
      | cons a r =>
        cases h with
        | @cons _ _ b x y h =>
          simp only [List.zipWith_cons_cons, List.map_cons, ih (fun c hc => hu c (by simp [hc])) (by simpa using hr) h, exact_rate (hu c (by simp))]
          rfl
  · have := h.lengths.1
    simp only [List.length_map] at this
    simp [this, hr, floats]

theorem decision_coded {C : Type} {cs : List Change} {m : Linear Ex C} {W : List (List ℝ)} {b : List Ex} (hu : ∀ c ∈ cs, c.factor ≠ 0)
    (hW : ∀ r ∈ W, r.length = cs.length) (hc : m.coef = W.map (floats FP.exact)) (hb : m.intercept = some b) {M N : List (List Ex)}
    (h : Cod (cs.map Change.on) M N) : m.decisionFunction (.ofMat M) =
      ({ m with coef := W.map fun r => floats FP.exact (rates cs r), intercept := some (W.zipWith (fun r x => x -ₚ .fin (drift cs r)) b) } : Linear Ex C).decisionFunction
        (.ofMat N) := by
  generalize hm' : ({ m with coef := W.map fun r => floats FP.exact (rates cs r), intercept := some (W.zipWith (fun r x => x -ₚ .fin (drift cs r)) b) } : Linear Ex C) = m'
  have hc' : m'.coef = W.map fun r => floats FP.exact (rates cs r) := by subst hm'; rfl
  have hb' : m'.intercept = some (W.zipWith (fun r x => x -ₚ .fin (drift cs r)) b) := by subst hm'; rfl
  have hrates : ∀ r ∈ W, (rates cs r).length = cs.length := fun r hr => by simp [rates, hW r hr]
  have h1 : m.checkWidth (.ofMat M) = m'.checkWidth (.ofMat N) := by
    unfold Linear.checkWidth
    rw [width_ofMat h.left.1 h.left.2, width_ofMat h.right.1 h.right.2, hc, hc']
    congr 1
    by_cases h0 : W = []
    · subst h0; rfl
    · rw [width_ofMat (w := cs.length) (by simpa using h0) (by
        intro r hr
        obtain ⟨a, ha, rfl⟩ := List.mem_map.1 hr
        rw [floats_length, hW a ha]), width_ofMat (w := cs.length) (by simpa using h0) (by
        intro r hr
        obtain ⟨a, ha, rfl⟩ := List.mem_map.1 hr
        rw [floats_length, hrates a ha])]
  have h2 : (M.map Row.list).mapM m.rowScores = (N.map Row.list).mapM m'.rowScores := by
    rw [mapM_map', mapM_map']
    refine mapM_eq_of h.2 fun x y hxy => ?_
    unfold Linear.rowScores
    rw [dot_list, dot_list, hc, hc', hb, hb']
    simp only [py_ok_bind, attr, py_pure, List.map_map]
    congr 1
    clear hc hc' hb hb' h1 hm'
    induction W generalizing b with
    | nil => rfl
    | cons r W ih =>
      cases b with
      | nil => rfl
      | cons a b =>
        simp only [List.map_cons, List.zipWith_cons_cons, Function.comp_apply] at ih ⊢
        rw [ih (fun r hr => hW r (by simp [hr])) (fun r hr => hrates r (by simp [hr])), dot_rates hu (hW r (by simp)) hxy]
        congr 1
        exact (exact_correct' _ _ _).symm
  unfold Linear.decisionFunction
  simp only [checkArray_ofMat h.left.1, checkArray_ofMat h.right.1, py_ok_bind, rows_ofMat, h1, h2]

/-! ### Trees -/

theorem evalPy_coded {φs : List (Code fp)} {dt dt' : DTree (XR fp)} (hd : Rethreshold φs dt dt') {M N : List (List (XR fp))}
    (h : Cod φs M N) : (M.map Row.list).mapM dt.evalPy = (N.map Row.list).mapM dt'.evalPy := by
  rw [mapM_map', mapM_map']
  refine mapM_eq_of h.2 fun x y hxy => ?_
  have : dt.eval (fun i => x[i]?) = dt'.eval (fun i => y[i]?) := by
    induction hd with
    | leaf => rfl
    | @node f φ thr thr' l l' r r' hf ht _ _ ihl ihr =>
      simp only [DTree.eval, hxy.get hf]
      cases x[f]? with
      | none => rfl
      | some a => simp only [Option.map_some, ht, ihl, ihr]
  unfold DTree.evalPy
  rw [show (Row.list x).look = fun i => x[i]? from rfl, show (Row.list y).look = fun i => y[i]? from rfl, this]
  rfl

theorem treeReg_coded {C : Type} {φs : List (Code fp)} {t t' : Tree (XR fp) C} (ht : SameTests φs t t') {M N : List (List (XR fp))} (h : Cod φs M N) :
    t.predictReg (.ofMat M) = t'.predictReg (.ofMat N) := by
  obtain ⟨-, dt, dt', henc, henc', hd⟩ := ht
  rw [Tree.predictReg_eq henc (checkArray_ofMat h.left.1 _) (rows_ofMat M), Tree.predictReg_eq henc' (checkArray_ofMat h.right.1 _) (rows_ofMat N),
    evalPy_coded hd h]

theorem treeProba_coded {C : Type} {φs : List (Code fp)} {t t' : Tree (XR fp) C} (ht : SameTests φs t t') {M N : List (List (XR fp))} (h : Cod φs M N) :
    t.predictProba (.ofMat M) = t'.predictProba (.ofMat N) ∧ t.predict (.ofMat M) = t'.predict (.ofMat N) := by
  obtain ⟨hc, dt, dt', henc, henc', hd⟩ := ht
  rw [Tree.predictProba_eq henc (checkArray_ofMat h.left.1 _) (rows_ofMat M), Tree.predictProba_eq henc' (checkArray_ofMat h.right.1 _) (rows_ofMat N),
    Tree.predict_eq henc (checkArray_ofMat h.left.1 _) (rows_ofMat M), Tree.predict_eq henc' (checkArray_ofMat h.right.1 _) (rows_ofMat N),
    evalPy_coded hd h, hc]
  exact ⟨rfl, rfl⟩

theorem xgb_coded {C : Type} {m : Xgb (XR fp) C} {ts' : XgbTrees (XR fp) C} {φs : List (Code fp)} (hm : SameBooster φs m.trees ts')
    {M N : List (List (XR fp))} (h : Cod φs M N) :
    m.predictProba (.ofMat M) = ({ m with trees := ts' } : Xgb (XR fp) C).predictProba (.ofMat N) := by
  have add : ∀ t t', SameTests φs t t' → ∀ acc, Xgb.addTree (C := C) (.ofMat M) acc t = Xgb.addTree (.ofMat N) acc t' := by
    intro t t' ht acc
    unfold Xgb.addTree
    rw [treeReg_coded ht h]
  obtain ⟨ob, cs, K, n, ts⟩ := m
  simp only at hm ⊢
  have e1 : (⟨ob, cs, K, n, ts⟩ : Xgb (XR fp) C).predictBinary (.ofMat M) = (⟨ob, cs, K, n, ts'⟩ : Xgb (XR fp) C).predictBinary (.ofMat N) := by
    unfold Xgb.predictBinary
    rw [len_ofMat, len_ofMat, h.length]
    simp only [py_ok_bind]
    cases hm with
    | binary hts => exact foldlM_eq_of hts (fun t t' ht acc => add t t' ht acc) _
    | @multi ts ts' hts => cases hts <;> rfl
  have e2 : (⟨ob, cs, K, n, ts⟩ : Xgb (XR fp) C).predict_ (.ofMat M) = (⟨ob, cs, K, n, ts'⟩ : Xgb (XR fp) C).predict_ (.ofMat N) := by
    unfold Xgb.predict_
    refine mapM_congr fun c _ => ?_
    rw [len_ofMat, len_ofMat, h.length]
    simp only [py_ok_bind]
    refine foldlM_congr_mem (fun e _ acc => ?_) _
    cases hm with
    | binary hts =>
      refine Par.eq ?_
      exact (pyGet_shuf hts e).bind fun r r' hrr => .fail
    | multi hts =>
      refine Par.eq ?_
      refine (pyGet_shuf hts e).bind fun r r' hrr => (pyGet_shuf hrr c).bind fun t t' htt => ?_
      rw [add t t' htt]
      exact .refl (fun _ => rfl) _
  unfold Xgb.predictProba
  rw [checkArray_ofMat h.left.1, checkArray_ofMat h.right.1]
  simp only [py_ok_bind]
  cases ob with
  | multiSoftprob => simp only [e2, len_ofMat, h.length]
  | binaryLogistic => simp only [e1]

/-! ### Gaussian naive Bayes -/

theorem more_lt (d : ℝ) (a b : Ex) : (more d a <ₚ more d b) = (a <ₚ b) := by
  cases a <;> cases b <;> first
    | rfl
    | (simp only [more_fin, XR.lt_fin, add_lt_add_iff_right])
    | (simp only [more_fin, more_pinf, more_ninf, more_nan]; rfl)

theorem more_eq (d : ℝ) (a b : Ex) : (more d a ==ₚ more d b) = (a ==ₚ b) := by
  cases a <;> cases b <;> first
    | rfl
    | (simp only [more_fin, XR.eq_fin, add_left_inj])
    | (simp only [more_fin, more_pinf, more_ninf, more_nan]; rfl)

theorem more_maxScan (d : ℝ) (l : List Ex) (p : Nat) (best : Nat × Ex) :
    maxScan (l.map (more d)) p (best.1, more d best.2) = ((maxScan l p best).1, more d (maxScan l p best).2) := by
  induction l generalizing p best with
  | nil => rfl
  | cons a l ih =>
    simp only [List.map_cons, maxScan, more_lt]
    split
    · exact ih (p + 1) (p, a)
    · exact ih (p + 1) best

theorem more_argmax (d : ℝ) (l : List Ex) : argmax (l.map (more d)) = argmax l := by
  unfold argmax
  cases l with
  | nil => rfl
  | cons a l =>
    have := more_maxScan d l 1 (0, a)
    simp only [List.map_cons, pyMaxPos, py_ok_bind] at this ⊢
    rw [this]
    generalize maxScan l 1 (0, a) = b
    have e : ((more d a :: l.map (more d)).take b.1).findIdx? (fun x => x ==ₚ more d b.2) = ((a :: l).take b.1).findIdx? fun x => x ==ₚ b.2 := by
      rw [← List.map_cons, ← List.map_take, List.findIdx?_map]
      congr 1
      funext x
      exact more_eq d x b.2
    simp only [e]

theorem more_exp (d : ℝ) (x : Ex) : (safeExp (more d x) : Py Ex) = (safeExp x >>= fun q => .ok (times (Real.exp d) q) : Py Ex) := by
  cases x with
  | fin x =>
    rw [more_fin]
    show Except.ok _ = Except.ok _
    rw [times_fin, Real.exp_add, mul_comm]
  | pinf => show Except.ok _ = Except.ok _; rw [times_pinf (Real.exp_pos d)]
  | ninf => show Except.ok _ = Except.ok _; rw [times_fin, mul_zero]
  | nan => rfl

theorem more_log (d : ℝ) (x : Ex) : (safeLog (times (Real.exp d) x) : Py Ex) = (safeLog x >>= fun q => .ok (more d q) : Py Ex) := by
  have hp := Real.exp_pos d
  have hlog : ∀ a : ℝ, (safeLog (.fin a : Ex) : Py Ex) = if a = 0 then .ok .ninf else if a < 0 then .ok .nan else .ok (.fin (Real.log a)) := by
    intro a
    unfold safeLog
    rw [XR.ofInt_exact]
    by_cases h1 : a = 0
    · simp [h1]; rfl
    · by_cases h2 : a < 0
      · simp [h1, h2]; rfl
      · have : 0 < a := lt_of_le_of_ne (not_lt.1 h2) (Ne.symm h1)
        simp [h1, h2, XR.log_exact this]
  have other : ∀ a : Ex, (∀ r, a ≠ .fin r) → times (Real.exp d) a = a := by
    intro a ha
    cases a with
    | fin r => exact absurd rfl (ha r)
    | pinf => exact times_pinf hp
    | ninf => exact times_ninf hp
    | nan => rfl
  cases x with
  | fin a =>
    rw [times_fin, hlog, hlog]
    rcases lt_trichotomy a 0 with h | h | h
    · have h2 : Real.exp d * a < 0 := mul_neg_of_pos_of_neg hp h
      simp only [h.ne, h2.ne, h, h2, if_false, if_true, py_ok_bind, more_nan]
    · subst h
      simp only [mul_zero, if_true, py_ok_bind, more_ninf]
    · have h2 : 0 < Real.exp d * a := mul_pos hp h
      simp only [h.ne', h2.ne', not_lt.2 h.le, not_lt.2 h2.le, if_false, py_ok_bind, more_fin]
      rw [Real.log_mul hp.ne' h.ne', Real.log_exp, add_comm]
  | pinf => rw [other _ (fun r e => by cases e)]; unfold safeLog; rw [XR.ofInt_exact]; rfl
  | ninf => rw [other _ (fun r e => by cases e)]; unfold safeLog; rw [XR.ofInt_exact]; rfl
  | nan => rw [other _ (fun r e => by cases e)]; unfold safeLog; rw [XR.ofInt_exact]; rfl

theorem more_sub (d : ℝ) (a b : Ex) : more d a -ₚ more d b = a -ₚ b := by
  cases a <;> cases b <;> first
    | rfl
    | (simp only [more_fin, XR.sub_exact]; congr 1; ring)
    | (simp only [more_fin, more_pinf, more_ninf, more_nan]; rfl)

theorem more_logNormalize (d : ℝ) (l : List Ex) : logNormalize (l.map (more d)) = logNormalize l := by
  unfold logNormalize
  have e1 : ((l.map (more d)).mapM safeExp : Py (List Ex)) = (l.mapM safeExp >>= fun q => .ok (q.map (times (Real.exp d)))) := by
    rw [mapM_map']
    induction l with
    | nil => rfl
    | cons a l ih =>
      rw [mapM_cons', mapM_cons', ih, more_exp]
      cases (safeExp a : Py Ex) with
      | error _ => rfl
      | ok b =>
        simp only [py_ok_bind]
        cases (l.mapM safeExp : Py (List Ex)) with
        | error _ => rfl
        | ok bs => rfl
  rw [e1]
  cases (l.mapM safeExp : Py (List Ex)) with
  | error _ => rfl
  | ok q =>
    simp only [py_ok_bind, times_sum (Real.exp_pos d), more_log]
    cases (safeLog (pySum q) : Py Ex) with
    | error _ => rfl
    | ok s =>
      simp only [py_ok_bind, List.map_map]
      congr 1
      exact List.map_congr_left fun a _ => more_sub d a s

theorem gauss_term_coded {c : Change} (h : 0 < c.factor) (t : ℝ) {s : ℝ} (hs : 0 < s) (a : Ex) :
    gaussTerm (c.on a, .fin (c.factor * t + c.offset), .fin (c.factor * (c.factor * s))) = gaussTerm (a, .fin t, .fin s) := by
  unfold gaussTerm
  simp only
  rw [exact_centre h t a, on_times]
  have e : ∀ z : Ex, (Arith.sq (times c.factor z) : Py Ex) = (Arith.sq z >>= fun q => .ok (times (c.factor * c.factor) q) : Py Ex) := by
    intro z
    have h2 := mul_pos h h
    cases z with
    | fin z =>
      rw [times_fin, XR.sq_exact, XR.sq_exact, py_ok_bind, times_fin]
      congr 2
      ring
    | pinf => rw [times_pinf h]; show Except.ok _ = Except.ok _; rw [times_pinf h2]
    | ninf => rw [times_ninf h]; show Except.ok _ = Except.ok _; rw [times_pinf h2]
    | nan => rfl
  rw [e]
  cases (Arith.sq (a -ₚ .fin t) : Py Ex) with
  | error _ => rfl
  | ok q =>
    simp only [py_ok_bind]
    have := times_quot (mul_pos h h) q (q := .fin s) (fun e => hs.ne' (XR.fin_inj.1 e))
    rw [times_fin, mul_assoc] at this
    exact this

/-- how much every joint log likelihood changes -/
noncomputable def shift (cs : List Change) : ℝ := -(cs.map fun c => Real.log c.factor).sum

theorem gauss_logs_coded {cs : List Change} (hu : ∀ c ∈ cs, 0 < c.factor) {s : List ℝ} (hs : s.length = cs.length) (hpos : ∀ x ∈ s, 0 < x) :
    ∃ l l' : List ℝ, ((floats FP.exact s).mapM fun x => safeLog (ofInt 2 *ₚ Arith.pi *ₚ x)) = .ok (floats FP.exact l) ∧
      ((floats FP.exact (spreads cs (spreads cs s))).mapM fun x => safeLog (ofInt 2 *ₚ Arith.pi *ₚ x)) = .ok (floats FP.exact l') ∧
      l'.sum = l.sum - 2 * shift cs := by
  have one : ∀ x : ℝ, 0 < x → (safeLog ((ofInt 2 : Ex) *ₚ Arith.pi *ₚ .fin x) : Py Ex) = .ok (.fin (Real.log (2 * Real.pi * x))) := by
    intro x hx
    have hp : (Arith.pi : Ex) = .fin Real.pi := XR.round_exact _
    have h1 : 0 < 2 * Real.pi * x := by positivity
    rw [XR.ofInt_exact, hp, XR.mul_exact, XR.mul_exact]
    unfold safeLog
    rw [XR.ofInt_exact]
    push_cast
    simp [h1.ne', not_lt.2 h1.le, XR.log_exact h1]
  unfold spreads
  induction cs generalizing s with
  | nil =>
    have : s = [] := List.length_eq_zero_iff.1 hs
    subst this
    exact ⟨[], [], rfl, rfl, by simp [shift]⟩
  | cons c cs ih =>
    cases s with
    | nil => simp at hs
    | cons a s =>
      obtain ⟨l, l', h1, h2, h3⟩ := ih (fun c hc => hu c (by simp [hc])) (s := s) (by simpa using hs) fun x hx => hpos x (by simp [hx])
      have hc := hu c (by simp)
      have ha := hpos a (by simp)
      refine ⟨Real.log (2 * Real.pi * a) :: l, Real.log (2 * Real.pi * (c.factor * (c.factor * a))) :: l', ?_, ?_, ?_⟩
      · simp only [floats, List.map_cons, mapM_cons', one a ha, py_ok_bind] at h1 ⊢
        rw [h1]
        rfl
      · simp only [floats, List.map_cons, mapM_cons', List.zipWith_cons_cons, one _ (mul_pos hc (mul_pos hc ha)), py_ok_bind] at h2 ⊢
        rw [h2]
        rfl
      · rw [List.sum_cons, List.sum_cons, h3]
        have : 2 * Real.pi * (c.factor * (c.factor * a)) = c.factor * (c.factor * (2 * Real.pi * a)) := by ring
        rw [this, Real.log_mul hc.ne' (by positivity), Real.log_mul hc.ne' (by positivity)]
        unfold shift
        rw [List.map_cons, List.sum_cons]
        ring

theorem gauss_terms_coded {cs : List Change} (hu : ∀ c ∈ cs, 0 < c.factor) {t s : List ℝ} (ht : t.length = cs.length) (hs : s.length = cs.length)
    (hpos : ∀ x ∈ s, 0 < x) {x y : List Ex} (h : Recoded (cs.map Change.on) x y) :
    GaussianNB.terms (floats FP.exact (values cs t)) (floats FP.exact (spreads cs (spreads cs s))) (.list y) =
      GaussianNB.terms (floats FP.exact t) (floats FP.exact s) (.list x) := by
  have hl := h.lengths
  rw [List.length_map] at hl
  have l1 := spreads_length cs hs
  rw [gaussTerms_zip (by rw [floats_length, values_length cs ht, hl.2]) (by rw [floats_length, spreads_length cs l1, hl.2]),
    gaussTerms_zip (by rw [floats_length, ht, hl.1]) (by rw [floats_length, hs, hl.1])]
  clear l1 hl
  unfold floats values spreads
  induction cs generalizing t s x y with
  | nil => cases h; simp
  | cons c cs ih =>
    cases t with
    | nil => simp at ht
    | cons a t =>
      cases s with
      | nil => simp at hs
      | cons b s =>
        cases h with
        | @cons _ _ z x y h =>
          simp only [List.zipWith_cons_cons, List.map_cons, List.zip_cons_cons, mapM_cons']
          rw [ih (fun c hc => hu c (by simp [hc])) (by simpa using ht) (by simpa using hs) (fun x hx => hpos x (by simp [hx])) h,
            gauss_term_coded (hu c (by simp)) a (hpos b (by simp))]

theorem gauss_column_coded {C : Type} {cs : List Change} (hu : ∀ c ∈ cs, 0 < c.factor) {m : GaussianNB Ex C} {T S : List (List ℝ)}
    (hT : ∀ r ∈ T, r.length = cs.length) (hS : ∀ r ∈ S, r.length = cs.length) (hpos : ∀ r ∈ S, ∀ x ∈ r, 0 < x)
    (et : m.theta = T.map (floats FP.exact)) (es : m.sigma = S.map (floats FP.exact)) {M N : List (List Ex)} (h : Cod (cs.map Change.on) M N) (i : Nat) :
    ({ m with theta := T.map fun r => floats FP.exact (values cs r), sigma := S.map fun r => floats FP.exact (spreads cs (spreads cs r)) } : GaussianNB Ex C).column
      (N.map Row.list) i = (m.column (M.map Row.list) i >>= fun l => .ok (l.map (more (shift cs))) : Py (List Ex)) := by
  unfold GaussianNB.column
  simp only [bind_assoc]
  congr 1
  funext p
  congr 1
  funext j
  rw [es]
  by_cases hi : i < S.length
  · rw [pyGet_lt (l := S.map fun r => floats FP.exact (spreads cs (spreads cs r))) (by simpa using hi),
      pyGet_lt (l := S.map (floats FP.exact)) (by simpa using hi)]
    simp only [py_ok_bind, List.getElem_map]
    have hm : S[i] ∈ S := List.getElem_mem hi
    obtain ⟨l, l', h1, h2, h3⟩ := gauss_logs_coded hu (hS _ hm) (hpos _ hm)
    rw [h1, h2]
    simp only [py_ok_bind]
    have hj : ((M.map Row.list).mapM fun a => do GaussianNB.terms (← pyGet m.theta (i : Int)) (floats FP.exact S[i]) a) =
        ((N.map Row.list).mapM fun a => do GaussianNB.terms (← pyGet (T.map fun r => floats FP.exact (values cs r)) (i : Int)) (floats FP.exact (spreads cs (spreads cs S[i]))) a) := by
      rw [mapM_map', mapM_map']
      refine mapM_eq_of h.2 fun x y hxy => ?_
      rw [et]
      by_cases hi' : i < T.length
      · rw [pyGet_lt (by simpa using hi'), pyGet_lt (by simpa using hi')]
        simp only [py_ok_bind, List.getElem_map]
        exact (gauss_terms_coded hu (hT _ (List.getElem_mem hi')) (hS _ hm) (hpos _ hm) hxy).symm
      · rw [pyGet_ge (by simpa using hi'), pyGet_ge (by simpa using hi')]
        rfl
    rw [← hj]
    cases ((M.map Row.list).mapM fun a => do GaussianNB.terms (← pyGet m.theta (i : Int)) (floats FP.exact S[i]) a) with
    | error _ => rfl
    | ok J =>
      simp only [py_ok_bind, py_pure, List.map_map]
      congr 1
      refine List.map_congr_left fun a _ => ?_
      simp only [Function.comp_apply]
      have hsum : ∀ l : List ℝ, pySum (floats FP.exact l) = .fin l.sum := fun l => XR.pySum_exact l
      rw [hsum, hsum, XR.ofRat_exact, XR.neg_fin, XR.mul_exact, XR.mul_exact]
      have e : (-(((1 : Int) : ℝ) / ((2 : Nat) : ℝ)) * l'.sum) = -(((1 : Int) : ℝ) / ((2 : Nat) : ℝ)) * l.sum + shift cs := by
        rw [h3]
        push_cast
        ring
      rw [e]
      generalize (.fin (((1 : Int) : ℝ) / ((2 : Nat) : ℝ)) *ₚ pySum a : Ex) = z
      generalize -(((1 : Int) : ℝ) / ((2 : Nat) : ℝ)) * l.sum = n
      have e1 : (.fin (n + shift cs) : Ex) = more (shift cs) (.fin n) := (more_fin _ _).symm
      rw [e1]
      generalize (.fin n : Ex) = n
      cases n <;> cases z <;> cases j <;> first
        | rfl
        | (simp only [more_fin, more_pinf, more_ninf, more_nan, XR.sub_exact, XR.add_exact]; congr 1; ring)
        | (simp only [more_fin, more_pinf, more_ninf, more_nan, XR.sub_exact, XR.add_exact]; rfl)
  · rw [pyGet_ge (l := S.map fun r => floats FP.exact (spreads cs (spreads cs r))) (by simpa using hi),
      pyGet_ge (l := S.map (floats FP.exact)) (by simpa using hi)]
    rfl

theorem filterMap_map_get {α : Type} (f : α → α) (j : Nat) (A : List (List α)) :
    (A.map (List.map f)).filterMap (fun r => r[j]?) = (A.filterMap fun r => r[j]?).map f := by
  induction A with
  | nil => rfl
  | cons a A ih =>
    simp only [List.map_cons, List.filterMap_cons, List.getElem?_map]
    cases a[j]? with
    | none => simpa using ih
    | some v => simpa using ih

theorem minLen_map {α : Type} (f : α → α) (A : List (List α)) : minLen (A.map (List.map f)) = minLen A := by
  induction A with
  | nil => rfl
  | cons a A ih =>
    cases A with
    | nil => simp [minLen]
    | cons b A =>
      simp only [List.map_cons, minLen, List.length_map] at ih ⊢
      rw [ih]

theorem zipStar_map {α : Type} (f : α → α) (A : List (List α)) : zipStar (A.map (List.map f)) = (zipStar A).map (List.map f) := by
  unfold zipStar
  rw [minLen_map, List.map_map]
  exact List.map_congr_left fun j _ => filterMap_map_get f j A

theorem gaussian_coded {C : Type} {cs : List Change} (hu : ∀ c ∈ cs, 0 < c.factor) {m : GaussianNB Ex C} {T S : List (List ℝ)}
    (hT : ∀ r ∈ T, r.length = cs.length) (hS : ∀ r ∈ S, r.length = cs.length) (hpos : ∀ r ∈ S, ∀ x ∈ r, 0 < x)
    (et : m.theta = T.map (floats FP.exact)) (es : m.sigma = S.map (floats FP.exact)) {M N : List (List Ex)} (h : Cod (cs.map Change.on) M N) :
    ({ m with theta := T.map fun r => floats FP.exact (values cs r), sigma := S.map fun r => floats FP.exact (spreads cs (spreads cs r)) } : GaussianNB Ex C).jll
      (.ofMat N) = (m.jll (.ofMat M) >>= fun J => .ok (J.map (List.map (more (shift cs)))) : Py (List (List Ex))) := by
  unfold GaussianNB.jll
  simp only [rows_ofMat, py_ok_bind]
  rw [mapM_congr fun i _ => gauss_column_coded hu hT hS hpos et es h i]
  have e : ∀ l : List Nat, (l.mapM fun i => (m.column (M.map Row.list) i >>= fun l => .ok (l.map (more (shift cs))) : Py (List Ex))) =
      (l.mapM (m.column (M.map Row.list)) >>= fun A => .ok (A.map (List.map (more (shift cs)))) : Py (List (List Ex))) := by
    intro l
    induction l with
    | nil => rfl
    | cons i l ih =>
      rw [mapM_cons', mapM_cons', ih]
      cases m.column (M.map Row.list) i with
      | error _ => rfl
      | ok a =>
        simp only [py_ok_bind]
        cases l.mapM (m.column (M.map Row.list)) with
        | error _ => rfl
        | ok as => rfl
  rw [e]
  cases hA : (List.range m.classes.length).mapM (m.column (M.map Row.list)) with
  | error _ => rfl
  | ok A =>
    simp only [py_ok_bind]
    show transpose (.ofMat _) = (transpose (.ofMat _) >>= _ : Py _)
    rw [transpose_ofMat, transpose_ofMat, py_ok_bind, zipStar_map]

theorem nb_coded {C : Type} {j j' : Arr Ex → Py (List (List Ex))} {φs : List (Code FP.exact)} {d : ℝ}
    (hj : ∀ M N, Cod φs M N → j' (.ofMat N) = (j (.ofMat M) >>= fun J => .ok (J.map (List.map (more d))) : Py (List (List Ex)))) (cs : List C)
    {M N : List (List Ex)} (h : Cod φs M N) :
    nbPredict j cs (.ofMat M) = nbPredict j' cs (.ofMat N) ∧ nbPredictProba j (.ofMat M) = nbPredictProba j' (.ofMat N) ∧
    nbPredictLogProba j (.ofMat M) = nbPredictLogProba j' (.ofMat N) := by
  have e : nbPredictLogProba j (.ofMat M) = nbPredictLogProba j' (.ofMat N) := by
    unfold nbPredictLogProba
    rw [checkArray_ofMat h.left.1, checkArray_ofMat h.right.1]
    simp only [py_ok_bind, hj M N h, bind_assoc, mapM_map', more_logNormalize]
  refine ⟨?_, ?_, e⟩
  · unfold nbPredict
    rw [checkArray_ofMat h.left.1, checkArray_ofMat h.right.1]
    simp only [py_ok_bind, hj M N h, bind_assoc, mapM_map', more_argmax]
  · unfold nbPredictProba
    rw [e]

/-! ### All predictors -/

theorem classifier_coded {φs : List (Code fp)} {p p' : Arr (XR fp) → Py (List (PVal (XR fp)))} {pp pl pp' pl' : Arr (XR fp) → Py (List (List (XR fp)))}
    (h : ∀ M N, Cod φs M N → p (.ofMat M) = p' (.ofMat N) ∧ pp (.ofMat M) = pp' (.ofMat N) ∧ pl (.ofMat M) = pl' (.ofMat N)) :
    Accord (classifier p pp pl) (classifier p' pp' pl') φs .answers := by
  refine ⟨sameMethod_some fun X Y hXY => ?_, sameMethod_some fun X Y hXY => ?_, sameMethod_some fun X Y hXY => ?_⟩ <;> cases hXY with
  | mk h1 h2 =>
    first
    | exact (h _ _ ⟨h1, h2⟩).1
    | exact (h _ _ ⟨h1, h2⟩).2.1
    | exact (h _ _ ⟨h1, h2⟩).2.2

theorem predictor_coded {φs : List (Code fp)} {p p' : Arr (XR fp) → Py (List (PVal (XR fp)))} (h : ∀ M N, Cod φs M N → p (.ofMat M) = p' (.ofMat N)) :
    Accord (predictor p) (predictor p') φs .answers := by
  refine ⟨sameMethod_some fun X Y hXY => ?_, sameMethod_none, sameMethod_none⟩
  cases hXY with
  | mk h1 h2 => exact h _ _ ⟨h1, h2⟩

theorem linear_coded (k : LinKind) {φs : List (Code fp)} {m m' : Linear (XR fp) (PVal (XR fp))} (e1 : m'.classes = m.classes) (e2 : m'.multiClass = m.multiClass)
    (e3 : m'.loss = m.loss) (e4 : m'.solver = m.solver)
    (hd : ∀ M N, Cod φs M N → m.decisionFunction (.ofMat M) = m'.decisionFunction (.ofMat N)) : Accord (k.est m) (k.est m') φs .answers := by
  have hp : ∀ M N, Cod φs M N → m.predict (.ofMat M) = m'.predict (.ofMat N) := fun M N h => by
    unfold Linear.predict
    rw [hd M N h, e1]
  have hlr : ∀ M N, Cod φs M N → m.predictProbaLr (.ofMat M) = m'.predictProbaLr (.ofMat N) := fun M N h => by
    unfold Linear.predictProbaLr
    rw [hd M N h]
  cases k with
  | logistic =>
    have hpp : ∀ M N, Cod φs M N → m.predictProba (.ofMat M) = m'.predictProba (.ofMat N) := fun M N h => by
      have ho : m'.isOvr = m.isOvr := by
        unfold Linear.isOvr
        simp only [e1, e2, e4]
      unfold Linear.predictProba
      rw [hd M N h, hlr M N h, ho]
    refine classifier_coded fun M N h => ⟨hp M N h, hpp M N h, ?_⟩
    unfold Linear.predictLogProba
    rw [hpp M N h]
  | sgd =>
    unfold LinKind.est
    have hpp : ∀ M N, Cod φs M N → m.sgdPredictProba (.ofMat M) = m'.sgdPredictProba (.ofMat N) := fun M N h => by
      unfold Linear.sgdPredictProba Linear.sgdPredictProba_ Linear.checkProba
      rw [hlr M N h, e3]
    have hck : m'.checkProba = m.checkProba := by
      unfold Linear.checkProba
      rw [e3]
    rw [hck]
    cases m.checkProba with
    | ok _ =>
      refine classifier_coded fun M N h => ⟨hp M N h, hpp M N h, ?_⟩
      unfold Linear.sgdPredictLogProba
      rw [hpp M N h, hck]
    | error _ => exact predictor_coded hp
  | plain => exact predictor_coded hp

theorem fit_accords {φs : List (Code fp)} {s s' : Single (XR fp)} (h : RecodedFit φs s s') (lib : String → TextLib) (encode : Str → List Nat) :
    Accord (s.est lib encode) (s'.est lib encode) φs .answers := by
  cases h with
  | @linear cs k m W b he hu hW hc hb =>
    subst he
    show Accord (k.est m) (k.est _) _ _
    exact linear_coded k rfl rfl rfl rfl fun M N h => decision_coded hu hW hc hb h
  | @treeClassifier _ t t' ht =>
    refine classifier_coded fun M N h => ⟨(treeProba_coded ht h).2, (treeProba_coded ht h).1, ?_⟩
    unfold Tree.predictLogProba
    rw [(treeProba_coded ht h).1]
  | @treeRegressor _ t t' ht => exact predictor_coded fun M N h => by rw [treeReg_coded ht h]
  | @xgb _ m ts' hm =>
    refine ⟨sameMethod_some fun X Y hXY => ?_, sameMethod_some fun X Y hXY => ?_, sameMethod_none⟩ <;> cases hXY with
    | @mk M N h1 h2 => ?_
    · show m.predict _ = Xgb.predict _ _
      unfold Xgb.predict
      rw [xgb_coded hm ⟨h1, h2⟩]
    · exact xgb_coded hm ⟨h1, h2⟩
  | @dummy _ d =>
    refine classifier_coded fun M N h => ?_
    have e1 : d.predictProba (.ofMat M) = d.predictProba (.ofMat N) := by
      unfold Dummy.predictProba
      rw [len_ofMat, len_ofMat, h.length]
    refine ⟨?_, e1, ?_⟩
    · unfold Dummy.predict
      rw [len_ofMat, len_ofMat, h.length]
    · unfold Dummy.predictLogProba
      rw [e1]
  | @gaussianNB cs m T S hu hT hS hpos et es =>
    obtain ⟨he, hu⟩ := hu
    subst he
    exact classifier_coded fun M N h => nb_coded (fun M N h => gaussian_coded hu hT hS hpos et es h) m.classes h

end PurePredict
