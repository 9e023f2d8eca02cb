import Verif.Lemmas.GaugeFit
/-
Boosting models, ensembles, pipelines and whole objects with offsets and factors that cancel.
-/
namespace PurePredict.Gauge
open Spec
variable {lib : String → TextLib} {encode : Str → List Nat} {P : Data Ex → Prop} {F : Type} [Arith F] {R : Data F → Prop}

/-! ### Boosting -/

theorem gb_for {g g' : GB F (PVal F)} (hc : g'.classes = g.classes) (h : ∀ X, R (.arr X) → Alongside Eq (g.predictProba X) (g'.predictProba X)) :
    AgreeFor R (classifier g.predict g.predictProba g.predictLogProba) (classifier g'.predict g'.predictProba g'.predictLogProba) := by
  refine classifier_for (fun X hX => ?_) h fun X hX => (h X hX).next _
  unfold GB.predict
  rw [hc]
  exact (h X hX).next _

theorem multinomial_up (n : Nat) {R S : List (List Ex)} (h : RowsUp R S) : Alongside Eq ((Loss.multinomial n).rawToProba R) ((Loss.multinomial n).rawToProba S) := by
  unfold Loss.rawToProba
  simp only [apply2d_ofMat]
  have key : ∀ (A B : List (List Ex)), RowsUp A B →
      Alongside (fun u v => List.Forall₂ (fun (p q : List Ex × Ex) => ∃ c : ℝ, q.1 = plusAll c p.1 ∧ q.2 = p.2 +ₚ (.fin c : Ex)) (A.zip u) (B.zip v))
        ((A.mapM fun a => a.mapM safeExp) >>= fun E => applyAxis2d (.ofMat E) (fun a => (.ok (pySum a) : Py Ex)) >>= fun sums => sums.mapM safeLog)
        ((B.mapM fun a => a.mapM safeExp) >>= fun E => applyAxis2d (.ofMat E) (fun a => (.ok (pySum a) : Py Ex)) >>= fun sums => sums.mapM safeLog) := by
    intro A B hAB
    have flat : ∀ M : List (List Ex), ((M.mapM fun a => a.mapM safeExp) >>= fun E => applyAxis2d (.ofMat E) (fun a => (.ok (pySum a) : Py Ex)) >>= fun sums => sums.mapM safeLog) =
        ((M.mapM fun a => a.mapM safeExp) >>= fun E => (E.map pySum).mapM safeLog) := by
      intro M
      congr 1
      funext E
      rw [applyAxis2d_ofMat]
      have : (E.mapM fun a => (.ok (pySum a) : Py Ex)) = .ok (E.map pySum) := mapM_ok_map fun _ _ => rfl
      rw [this]
      rfl
    rw [flat, flat]
    refine Alongside.bind (R := fun E E' => List.Forall₂ (fun (p q : List Ex × List Ex) => ∃ c : ℝ, q.1 = plusAll c p.1 ∧ q.2 = timesAll (Real.exp c) p.2) (A.zip E) (B.zip E') ∧ E.length = A.length ∧ E'.length = B.length) ?_ fun E E' hE => ?_
    · induction hAB with
      | nil => exact .done ⟨.nil, rfl, rfl⟩
      | @cons a b A B h _ ih =>
        obtain ⟨c, rfl⟩ := h
        rw [mapM_cons', mapM_cons']
        refine (exps_plus c a).bind fun u v e => ih.bind fun E E' hE => .done ⟨.cons ⟨c, rfl, e⟩ hE.1, by simp [hE.2.1], by simp [hE.2.2]⟩
    · obtain ⟨hz, hl, hl'⟩ := hE
      clear flat
      induction hAB generalizing E E' with
      | nil =>
        obtain rfl := List.length_eq_zero_iff.1 hl
        obtain rfl := List.length_eq_zero_iff.1 hl'
        exact .done .nil
      | @cons a b A B h _ ih =>
        cases E with
        | nil => simp at hl
        | cons u E =>
          cases E' with
          | nil => simp at hl'
          | cons v E' =>
            rw [List.zip_cons_cons, List.zip_cons_cons] at hz
            cases hz with
            | cons hab hz =>
              obtain ⟨c, h1, h2⟩ := hab
              simp only at h1 h2
              rw [List.map_cons, List.map_cons, mapM_cons', mapM_cons', h2, sum_times (Real.exp_pos c)]
              refine (log_times (Real.exp_pos c) (pySum u)).bind fun x y e => (ih E E' hz (by simpa using hl) (by simpa using hl')).bind fun s t hst => .done ?_
              rw [Real.log_exp] at e
              exact .cons ⟨c, h1, e⟩ hst
  have assoc : ∀ M : List (List Ex), (do
      let sums ← (do let E ← (M.mapM fun a => a.mapM safeExp); applyAxis2d (.ofMat E) (fun a => (.ok (pySum a) : Py Ex)))
      let lse ← sums.mapM safeLog
      (List.zip M lse).mapM fun p => (List.range n).mapM fun (i : Nat) => (do safeExp ((← pyGet p.1 (i : Int)) -ₚ p.2) : Py Ex)) =
      (((M.mapM fun a => a.mapM safeExp) >>= fun E => applyAxis2d (.ofMat E) (fun a => (.ok (pySum a) : Py Ex)) >>= fun sums => sums.mapM safeLog) >>= fun lse =>
        (List.zip M lse).mapM fun p => (List.range n).mapM fun (i : Nat) => (do safeExp ((← pyGet p.1 (i : Int)) -ₚ p.2) : Py Ex)) := by
    intro M
    simp only [bind_assoc]
  have hR := assoc R
  have hS := assoc S
  simp only [bind_assoc] at hR hS ⊢
  have := (key R S h).bind (S := Eq) (f := fun lse => (List.zip R lse).mapM fun p => (List.range n).mapM fun (i : Nat) => (do safeExp ((← pyGet p.1 (i : Int)) -ₚ p.2) : Py Ex))
    (g := fun lse => (List.zip S lse).mapM fun p => (List.range n).mapM fun (i : Nat) => (do safeExp ((← pyGet p.1 (i : Int)) -ₚ p.2) : Py Ex)) fun u v huv => by
      refine alongEq (.mapM huv fun p q ⟨c, h1, h2⟩ => alongEq (.mapM (forall₂_same (R := Eq) (fun _ => rfl) (List.range n)) fun i _ e => ?_))
      cases e
      rw [h1, h2]
      refine (pyGet_along (plus_forall₂ c p.1) (i : Int)).bind fun x y e => ?_
      rw [e, sub_plus]
      exact .same _
  simp only [bind_assoc] at this
  exact this

theorem stage_sum (lr : ℝ) (s c : ℝ) (a p : List Ex) : List.zipWith (fun a b => a +ₚ (b *ₚ (.fin lr : Ex))) (plusAll s a) (plusAll c p) =
    plusAll (s + c * lr) (List.zipWith (fun a b => a +ₚ (b *ₚ (.fin lr : Ex))) a p) := by
  induction a generalizing p with
  | nil => simp [plusAll]
  | cons x a ih =>
    cases p with
    | nil => simp [plusAll]
    | cons y p =>
      have := ih p
      simp only [plusAll, List.map_cons, List.zipWith_cons_cons] at this ⊢
      rw [this, plus_times, plus_last, plus_inner, plus_plus]

theorem rawColumn_plus {g g' : GB Ex (PVal Ex)} {lr : ℝ} (h1 : g.learningRate = .fin lr) (h2 : g'.learningRate = .fin lr) (X : Arr Ex)
    {sts sts' : List (List (Arr Ex → Py (List Ex)))}
    (h : List.Forall₂ (fun st st' => ∃ c : ℝ, List.Forall₂ (fun f f' => Alongside (fun p q => q = plusAll c p) (f X) (f' X)) st st') sts sts') :
    ∃ d : ℝ, ∀ (k : Nat) (s : ℝ) (col : List Ex), Alongside (fun a b => b = plusAll (s + d) a) (g.rawColumn X k sts col) (g'.rawColumn X k sts' (plusAll s col)) := by
  induction h with
  | nil => exact ⟨0, fun k s col => .done (by simp)⟩
  | @cons st st' sts sts' hst _ ih =>
    obtain ⟨c, hc⟩ := hst
    obtain ⟨d, hd⟩ := ih
    refine ⟨c * lr + d, fun k s col => ?_⟩
    rw [rawColumn_fold, rawColumn_fold, foldlM_cons', foldlM_cons']
    refine Alongside.bind (R := fun a b => b = plusAll (s + c * lr) a) ?_ fun a b hab => ?_
    · unfold stageOn
      refine (pyGet_along hc (k : Int)).bind fun f f' hf => hf.bind fun p q e => ?_
      rw [e]
      have hlen : p.length = (plusAll c p).length := (length_plus c p).symm
      rw [h1, h2, length_plus]
      rw [column_zip, show p.length = (plusAll c p).length from hlen, column_zip, stage_sum]
      simp only [length_plus]
      split
      · exact .done rfl
      · exact .fail
    · rw [hab, ← rawColumn_fold, ← rawColumn_fold]
      have := hd k (s + c * lr) a
      rwa [add_assoc] at this

theorem stages_for {stages stages' : List (List (Methods Ex))} (cs : List (PVal Ex)) (init : Methods Ex) (n : Nat) (lr : ℝ) (nf : Nat)
    (h : List.Forall₂ (fun st st' => ∃ c : ℝ, List.Forall₂ (fun (m m' : Methods Ex) => ∀ X, Alongside (fun p q => q = plusAll c p) (m.runNumbers X) (m'.runNumbers X)) st st') stages stages') :
    AgreeFor P (boostingEst cs stages init (.multinomial n) (.fin lr) nf) (boostingEst cs stages' init (.multinomial n) (.fin lr) nf) := by
  unfold boostingEst
  generalize hg : (⟨cs, stages.map fun st => st.map fun m => m.runNumbers, init.runProba, .fin lr, nf, .multinomial n⟩ : GB Ex (PVal Ex)) = g
  generalize hg' : (⟨cs, stages'.map fun st => st.map fun m => m.runNumbers, init.runProba, .fin lr, nf, .multinomial n⟩ : GB Ex (PVal Ex)) = g'
  have hF : ∀ X, List.Forall₂ (fun st st' => ∃ c : ℝ, List.Forall₂ (fun f f' => Alongside (fun p q => q = plusAll c p) (f X) (f' X)) st st') g.estimators g'.estimators := by
    intro X
    subst hg hg'
    exact moved_map h fun st st' ⟨c, hc⟩ => ⟨c, moved_map hc fun m m' hm => hm X⟩
  have e0 : g'.classes = g.classes := by subst hg hg'; rfl
  have e1 : g.loss = .multinomial n := by subst hg; rfl
  have e1' : g'.loss = .multinomial n := by subst hg'; rfl
  have e2 : g.learningRate = .fin lr := by subst hg; rfl
  have e2' : g'.learningRate = .fin lr := by subst hg'; rfl
  have e3 : g'.rawPredictInit = g.rawPredictInit := by subst hg hg'; rfl
  refine gb_for e0 fun X _ => ?_
  unfold GB.predictProba
  rw [e1, e1']
  refine Alongside.bind (R := RowsUp) ?_ fun R S hRS => multinomial_up n hRS
  unfold GB.rawPredict
  rw [e3]
  obtain ⟨d, hd⟩ := rawColumn_plus e2 e2' X (hF X)
  refine .after _ fun I _ => (pyGet_along (hF X) 0).bind fun st st' ⟨c, hst⟩ => ?_
  rw [hst.length_eq]
  refine Alongside.bind (R := List.Forall₂ (List.Forall₂ fun a b => b = a +ₚ (.fin d : Ex))) ?_ fun A B hAB => ?_
  · refine .mapM (forall₂_same (R := Eq) (fun _ => rfl) _) fun k _ e => ?_
    cases e
    refine .after _ fun len _ => ?_
    have := hd k 0 (List.replicate len (ofInt 0))
    rw [plusAll_zero, zero_add] at this
    exact this.mono fun a b e => by rw [e]; exact plus_forall₂ d a
  · rw [transpose_ofMat, transpose_ofMat]
    have := (operate2d_alike (V := Eq) (U := fun a b => b = a +ₚ (.fin d : Ex)) (T := fun a b => b = a +ₚ (.fin d : Ex)) (f := Arith.add) (g := Arith.add)
      (fun a b e c c' e' => by rw [← e, e', plus_last]) (forall₂_same (fun r => forall₂_same (fun _ => rfl) r) I) (zipStar_alike hAB)).along
    exact this.mono fun R S h => h.imp fun a b h => ⟨d, forall₂_plus h⟩

theorem runProba_for {e e' : Methods F} (h : AgreeFor R e e') (X : Arr F) (hX : R (.arr X)) : Alongside Eq (e.runProba X) (e'.runProba X) := by
  unfold Est.runProba
  cases he : e.predictProba with
  | none => rw [h.2.2.1.2 he]; exact .fail
  | some q =>
    obtain ⟨q', hq', hX'⟩ := h.2.2.1.1 q he
    rw [hq']
    exact hX' _ hX

theorem checked_same {X Y : Arr F} {s : HandleSparse} (hc : checkArray X s = .ok Y) {w : Option Nat} (hw : Y.width = .ok w) : Y = X := by
  cases X with
  | list l =>
    unfold checkArray at hc
    simp only at hc
    split at hc
    · cases hc; cases hw
    · cases hc; rfl
  | sparse l n d =>
    cases s
    · cases hc; rfl
    · cases hc
    · cases hc
  | errObj => cases hc
  | other => cases hc

theorem start_for {init init' : Methods F} (h : AgreeFor R init init') (cs : List (PVal F)) (stages : List (List (Methods F))) (l : Loss) (lr : F) (nf : Nat) :
    AgreeFor R (boostingEst cs stages init l lr nf) (boostingEst cs stages init' l lr nf) := by
  unfold boostingEst
  refine gb_for rfl fun X hX => ?_
  unfold GB.predictProba
  refine Alongside.next ?_ _
  unfold GB.rawPredict
  refine Alongside.bind (R := Eq) ?_ fun I J e => ?_
  rotate_left
  · cases e
    simp only [rawColumn_fold]
    exact .same _
  unfold GB.rawPredictInit
  refine .after _ fun Y hY => .after _ fun wd hw => ?_
  obtain rfl := checked_same hY hw
  cases wd with
  | none => exact .fail
  | some w =>
    simp only
    split
    · exact .fail
    · exact (runProba_for h Y hX).next _

/-! ### Ensembles -/

theorem slice_columns {X Y : Arr F} {cols : List Int} (h : featSlice X (some cols) = .ok Y) : TakesColumns cols X Y := by
  unfold featSlice at h
  obtain ⟨rs, hr, h⟩ := bind_ok_iff.1 h
  obtain ⟨M, hM, h⟩ := bind_ok_iff.1 h
  cases h
  refine ⟨rs, M, hr, rfl, ?_⟩
  have := mapM_ok_iff.1 hM
  exact this.imp fun r r' h => mapM_ok_iff.1 h

theorem ensemble_within {Q : Data F → Prop} (fs : Option (List (List Int))) (h1 : fs = none → ∀ X, Q (.arr X) → R (.arr X))
    (h2 : ∀ l, fs = some l → ∀ cols ∈ l, ∀ X Y, Q (.arr X) → TakesColumns cols X Y → R (.arr Y)) {es es' : List (Methods F)} (h : List.Forall₂ (AgreeFor R) es es')
    (cs : List (PVal F)) : AgreeFor Q (ensembleEst fs cs es) (ensembleEst fs cs es') := by
  unfold ensembleEst
  generalize hb : (⟨fs, cs, es.map fun m => ⟨m.runProba⟩⟩ : Bagging F (PVal F)) = b
  generalize hb' : (⟨fs, cs, es'.map fun m => ⟨m.runProba⟩⟩ : Bagging F (PVal F)) = b'
  have hn : b'.estimators.length = b.estimators.length := by subst hb hb'; simp [h.length_eq]
  have hc : b'.classes = b.classes := by subst hb hb'; rfl
  have hpp : ∀ X, Q (.arr X) → Alongside Eq (b.predictProba X) (b'.predictProba X) := by
    intro X hX
    rw [predictProba_pile, predictProba_pile, hn]
    refine Alongside.next (pile_along _ ?_) _
    refine moved_map (forall₂_same (R := Eq) (fun _ => rfl) _) fun i _ e => ?_
    cases e
    unfold Bagging.memberProba
    refine Alongside.bind (R := fun m m' => ∀ X, R (.arr X) → Alongside Eq (m.predictProba X) (m'.predictProba X)) ?_ fun m m' hmm => ?_
    · subst hb hb'
      exact pyGet_along (moved_map h fun e e' he => by exact runProba_for he) _
    · have : b'.getFeats = b.getFeats := by subst hb hb'; rfl
      rw [this]
      refine .after _ fun feats hf => .after _ fun Y hY => hmm Y ?_
      have hfs : b.features = fs := by subst hb; rfl
      unfold Bagging.getFeats at hf
      rw [hfs] at hf
      cases hfs : fs with
      | none =>
        rw [hfs] at hf
        cases hf
        cases hY
        exact h1 hfs X hX
      | some l =>
        rw [hfs] at hf
        obtain ⟨cols, hc, hf⟩ := bind_ok_iff.1 hf
        cases hf
        exact h2 l hfs cols (pyGet_ok_mem hc) X Y hX (slice_columns hY)
  refine classifier_for (fun X hX => ?_) hpp fun X hX => (hpp X hX).next _
  unfold Bagging.predict
  rw [hc]
  exact (hpp X hX).next _

theorem ensemble_for (hP : ∀ cols X Y, R (.arr X) → TakesColumns cols X Y → R (.arr Y)) {es es' : List (Methods F)} (h : List.Forall₂ (AgreeFor R) es es')
    (fs : Option (List (List Int))) (cs : List (PVal F)) : AgreeFor R (ensembleEst fs cs es) (ensembleEst fs cs es') :=
  ensemble_within fs (fun _ _ h => h) (fun _ _ cols _ X Y hX hY => hP cols X Y hX hY) h cs

/-! ### Pipelines -/

theorem reaches_of {steps : List (String × SkObj (Attrs F) (PVal F) F)} {es : List (Methods F)} (h : List.Forall₂ (Behaves lib encode) (steps.map Prod.snd) es) {X Y : Data F}
    (hY : Pipeline.applyAll (((steps.map Prod.fst).zip es).map fun s => (s.1, some s.2)) X = .ok Y) : Reaches lib encode steps X Y := by
  induction steps generalizing es X with
  | nil =>
    cases h
    cases hY
    exact .here
  | cons s steps ih =>
    obtain ⟨n, o⟩ := s
    cases h with
    | @cons _ e _ es hb h =>
      simp only [List.map_cons, List.zip_cons_cons, Pipeline.applyAll] at hY
      cases ht : e.transform with
      | none => rw [ht] at hY; cases hY
      | some t =>
        rw [ht] at hY
        obtain ⟨Z, hZ, hY⟩ := bind_ok_iff.1 hY
        exact .step hb ht hZ (ih h hY)

theorem applyAll_last_for {e e' : Methods F} (h : AgreeFor R e e') (l : List (String × Option (Methods F))) (n : String) (X : Data F)
    (hX : ∀ Y, Pipeline.applyAll l X = .ok Y → R Y) : Alongside Eq (Pipeline.applyAll (l ++ [(n, some e)]) X) (Pipeline.applyAll (l ++ [(n, some e')]) X) := by
  induction l generalizing X with
  | nil =>
    simp only [List.nil_append, Pipeline.applyAll]
    cases he : e.transform with
    | none => rw [h.1.2 he]; exact .fail
    | some t =>
      obtain ⟨u, hu, hX'⟩ := h.1.1 t he
      rw [hu]
      exact (hX' X (hX X rfl)).next _
  | cons s l ih =>
    obtain ⟨k, s⟩ := s
    cases s with
    | none => exact ih X hX
    | some s =>
      simp only [List.cons_append, Pipeline.applyAll] at hX ⊢
      cases ht : s.transform with
      | none => exact .fail
      | some t =>
        refine .after _ fun Y hY => ih Y fun Z hZ => hX Z ?_
        rw [ht]
        simp only [hY, py_ok_bind]
        exact hZ

theorem pipe_for {e e' : Methods F} (h : AgreeFor R e e') (l : List (String × Methods F)) (n : String) :
    AgreeFor (fun X => ∀ Y, Pipeline.applyAll (l.map fun s => (s.1, some s.2)) X = .ok Y → R Y) (pipelineEst (l ++ [(n, e)])) (pipelineEst (l ++ [(n, e')])) := by
  have shape : ∀ x : Methods F, pipelineEst (l ++ [(n, x)]) = Pipeline.asEst ⟨(l.map fun s => (s.1, some s.2)) ++ [(n, some x)]⟩ :=
    fun x => by simp [pipelineEst]
  have fr : ∀ x : Methods F, (⟨(l.map fun s => (s.1, some s.2)) ++ [(n, some x)]⟩ : Pipeline (Data F) (List (PVal F)) (List (List F))).front =
      l.map fun s => (s.1, some s.2) := fun x => by simp [Pipeline.front]
  have fin : ∀ x : Methods F, (⟨(l.map fun s => (s.1, some s.2)) ++ [(n, some x)]⟩ : Pipeline (Data F) (List (PVal F)) (List (List F))).finalEstimator =
      .ok (some x) := fun x => by simp [Pipeline.finalEstimator]
  rw [shape, shape]
  refine ⟨?_, ?_, ?_, ?_⟩
  · simp only [Pipeline.asEst, fin]
    cases he : e.transform with
    | none =>
      rw [h.1.2 he]
      exact sameOn_none
    | some q =>
      obtain ⟨q', hq', hr⟩ := h.1.1 q he
      rw [hq']
      refine sameOn_some fun X hX => ?_
      simp only [Pipeline.transform, fin, py_ok_bind, he, hq', Option.isNone_some, Bool.false_eq_true, if_false]
      exact applyAll_last_for h _ n X hX
  · simp only [Pipeline.asEst, delegated_last]
    cases he : e.predict with
    | none =>
      rw [h.2.1.2 he]
      exact sameOn_none
    | some q =>
      obtain ⟨q', hq', hr⟩ := h.2.1.1 q he
      rw [hq']
      refine sameOn_some fun X hX => ?_
      simp only [Pipeline.predict, delegated_last, fr, he, hq', py_ok_bind]
      exact .after _ fun Y hY => hr Y (hX Y hY)
  · simp only [Pipeline.asEst, delegated_last]
    cases he : e.predictProba with
    | none =>
      rw [h.2.2.1.2 he]
      exact sameOn_none
    | some q =>
      obtain ⟨q', hq', hr⟩ := h.2.2.1.1 q he
      rw [hq']
      refine sameOn_some fun X hX => ?_
      simp only [Pipeline.predictProba, delegated_last, fr, he, hq', py_ok_bind]
      exact .after _ fun Y hY => hr Y (hX Y hY)
  · simp only [Pipeline.asEst, delegated_last]
    cases he : e.predictLogProba with
    | none =>
      rw [h.2.2.2.2 he]
      exact sameOn_none
    | some q =>
      obtain ⟨q', hq', hr⟩ := h.2.2.2.1 q he
      rw [hq']
      refine sameOn_some fun X hX => ?_
      simp only [Pipeline.predictLogProba, delegated_last, fr, he, hq', py_ok_bind]
      exact .after _ fun Y hY => hr Y (hX Y hY)

/-! ### Whole objects -/

theorem raised_stage {c : ℝ} {st st' : List (SkObj (Attrs Ex) (PVal Ex) Ex)} (h : List.Forall₂ (Raised c) st st') {es : List (Methods Ex)}
    (he : List.Forall₂ (Behaves lib encode) st es) :
    ∃ es', List.Forall₂ (Behaves lib encode) st' es' ∧ List.Forall₂ (fun (m m' : Methods Ex) => ∀ X, Alongside (fun p q => q = plusAll c p) (m.runNumbers X) (m'.runNumbers X)) es es' := by
  induction h generalizing es with
  | nil => cases he; exact ⟨[], .nil, .nil⟩
  | cons h _ ih =>
    cases he with
    | cons hb he =>
      obtain ⟨es', h1, h2⟩ := ih he
      cases h with
      | @mk n v a a' t hl hl' =>
        obtain ⟨rfl, hv⟩ := leaf_behaves hl hb
        refine ⟨_ :: es', .cons (.single hv hl') h1, .cons (fun X => ?_) h2⟩
        rw [regressor_numbers, regressor_numbers]
        exact reg_plus c t X

theorem raised_stages {stages stages' : List (List (SkObj (Attrs Ex) (PVal Ex) Ex))} (h : List.Forall₂ (fun st st' => ∃ c : ℝ, List.Forall₂ (Raised c) st st') stages stages')
    {es : List (List (Methods Ex))} (he : List.Forall₂ (List.Forall₂ (Behaves lib encode)) stages es) :
    ∃ es', List.Forall₂ (List.Forall₂ (Behaves lib encode)) stages' es' ∧
      List.Forall₂ (fun st st' => ∃ c : ℝ, List.Forall₂ (fun (m m' : Methods Ex) => ∀ X, Alongside (fun p q => q = plusAll c p) (m.runNumbers X) (m'.runNumbers X)) st st') es es' := by
  induction h generalizing es with
  | nil => cases he; exact ⟨[], .nil, .nil⟩
  | cons h _ ih =>
    cases he with
    | cons hb he =>
      obtain ⟨es', h1, h2⟩ := ih he
      obtain ⟨c, hc⟩ := h
      obtain ⟨st', h3, h4⟩ := raised_stage hc hb
      exact ⟨st' :: es', .cons h3 h1, .cons ⟨c, h4⟩ h2⟩

theorem behaves_cancelled {o o' : SkObj (Attrs Ex) (PVal Ex) Ex} (h : Cancelled lib encode P o o') {f : Methods Ex} (hb : Behaves lib encode o f) :
    ∃ f', Behaves lib encode o' f' ∧ AgreeFor P f f' := by
  induction h generalizing f with
  | same => exact ⟨f, hb, agreeFor_refl f⟩
  | trans _ _ ih1 ih2 =>
    obtain ⟨g, h1, h2⟩ := ih1 hb
    obtain ⟨k, h3, h4⟩ := ih2 h1
    exact ⟨k, h3, agreeFor_trans h2 h4⟩
  | fewer _ hQ ih =>
    obtain ⟨g, h1, h2⟩ := ih hb
    exact ⟨g, h1, agreeFor_fewer hQ h2⟩
  | rescaled h1 h2 hs =>
    obtain ⟨rfl, hv⟩ := leaf_behaves h1 hb
    exact ⟨_, .single hv h2, rescaled_agree hs⟩
  | offset h1 h2 hs =>
    obtain ⟨rfl, hv⟩ := leaf_behaves h1 hb
    exact ⟨_, .single hv h2, offset_agree hs⟩
  | @stages v cs stages stages' init nf rate hc hs =>
    cases hb with
    | @boosting _ _ _ _ _ lr nf' l es e hv hpl he h0 hl =>
      obtain ⟨es', h1, h2⟩ := raised_stages hs he
      refine ⟨_, .boosting hv hpl h1 h0 hl, ?_⟩
      have : l = .multinomial cs.length := by
        unfold lossOf at hl
        rw [if_pos ⟨rfl, hc⟩] at hl
        exact (Option.some.inj hl).symm
      subst this
      exact stages_for cs e _ rate nf' h2
  | @inPipeline P v steps n o o' _ ih =>
    cases hb with
    | @pipeline _ _ es hv he =>
      rw [List.map_append] at he
      obtain ⟨zs, z, rfl, g1, g2⟩ := forall₂_snoc he
      obtain ⟨z', h1, h2⟩ := ih g2
      refine ⟨_, .pipeline (es := zs ++ [z']) hv ?_, ?_⟩
      · rw [List.map_append]
        exact forall₂_append_one g1 h1
      · have hl : (steps.map Prod.fst).length = zs.length := by rw [← g1.length_eq]; simp
        have e : ∀ x : SkObj (Attrs Ex) (PVal Ex) Ex, ∀ y : Methods Ex, ((steps ++ [(n, x)]).map Prod.fst).zip (zs ++ [y]) = (steps.map Prod.fst).zip zs ++ [(n, y)] := by
          intro x y
          rw [List.map_append, List.zip_append hl]
          rfl
        rw [e, e]
        exact agreeFor_fewer (fun X hX Y hY => hX Y (reaches_of g1 hY)) (pipe_for h2 _ n)
  | @inEnsemble P k v fs cs ms ms' hP hlen _ ih =>
    cases hb with
    | @ensemble _ _ _ _ _ es hv hpl he =>
      obtain ⟨es', h1, h2⟩ := behaves_both he hlen fun p hp f hf => ih p hp hf
      exact ⟨_, .ensemble hv hpl h1, ensemble_for hP h2 _ _⟩
  | @inStart P v cs stages init init' loss args _ ih =>
    cases hb with
    | @boosting _ _ _ _ _ lr nf l es e hv hpl he h0 hl =>
      obtain ⟨e', h1, h2⟩ := ih h0
      exact ⟨_, .boosting hv hpl he h1 hl, start_for h2 _ _ _ _ _⟩

end PurePredict.Gauge
