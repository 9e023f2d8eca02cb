import Verif.Lemmas.SameMatrixObject
import Verif.Props.C96
/-
C97: dense and sparse requests get the same answers.
-/
namespace PurePredict
open Spec
variable {fp : FP} {g : Regime} {lib : String → TextLib} {encode : Str → List Nat}

theorem alike_check {A : Asked} {X Y : Data (XR fp)} (h : Alike g A X Y) :
    ∃ n, 0 < n ∧ X.check = .ok X ∧ Y.check = .ok Y ∧ X.len = .ok n ∧ Y.len = .ok n := by
  cases h with
  | @matrix P Q w M h1 h2 =>
    obtain ⟨a1, a2⟩ := h1.check
    obtain ⟨b1, b2⟩ := h2.check
    refine ⟨M.length, List.length_pos_of_ne_nil h1.rect.1, ?_, ?_, a2, b2⟩
    · simp only [Data.check, a1, py_ok_bind, py_pure]
    · simp only [Data.check, b1, py_ok_bind, py_pure]
  | @records xs h1 _ =>
    have : xs.isEmpty = false := by simpa using h1
    refine ⟨xs.length, List.length_pos_of_ne_nil h1, ?_, ?_, rfl, rfl⟩ <;> simp [Data.check, this]
  | @table xs w h1 h2 =>
    refine ⟨xs.length, List.length_pos_of_ne_nil h1, ?_, ?_, len_ofMat _, len_ofMat _⟩ <;>
      simp only [Data.check, checkArray_ofMat h1, py_ok_bind, py_pure]

/-- Methods of the two converted objects. -/
def Even' (g : Regime) (A : Asked) (r : Option Nat) (f f' : Methods (XR fp)) : Prop :=
  match r with
  | some w => SameTransform g A w f.transform f'.transform
  | none => SameAnswers g A f.predict f'.predict ∧ SameAnswers g A f.predictProba f'.predictProba ∧
      SameAnswers g A f.predictLogProba f'.predictLogProba

/-! ### Single estimators -/

theorem same_of_maps {w w' : Nat} {t : Arr (XR fp) → Py (Arr (XR fp))} (h : Maps g w w' t) :
    SameTransform g (.matrix w) w' (transformer (Data.onArr t)).transform (transformer (Data.onArr t)).transform := by
  refine ⟨_, _, rfl, rfl, fun X Y hXY => ?_⟩
  cases hXY with
  | @matrix P Q w M h1 h2 =>
    obtain ⟨P', Q', M', e1, e2, e3, e4, e5⟩ := h P Q M h1 h2
    show Meet _ (t P >>= fun A => .ok (Data.arr A)) (t Q >>= fun A => .ok (Data.arr A))
    rw [e1, e2]
    exact ⟨P', Q', M', rfl, rfl, e3, e4, by rw [e5]; exact h1.check.2⟩

theorem same_of_twin {A : Asked} {w : Nat} {t t' : Data (XR fp) → Py (Arr (XR fp))}
    (h : ∀ X Y, Alike g A X Y → ∃ n, X.len = .ok n ∧ Twin g w n (t X) (t' Y)) :
    SameTransform g A w (transformer t).transform (transformer t').transform := by
  refine ⟨_, _, rfl, rfl, fun X Y hXY => ?_⟩
  obtain ⟨n, hn, h⟩ := h X Y hXY
  show Meet _ (t X >>= fun A => .ok (Data.arr A)) (t' Y >>= fun A => .ok (Data.arr A))
  refine h.bind fun P Q hPQ => ?_
  obtain ⟨M, h1, h2, h3⟩ := hPQ
  exact ⟨P, Q, M, rfl, rfl, h1, h2, by rw [hn, h3]⟩

theorem evenStep_same (hg : g.Holds fp) {s : Single (XR fp)} {w w' : Nat} (h : EvenStep g s w w') :
    SameTransform g (.matrix w) w' (s.est lib encode).transform (s.est lib encode).transform := by
  cases h with
  | standard h1 h2 h3 => exact same_of_maps (StandardScaler.maps hg h1 h2 h3)
  | unscaled h1 h2 h3 => exact same_of_maps (StandardScaler.maps_unscaled h1 h2 h3)
  | maxAbs h => exact same_of_maps (MaxAbsScaler.maps hg h)
  | normalizer h hn =>
    subst h
    obtain rfl : fp = FP.exact := hg
    exact same_of_maps (normalizer_maps hn)

theorem sameAnswers_of {R : Type} {w : Nat} {p : Arr (XR fp) → Py R} (h : ∀ A M, Shows g A w M → p A = p (.ofMat M)) :
    SameAnswers g (.matrix w) (some (Data.onArr p)) (some (Data.onArr p)) := by
  intro X Y hXY
  cases hXY with
  | @matrix P Q w M h1 h2 =>
    show p P = p Q
    rw [h P M h1, h Q M h2]

theorem evenFit_same (hg : g.Holds fp) {s : Single (XR fp)} {w : Nat} (h : EvenFit s w) :
    Even' g (.matrix w) none (s.est lib encode) (s.est lib encode) := by
  cases h with
  | @linear kind m w h =>
    have hs : ∀ A M, Shows g A w M → m.SameOutputs A (.ofMat M) := fun A M hA => Linear.same hg h hA
    have hpred : SameAnswers g (.matrix w) (some (Data.onArr m.predict)) (some (Data.onArr m.predict)) :=
      sameAnswers_of fun A M hA => (hs A M hA).2.1
    cases kind with
    | logistic =>
      exact ⟨hpred, sameAnswers_of fun A M hA => (hs A M hA).2.2.2.1, sameAnswers_of fun A M hA => (hs A M hA).2.2.2.2.1⟩
    | plain => exact ⟨hpred, trivial, trivial⟩
    | sgd =>
      show Even' g _ none (match m.checkProba with
        | .ok _ => classifier m.predict m.sgdPredictProba m.sgdPredictLogProba
        | .error _ => predictor m.predict) (match m.checkProba with
        | .ok _ => classifier m.predict m.sgdPredictProba m.sgdPredictLogProba
        | .error _ => predictor m.predict)
      cases m.checkProba with
      | error e => exact ⟨hpred, trivial, trivial⟩
      | ok u =>
        exact ⟨hpred, sameAnswers_of fun A M hA => (hs A M hA).2.2.2.2.2.1, sameAnswers_of fun A M hA => (hs A M hA).2.2.2.2.2.2⟩
  | @treeClassifier t w h =>
    exact ⟨sameAnswers_of fun A M hA => (Tree.same hg h hA).1, sameAnswers_of fun A M hA => (Tree.same hg h hA).2.1,
      sameAnswers_of fun A M hA => (Tree.same hg h hA).2.2.1⟩
  | @treeRegressor t w h =>
    refine ⟨sameAnswers_of fun A M hA => ?_, trivial, trivial⟩
    rw [(Tree.same hg h hA).2.2.2]
  | @dummy d w =>
    refine ⟨sameAnswers_of fun A M hA => ?_, sameAnswers_of fun A M hA => (Dummy.same hA).2.1,
      sameAnswers_of fun A M hA => (Dummy.same hA).2.2⟩
    rw [(Dummy.same hA).1]

/-! ### Pipelines -/

theorem sameAnswers_pipe {R : Type} {A : Asked} {w : Nat} {t t' : Data (XR fp) → Py (Data (XR fp))}
    (ht : SameTransform g A w (some t) (some t')) {p p' : Option (Data (XR fp) → Py R)} (h : SameAnswers g (.matrix w) p p') :
    SameAnswers g A (p.map fun u X => t X >>= u) (p'.map fun u X => t' X >>= u) := by
  obtain ⟨u, u', hu, hu', ht⟩ := ht
  cases hu
  cases hu'
  cases p with
  | none =>
    cases p' with
    | none => trivial
    | some p' => exact h.elim
  | some p =>
    cases p' with
    | none => exact h.elim
    | some p' =>
      intro X Y hXY
      refine (ht X Y hXY).bind_eq fun a b hab => ?_
      obtain ⟨P, Q, M, rfl, rfl, h1, h2, -⟩ := hab
      exact h _ _ (.matrix h1 h2)

theorem even_pipeline (n n' : String) {A : Asked} {w : Nat} {r : Option Nat} {e e' : Methods (XR fp)} {s s' : String × Methods (XR fp)}
    {ss ss' : List (String × Methods (XR fp))} (h1 : SameTransform g A w e.transform e'.transform)
    (h2 : Even' g (.matrix w) r (pipelineEst (s :: ss)) (pipelineEst (s' :: ss'))) :
    Even' g A r (pipelineEst ((n, e) :: s :: ss)) (pipelineEst ((n', e') :: s' :: ss')) := by
  obtain ⟨t, t', ht, ht', h1⟩ := h1
  obtain ⟨a1, a2, a3, a4⟩ := pipeline_cons n ht s ss
  obtain ⟨b1, b2, b3, b4⟩ := pipeline_cons n' ht' s' ss'
  have h1' : SameTransform g A w (some t) (some t') := ⟨t, t', rfl, rfl, h1⟩
  cases r with
  | none =>
    obtain ⟨c1, c2, c3⟩ := h2
    refine ⟨?_, ?_, ?_⟩
    · rw [a2, b2]; exact sameAnswers_pipe h1' c1
    · rw [a3, b3]; exact sameAnswers_pipe h1' c2
    · rw [a4, b4]; exact sameAnswers_pipe h1' c3
  | some w' =>
    obtain ⟨u, u', hu, hu', h2⟩ := h2
    refine ⟨fun X => t X >>= u, fun X => t' X >>= u', by rw [a1, hu]; rfl, by rw [b1, hu']; rfl, fun X Y hXY => ?_⟩
    refine (h1 X Y hXY).bind fun a b hab => ?_
    obtain ⟨P, Q, M, rfl, rfl, e1, e2, e3⟩ := hab
    refine (h2 _ _ (.matrix e1 e2)).of_eq fun a b _ _ hab => ?_
    obtain ⟨P', Q', M', rfl, rfl, d1, d2, d3⟩ := hab
    refine ⟨P', Q', M', rfl, rfl, d1, d2, ?_⟩
    have := e1.check.2.symm.trans d3
    rw [e3, Except.ok.inj this]

theorem bind_ok_self {α : Type} (x : Py α) : (x >>= fun r => .ok r) = x := by cases x <;> rfl

/-! ### Unions -/

theorem union_steps {A : Asked} (ws : Option (List (String × XR fp)))
    (steps : List (String × SkObj (Attrs (XR fp)) (PVal (XR fp)) (XR fp) × SkObj (Attrs (XR fp)) (PVal (XR fp)) (XR fp) × Nat))
    (hw : ∀ s ∈ steps, weightOf ws s.1 = none ∧ 0 < s.2.2.2) {es es' : List (Methods (XR fp))}
    (he : List.Forall₂ (Behaves lib encode) ((steps.map fun s => (s.1, s.2.1)).map Prod.snd) es)
    (he' : List.Forall₂ (Behaves lib encode) ((steps.map fun s => (s.1, s.2.2.1)).map Prod.snd) es')
    (H : ∀ s ∈ steps, ∀ f f', Behaves lib encode s.2.1 f → Behaves lib encode s.2.2.1 f' →
      SameTransform g A s.2.2.2 f.transform f'.transform)
    {X Y : Data (XR fp)} (hXY : Alike g A X Y) {n : Nat} (hn : X.len = .ok n) :
    Meet (fun Xs Ys => ∃ bs : List (Nat × List (List (XR fp))), bs.map Prod.fst = steps.map (fun s => s.2.2.2) ∧
        List.Forall₂ (fun P b => Shows g P b.1 b.2 ∧ b.2.length = n ∧ 0 < b.1) Xs bs ∧
        List.Forall₂ (fun P b => Shows g P b.1 b.2 ∧ b.2.length = n ∧ 0 < b.1) Ys bs)
      ((((steps.map fun s => (s.1, s.2.1)).map Prod.fst).zip es).mapM fun s => transformOne s.2.runTransform X (weightOf ws s.1))
      ((((steps.map fun s => (s.1, s.2.2.1)).map Prod.fst).zip es').mapM fun s => transformOne s.2.runTransform Y (weightOf ws s.1)) := by
  induction steps generalizing es es' with
  | nil =>
    cases he
    cases he'
    exact ⟨[], rfl, .nil, .nil⟩
  | cons s steps ih =>
    simp only [List.map_cons] at he he'
    cases he with
    | @cons _ e _ es h1 he =>
      cases he' with
      | @cons _ e' _ es' h1' he' =>
        simp only [List.map_cons, List.zip_cons_cons, mapM_cons']
        obtain ⟨t, t', ht, ht', hs⟩ := H s (by simp) e e' h1 h1'
        have hw0 := hw s (by simp)
        have hT : transformOne e.runTransform X (weightOf ws s.1) = t X >>= Data.asArr := by
          rw [hw0.1]
          show (e.runTransform X >>= fun r => .ok r) = _
          rw [bind_ok_self]
          unfold Est.runTransform
          rw [ht]
        have hT' : transformOne e'.runTransform Y (weightOf ws s.1) = t' Y >>= Data.asArr := by
          rw [hw0.1]
          show (e'.runTransform Y >>= fun r => .ok r) = _
          rw [bind_ok_self]
          unfold Est.runTransform
          rw [ht']
        rw [hT, hT']
        have step : Twin g s.2.2.2 n (t X >>= Data.asArr) (t' Y >>= Data.asArr) := by
          refine (hs X Y hXY).bind fun a b hab => ?_
          obtain ⟨P, Q, M, rfl, rfl, d1, d2, d3⟩ := hab
          exact ⟨M, d1, d2, Except.ok.inj (d3.symm.trans hn)⟩
        refine step.bind fun P Q hPQ => ?_
        obtain ⟨M, d1, d2, d3⟩ := hPQ
        refine (ih (fun s hs => hw s (by simp [hs])) he he' fun s hs => H s (by simp [hs])).bind fun Xs Ys hs => ?_
        obtain ⟨bs, e1, e2, e3⟩ := hs
        exact ⟨(s.2.2.2, M) :: bs, by simp [e1], .cons ⟨d1, d3, hw0.2⟩ e2, .cons ⟨d2, d3, hw0.2⟩ e3⟩

theorem even_union (hg : g.Holds fp) {A : Asked} (ws : Option (List (String × XR fp)))
    {steps : List (String × SkObj (Attrs (XR fp)) (PVal (XR fp)) (XR fp) × SkObj (Attrs (XR fp)) (PVal (XR fp)) (XR fp) × Nat)}
    (hne : steps ≠ []) (hw : ∀ s ∈ steps, weightOf ws s.1 = none ∧ 0 < s.2.2.2) {es es' : List (Methods (XR fp))}
    (he : List.Forall₂ (Behaves lib encode) ((steps.map fun s => (s.1, s.2.1)).map Prod.snd) es)
    (he' : List.Forall₂ (Behaves lib encode) ((steps.map fun s => (s.1, s.2.2.1)).map Prod.snd) es')
    (H : ∀ s ∈ steps, ∀ f f', Behaves lib encode s.2.1 f → Behaves lib encode s.2.2.1 f' →
      SameTransform g A s.2.2.2 f.transform f'.transform) :
    SameTransform g A (steps.map fun s => s.2.2.2).sum
      (unionEst (((steps.map fun s => (s.1, s.2.1)).map Prod.fst).zip es) ws).transform
      (unionEst (((steps.map fun s => (s.1, s.2.2.1)).map Prod.fst).zip es') ws).transform := by
  refine same_of_twin fun X Y hXY => ?_
  obtain ⟨n, hpos, c1, c2, l1, l2⟩ := alike_check hXY
  refine ⟨n, l1, ?_⟩
  simp only [c1, c2, py_ok_bind, l1, l2]
  refine (union_steps ws steps hw he he' H hXY l1).bind fun Xs Ys hs => ?_
  obtain ⟨bs, e1, e2, e3⟩ := hs
  have hbs : bs ≠ [] := by
    rintro rfl
    exact hne (by simpa using e1.symm)
  obtain ⟨P, h1, h2⟩ := unionOf_shows hg hpos X.shape hbs e2
  obtain ⟨Q, h3, h4⟩ := unionOf_shows hg hpos Y.shape hbs e3
  rw [h1, h3]
  rw [e1] at h2 h4
  exact ⟨_, h2, h4, by simp⟩

/-! ### Ensembles -/

theorem Bagging.same {C : Type} (cs : List C) {ms ms' : List (Member (XR fp))} {P Q : Arr (XR fp)}
    (h : List.Forall₂ (fun m m' => m.predictProba P = m'.predictProba Q) ms ms') :
    let b : Bagging (XR fp) C := ⟨none, cs, ms⟩
    let b' : Bagging (XR fp) C := ⟨none, cs, ms'⟩
    b.predict P = b'.predict Q ∧ b.predictProba P = b'.predictProba Q ∧ b.predictLogProba P = b'.predictLogProba Q := by
  intro b b'
  have hl : ms.length = ms'.length := h.length_eq
  have hm : ∀ i, b.memberProba P i = b'.memberProba Q i := by
    intro i
    show (pyGet ms (i : Int) >>= fun e => e.predictProba P) = (pyGet ms' (i : Int) >>= fun e => e.predictProba Q)
    by_cases hi : i < ms.length
    · have hi' : i < ms'.length := by omega
      rw [pyGet_lt hi, pyGet_lt hi']
      exact forall₂_get h hi hi'
    · rw [pyGet_ge (by omega), pyGet_ge (by omega)]
      rfl
  have ha : ∀ l p, b.accumulate P l p = b'.accumulate Q l p := by
    intro l
    induction l with
    | nil => exact fun p => rfl
    | cons i l ih =>
      intro p
      simp only [Bagging.accumulate, hm i, ih]
  have hp : b.predictProba P = b'.predictProba Q := by
    unfold Bagging.predictProba
    rw [hm 0]
    simp only [ha]
    show (b'.memberProba Q 0 >>= fun p0 => b'.accumulate Q ((List.range ms.length).drop 1) p0 >>= fun proba =>
      apply2d (.ofMat proba) fun x => x /ₚ ofInt ms.length) = (b'.memberProba Q 0 >>= fun p0 =>
        b'.accumulate Q ((List.range ms'.length).drop 1) p0 >>= fun proba =>
          apply2d (.ofMat proba) fun x => x /ₚ ofInt ms'.length)
    rw [hl]
  refine ⟨?_, hp, ?_⟩
  · unfold Bagging.predict
    rw [hp]
  · unfold Bagging.predictLogProba
    rw [hp]

theorem even_ensemble {w : Nat} (cs : List (PVal (XR fp))) {es es' : List (Methods (XR fp))}
    (h : List.Forall₂ (fun e e' => SameAnswers g (.matrix w) e.predictProba e'.predictProba) es es') :
    Even' g (.matrix w) none (ensembleEst none cs es) (ensembleEst none cs es') := by
  have key : ∀ X Y : Data (XR fp), Alike g (.matrix w) X Y → ∃ P Q, X = .arr P ∧ Y = .arr Q ∧
      List.Forall₂ (fun m m' => m.predictProba P = m'.predictProba Q) (es.map fun m => (⟨m.runProba⟩ : Member (XR fp)))
        (es'.map fun m => (⟨m.runProba⟩ : Member (XR fp))) := by
    intro X Y hXY
    cases hXY with
    | @matrix P Q w M h1 h2 =>
      refine ⟨P, Q, rfl, rfl, ?_⟩
      rw [List.forall₂_map_left_iff, List.forall₂_map_right_iff]
      refine h.imp fun e e' hee => ?_
      show e.runProba P = e'.runProba Q
      unfold Est.runProba
      cases hp : e.predictProba with
      | none =>
        cases hp' : e'.predictProba with
        | none => rfl
        | some p' => rw [hp, hp'] at hee; exact hee.elim
      | some p =>
        cases hp' : e'.predictProba with
        | none => rw [hp, hp'] at hee; exact hee.elim
        | some p' => rw [hp, hp'] at hee; exact hee _ _ (.matrix h1 h2)
  refine ⟨?_, ?_, ?_⟩
  all_goals
    intro X Y hXY
    obtain ⟨P, Q, rfl, rfl, hF⟩ := key X Y hXY
    obtain ⟨c1, c2, c3⟩ := Bagging.same cs hF
    first | exact c1 | exact c2 | exact c3

/-! ### All objects -/

/-- What behaves as two objects that are the same up to dense and sparse answers alike. -/
theorem behaves_even (hg : g.Holds fp) {o o' : SkObj (Attrs (XR fp)) (PVal (XR fp)) (XR fp)} {A : Asked} {r : Option Nat}
    (he : Spec.Even g o o' A r) {f f' : Methods (XR fp)} (h : Behaves lib encode o f) (h' : Behaves lib encode o' f') :
    Even' g A r f f' := by
  induction he generalizing f f' with
  | @step c v e s w w' hl hs =>
    cases h with
    | single hv hl1 =>
      cases h' with
      | single hv' hl2 =>
        rw [C89_behaviour_unique (.single hv hl1) (.single (lib := lib) (encode := encode) hv hl),
          C89_behaviour_unique (.single hv hl2) (.single (lib := lib) (encode := encode) hv hl)]
        exact evenStep_same hg hs
  | @final c v e s w hl hs =>
    cases h with
    | single hv hl1 =>
      cases h' with
      | single hv' hl2 =>
        rw [C89_behaviour_unique (.single hv hl1) (.single (lib := lib) (encode := encode) hv hl),
          C89_behaviour_unique (.single hv hl2) (.single (lib := lib) (encode := encode) hv hl)]
        exact evenFit_same hg hs
  | @names c v v' e e' d b hx hl hl' hv =>
    cases h with
    | single hv1 hl1 =>
      cases h' with
      | single hv2 hl2 =>
        rw [C89_behaviour_unique (.single hv1 hl1) (.single (lib := lib) (encode := encode) hv1 hl),
          C89_behaviour_unique (.single hv2 hl2) (.single (lib := lib) (encode := encode) hv2 hl')]
        subst hx
        obtain rfl : fp = FP.exact := hg
        refine same_of_twin fun X Y hXY => ?_
        cases hXY with
        | @records xs h1 h2 => exact ⟨xs.length, rfl, DictVectorizer.twin b hv h1 h2⟩
  | @oneHot c v v' e e' d b w hx hl hl' hv =>
    cases h with
    | single hv1 hl1 =>
      cases h' with
      | single hv2 hl2 =>
        rw [C89_behaviour_unique (.single hv1 hl1) (.single (lib := lib) (encode := encode) hv1 hl),
          C89_behaviour_unique (.single hv2 hl2) (.single (lib := lib) (encode := encode) hv2 hl')]
        subst hx
        obtain rfl : fp = FP.exact := hg
        refine same_of_twin fun X Y hXY => ?_
        cases hXY with
        | @table xs w h1 h2 => exact ⟨xs.length, len_ofMat _, Encoder.oneHot_twin b hv h1 h2⟩
  | @ordinal c v e d w hl hv =>
    cases h with
    | single hv1 hl1 =>
      cases h' with
      | single hv2 hl2 =>
        rw [C89_behaviour_unique (.single hv1 hl1) (.single (lib := lib) (encode := encode) hv1 hl),
          C89_behaviour_unique (.single hv2 hl2) (.single (lib := lib) (encode := encode) hv1 hl)]
        refine same_of_twin fun X Y hXY => ?_
        cases hXY with
        | @table xs w h1 h2 => exact ⟨xs.length, len_ofMat _, Encoder.ordinal_twin hg hv h1 h2⟩
  | @lastStep v v' n o o' A r _ ih =>
    cases h with
    | @pipeline _ _ es hv hs =>
      cases hs with
      | @cons _ e _ _ he hn =>
        cases hn
        cases h' with
        | @pipeline _ _ es' hv' hs' =>
          cases hs' with
          | @cons _ e' _ _ he' hn' =>
            cases hn'
            show Even' g A r (pipelineEst [(n, e)]) (pipelineEst [(n, e')])
            rw [pipeline_single, pipeline_single]
            exact ih he he'
  | @firstStep v v' n o o' s ss s' ss' A w r _ _ ih1 ih2 =>
    cases h with
    | @pipeline _ _ es hv hs =>
      cases hs with
      | @cons _ e _ es he hn =>
        cases h' with
        | @pipeline _ _ es' hv' hs' =>
          cases hs' with
          | @cons _ e' _ es' he' hn' =>
            have h2 := ih2 (.pipeline (steps := s :: ss) hv hn) (.pipeline (steps := s' :: ss') hv' hn')
            have h1 := ih1 he he'
            cases hn with
            | @cons _ e1 _ es _ _ =>
              cases hn' with
              | @cons _ e1' _ es' _ _ => exact even_pipeline n n h1 h2
  | @union v v' ws A steps hne hw _ ih =>
    cases h with
    | @union _ _ _ es hv hs =>
      cases h' with
      | @union _ _ _ es' hv' hs' =>
        exact even_union hg ws hne hw hs hs' fun s hs f f' hb hb' => ih s hs hb hb'
  | @ensemble kd v v' cs w ms _ ih =>
    cases h with
    | @ensemble _ _ _ _ _ es hv hcs hs =>
      cases h' with
      | @ensemble _ _ _ _ _ es' hv' hcs' hs' =>
        refine even_ensemble cs ?_
        rw [List.forall₂_iff_get]
        have l1 := hs.length_eq
        have l2 := hs'.length_eq
        simp only [List.length_map] at l1 l2
        refine ⟨by omega, fun i h1 h2 => ?_⟩
        have i1 : i < ms.length := by omega
        have b1 := forall₂_get hs (i := i) (by simpa using i1) h1
        have b2 := forall₂_get hs' (i := i) (by simpa using i1) h2
        have := ih ms[i] (List.getElem_mem i1) (by simpa using b1) (by simpa using b2)
        exact this.2.1

variable (trunc : XR fp → Py Int)

/-- **C97** (predictions): two fitted objects that are the same but for the `sparse` options of their vectorizers and
encoders are converted, the converted objects have the same prediction methods, and these answer requests that say
the same (one matrix, dense or sparse; the same mappings; the same strings) with the same value or the same exception.
With `o' = o`: the dense and the sparse form of a matrix get the same answer.  In exact arithmetic for rows
stored in any order; in every rounded arithmetic, double precision included, for rows stored in column order. -/
theorem C97_predictions (hg : g.Holds fp) {o o' : SkObj (Attrs (XR fp)) (PVal (XR fp)) (XR fp)} {A : Asked}
    (he : Spec.Even g o o' A none) {f f' : Methods (XR fp)} (h : Behaves lib encode o f) (h' : Behaves lib encode o' f') :
    ∃ r r', convert (singles trunc initXgb) o = .ok r ∧ convert (singles trunc initXgb) o' = .ok r' ∧
      SameAnswers g A (r.methods lib encode).predict (r'.methods lib encode).predict ∧
      SameAnswers g A (r.methods lib encode).predictProba (r'.methods lib encode).predictProba ∧
      SameAnswers g A (r.methods lib encode).predictLogProba (r'.methods lib encode).predictLogProba := by
  obtain ⟨r, hr, rfl⟩ := C89_converted_behaves trunc lib encode o f h
  obtain ⟨r', hr', rfl⟩ := C89_converted_behaves trunc lib encode o' f' h'
  exact ⟨r, r', hr, hr', behaves_even hg he h h'⟩

/-- **C97** (transformations): the same for objects that transform.  Both converted objects have `transform`; on
requests that say the same both return one matrix of the stated width, a row for each record, each of the two results
dense or sparse, or both raise the same exception. -/
theorem C97_transforms (hg : g.Holds fp) {o o' : SkObj (Attrs (XR fp)) (PVal (XR fp)) (XR fp)} {A : Asked} {w : Nat}
    (he : Spec.Even g o o' A (some w)) {f f' : Methods (XR fp)} (h : Behaves lib encode o f) (h' : Behaves lib encode o' f') :
    ∃ r r', convert (singles trunc initXgb) o = .ok r ∧ convert (singles trunc initXgb) o' = .ok r' ∧
      SameTransform g A w (r.methods lib encode).transform (r'.methods lib encode).transform := by
  obtain ⟨r, hr, rfl⟩ := C89_converted_behaves trunc lib encode o f h
  obtain ⟨r', hr', rfl⟩ := C89_converted_behaves trunc lib encode o' f' h'
  exact ⟨r, r', hr, hr', behaves_even hg he h h'⟩

theorem castTo_zero (hs : fp.Sound) (dt : DType) : castTo dt (ofInt 0 : XR fp) = .ok (.fin 0) := by
  have h0 := XR.ofInt_zero hs
  cases dt with
  | float => rw [h0]; rfl
  | int =>
    rw [h0]
    show XR.trunc (.fin 0 : XR fp) = .ok (.fin 0)
    simp [XR.trunc]
  | bool =>
    rw [h0]
    simp only [castTo, h0]
    have : ((XR.fin 0 : XR fp) ==ₚ .fin 0) = true := by
      show decide _ = true
      simp
    rw [this]
    simp [ofBool, h0]

/-- **C97**, `todense`: a converted object answers a sparse matrix as it answers what `todense` makes of it. -/
theorem C97_todense (hg : g.Holds fp) {o : SkObj (Attrs (XR fp)) (PVal (XR fp)) (XR fp)} {w : Nat}
    (he : Spec.Even g o o (.matrix w) none) {f : Methods (XR fp)} (h : Behaves lib encode o f)
    {ds : List (Dict Int (XR fp))} (hne : ds ≠ []) (hd : ∀ d ∈ ds, ValidRow w d ∧ g.Order d ∧ ∀ kv ∈ d, g.Entry kv.2) (dt : DType) :
    ∃ r D, convert (singles trunc initXgb) o = .ok r ∧ todense (.sparse ds (some w) dt) = .ok D ∧ D.issparse = false ∧
      (∀ p, (r.methods lib encode).predict = some p → p (.arr (.sparse ds (some w) dt)) = p (.arr D)) ∧
      (∀ p, (r.methods lib encode).predictProba = some p → p (.arr (.sparse ds (some w) dt)) = p (.arr D)) ∧
      ∀ p, (r.methods lib encode).predictLogProba = some p → p (.arr (.sparse ds (some w) dt)) = p (.arr D) := by
  obtain ⟨r, r', hr, hr', h1, h2, h3⟩ := C97_predictions trunc hg he h h
  obtain rfl : r = r' := Except.ok.inj (hr.symm.trans hr')
  have hs : Shows g (.sparse ds (some w) dt) w (ds.map (dense (.fin 0) w)) := .sparse hne hd
  have hm : Shows g (.ofMat (ds.map (dense (.fin 0) w))) w (ds.map (dense (.fin 0) w)) :=
    .dense hs.rect.1 fun r hr => ⟨hs.rect.2 r hr, hs.entries r hr⟩
  refine ⟨r, _, hr, todense_sparse (castTo_zero hg.sound dt), rfl, fun p hp => ?_, fun p hp => ?_, fun p hp => ?_⟩
  · rw [hp] at h1; exact h1 _ _ (.matrix hs hm)
  · rw [hp] at h2; exact h2 _ _ (.matrix hs hm)
  · rw [hp] at h3; exact h3 _ _ (.matrix hs hm)

/-- **C97**, `tosparse`: a converted object answers a dense matrix as it answers what `tosparse` makes of it; in
double precision as well, `tosparse` storing the entries in column order. -/
theorem C97_tosparse (hg : g.Holds fp) {o : SkObj (Attrs (XR fp)) (PVal (XR fp)) (XR fp)} {w : Nat} (hw : 0 < w)
    (he : Spec.Even g o o (.matrix w) none) {f : Methods (XR fp)} (h : Behaves lib encode o f)
    {M : List (List (XR fp))} (hne : M ≠ []) (hM : ∀ r ∈ M, r.length = w ∧ ∀ x ∈ r, g.Entry x) :
    ∃ r S, convert (singles trunc initXgb) o = .ok r ∧ tosparse (.ofMat M) = .ok S ∧ S.issparse = true ∧
      (∀ p, (r.methods lib encode).predict = some p → p (.arr S) = p (.arr (.ofMat M))) ∧
      (∀ p, (r.methods lib encode).predictProba = some p → p (.arr S) = p (.arr (.ofMat M))) ∧
      ∀ p, (r.methods lib encode).predictLogProba = some p → p (.arr S) = p (.arr (.ofMat M)) := by
  obtain ⟨r, r', hr, hr', h1, h2, h3⟩ := C97_predictions trunc hg he h h
  obtain rfl : r = r' := Except.ok.inj (hr.symm.trans hr')
  have hm : Shows g (.ofMat M) w M := .dense hne hM
  obtain ⟨x, hx⟩ : ∃ x, pyGet (M.headD []) 0 = .ok x := by
    cases M with
    | nil => exact absurd rfl hne
    | cons r M =>
      have : 0 < r.length := by rw [(hM r (by simp)).1]; exact hw
      exact ⟨_, pyGet_lt this⟩
  have hT := tosparse_ofMat hne (fun r hr => (hM r hr).1) hx
  obtain ⟨ds, hb, hd, hds⟩ := shows_block hg hm hw
  have : toBlock (.ofMat M) = .ok (M.map fun r => sparsePairs r w, w) := by
    simp only [toBlock, issparse_ofMat, Bool.false_eq_true, if_false]
    rw [hT]
    rfl
  rw [hb] at this
  cases this
  have hs : Shows g (.sparse (M.map fun r => sparsePairs r w) (some w) (Arith.typeOf x)) w M := by
    have := Shows.sparse (g := g) (dt := Arith.typeOf x) (by simpa using hne) hd
    rwa [hds] at this
  refine ⟨r, _, hr, hT, rfl, fun p hp => ?_, fun p hp => ?_, fun p hp => ?_⟩
  · rw [hp] at h1; exact h1 _ _ (.matrix hs hm)
  · rw [hp] at h2; exact h2 _ _ (.matrix hs hm)
  · rw [hp] at h3; exact h3 _ _ (.matrix hs hm)

/-! ### The order of the stored entries -/

/-- In double precision 2⁶⁰ + 1 is 2⁶⁰. -/
theorem B64.absorbs : B64.rndFin ((2 : ℝ) ^ 60 + 1) = 2 ^ 60 := by
  have hlog : Int.log 2 |(2 : ℝ) ^ 60 + 1| = 60 := by
    rw [abs_of_pos (by positivity)]
    have : ((2 : ℝ) ^ 60 + 1) = ((2 ^ 60 + 1 : ℕ) : ℝ) := by norm_num
    rw [this, Int.log_natCast]
    have : Nat.log 2 (2 ^ 60 + 1) = 60 := by
      rw [Nat.log_eq_iff (by norm_num)]
      norm_num
    rw [this]
    rfl
  have hl : B64.lsb ((2 : ℝ) ^ 60 + 1) = 8 := by
    unfold B64.lsb
    rw [hlog]
    norm_num
  unfold B64.rndFin
  rw [hl]
  have ht : ((2 : ℝ) ^ 60 + 1) * 2 ^ (-8 : ℤ) = ((2 ^ 52 : ℤ) : ℝ) + 1 / 256 := by norm_num
  rw [ht]
  have hf : Int.fract (((2 ^ 52 : ℤ) : ℝ) + 1 / 256) = 1 / 256 := by
    rw [Int.fract_intCast_add, Int.fract_eq_self.2 (by norm_num)]
  have hfl : ⌊((2 ^ 52 : ℤ) : ℝ) + 1 / 256⌋ = 2 ^ 52 := by
    rw [Int.floor_intCast_add]
    norm_num
  unfold B64.rne
  rw [hf, if_pos (by norm_num), hfl]
  norm_num

theorem round_small {x y : ℝ} (h : B64.rndFin x = y) (hy : |y| ≤ 2 ^ 60) : (XR.round x : XR FP.binary64) = .fin y := by
  show XR.ofEReal (B64.rnd x) = _
  rw [B64.rnd_of_fin, h]
  · simp [XR.ofEReal]
  · rw [h]
    refine lt_of_le_of_lt hy ?_
    have : (2 : ℝ) ^ (60 : ℤ) < 2 ^ (1024 : ℤ) := zpow_lt_zpow_right₀ (by norm_num) (by norm_num)
    simpa using this

/-- **C97 is false in double precision for rows stored in another order**: a linear classifier with three
coefficients 1 labels the row (2⁶⁰, 1, -2⁶⁰) "no" when it is dense and "yes" when it is a sparse row whose entries are
stored as columns 0, 2, 1.  (The sum is rounded in the order of storage.) -/
theorem C97_stored_order_matters : ∃ (m : Linear (XR FP.binary64) String) (d : Dict Int (XR FP.binary64)), ValidRow 3 d ∧
    (∀ b ∈ m.coef, b.length = 3 ∧ ∀ x ∈ b, ∃ r, x = XR.fin r) ∧
    m.predict (.ofMat [dense (.fin 0) 3 d]) = .ok ["no"] ∧ m.predict (.sparse [d] (some 3) .float) = .ok ["yes"] := by
  have big : B64.rndFin ((2 : ℝ) ^ 60) = 2 ^ 60 := B64.rndFin_of_representable ⟨1, 60, by norm_num, by norm_num, by norm_num⟩
  have r1 : (XR.round ((2 : ℝ) ^ 60) : XR FP.binary64) = .fin (2 ^ 60) := round_small big (by rw [abs_of_pos (by positivity)])
  have r2 : (XR.round (-(2 : ℝ) ^ 60) : XR FP.binary64) = .fin (-2 ^ 60) :=
    round_small (by rw [B64.rndFin_neg, big]) (by rw [abs_neg, abs_of_pos (by positivity)])
  have r3 : (XR.round ((2 : ℝ) ^ 60 + 1) : XR FP.binary64) = .fin (2 ^ 60) :=
    round_small B64.absorbs (by rw [abs_of_pos (by positivity)])
  have r4 : (XR.round (1 : ℝ) : XR FP.binary64) = .fin 1 := by
    have := FP.binary64_round (r := 1) 1 (by norm_num) (by norm_num)
    exact this
  have r5 : (XR.round (0 : ℝ) : XR FP.binary64) = .fin 0 := FP.binary64_round (r := 0) 0 (by norm_num) (by norm_num)
  have h0 := XR.ofInt_zero FP.binary64_sound
  have m1 : (.fin (2 ^ 60) : XR FP.binary64) *ₚ .fin 1 = .fin (2 ^ 60) := by
    show XR.round _ = _; rw [mul_one]; exact r1
  have m2 : (.fin (-2 ^ 60) : XR FP.binary64) *ₚ .fin 1 = .fin (-2 ^ 60) := by
    show XR.round _ = _; rw [mul_one]; exact r2
  have m3 : (.fin 1 : XR FP.binary64) *ₚ .fin 1 = .fin 1 := by
    show XR.round _ = _; rw [mul_one]; exact r4
  have a1 : (.fin 0 : XR FP.binary64) +ₚ .fin (2 ^ 60) = .fin (2 ^ 60) := by
    show XR.round _ = _; rw [zero_add]; exact r1
  have a2 : (.fin (2 ^ 60) : XR FP.binary64) +ₚ .fin 1 = .fin (2 ^ 60) := r3
  have a3 : (.fin (2 ^ 60) : XR FP.binary64) +ₚ .fin (-2 ^ 60) = .fin 0 := by
    show XR.round _ = _; rw [add_neg_cancel]; exact r5
  have a4 : (.fin 0 : XR FP.binary64) +ₚ .fin 1 = .fin 1 := by
    show XR.round _ = _; rw [zero_add]; exact r4
  have a5 : (.fin 0 : XR FP.binary64) +ₚ .fin 0 = .fin 0 := by
    show XR.round _ = _; rw [zero_add]; exact r5
  have a6 : (.fin 1 : XR FP.binary64) +ₚ .fin 0 = .fin 1 := by
    show XR.round _ = _; rw [add_zero]; exact r4
  have l1 : ((.fin 0 : XR FP.binary64) <ₚ .fin 0) = false := by
    show decide _ = false; simp
  have l2 : ((.fin 0 : XR FP.binary64) <ₚ .fin 1) = true := by
    show decide _ = true; simp
  refine ⟨Linear.ofFitted [[.fin 1, .fin 1, .fin 1]] ["no", "yes"] (some (.vector [.fin 0])) none none none,
    [(0, .fin (2 ^ 60)), (2, .fin (-2 ^ 60)), (1, .fin 1)], ?_, ?_, ?_, ?_⟩
  · constructor
    · simp
    · intro p hp
      simp only [List.mem_cons, List.not_mem_nil, or_false] at hp
      rcases hp with rfl | rfl | rfl <;> simp
  · intro b hb
    simp only [Linear.ofFitted, List.mem_singleton] at hb
    subst hb
    refine ⟨rfl, fun x hx => ?_⟩
    simp only [List.mem_cons, List.not_mem_nil, or_false, or_self] at hx
    exact ⟨1, hx⟩
  · have hd : dense (.fin 0) 3 ([(0, .fin (2 ^ 60)), (2, .fin (-2 ^ 60)), (1, .fin 1)] : Dict Int (XR FP.binary64)) =
        [.fin (2 ^ 60), .fin 1, .fin (-2 ^ 60)] := rfl
    rw [hd]
    have hr : (Linear.ofFitted [[.fin 1, .fin 1, .fin 1]] ["no", "yes"] (some (.vector [.fin 0])) none none none :
        Linear (XR FP.binary64) String).decisionFunction (.ofMat [[.fin (2 ^ 60), .fin 1, .fin (-2 ^ 60)]]) =
        .ok (.flat [.fin 0]) := by
      show (Except.ok (Scores.flat [((((ofInt 0 +ₚ (.fin (2 ^ 60) *ₚ .fin 1)) +ₚ (.fin 1 *ₚ .fin 1)) +ₚ
        (.fin (-2 ^ 60) *ₚ .fin 1)) +ₚ .fin 0)]) : Py (Scores (XR FP.binary64))) = _
      rw [h0, m1, m2, m3, a1, a2, a3, a5]
    simp only [Linear.predict, hr, py_ok_bind, h0, List.mapM_cons, List.mapM_nil, l1]
    rfl
  · have hr : (Linear.ofFitted [[.fin 1, .fin 1, .fin 1]] ["no", "yes"] (some (.vector [.fin 0])) none none none :
        Linear (XR FP.binary64) String).decisionFunction
        (.sparse [[(0, .fin (2 ^ 60)), (2, .fin (-2 ^ 60)), (1, .fin 1)]] (some 3) .float) = .ok (.flat [.fin 1]) := by
      show (Except.ok (Scores.flat [((((ofInt 0 +ₚ (.fin (2 ^ 60) *ₚ .fin 1)) +ₚ (.fin (-2 ^ 60) *ₚ .fin 1)) +ₚ
        (.fin 1 *ₚ .fin 1)) +ₚ .fin 0)]) : Py (Scores (XR FP.binary64))) = _
      rw [h0, m1, m2, m3, a1, a3, a4, a6]
    simp only [Linear.predict, hr, py_ok_bind, h0, List.mapM_cons, List.mapM_nil, l2]
    rfl

/-! ### Non-vacuity -/

/-- The pipeline of C96 with the `sparse` options of its two vectorizers chosen freely, without weights. -/
def demoEven (s t : Bool) (a b c : ℝ) : SkObj (Attrs Ex) (PVal Ex) Ex :=
  .pipeline (some "0.22".toList) [("names", .union (some "0.22".toList)
    [("x", .leaf "DictVectorizer" (some "0.22".toList) (demoNames "x" s)),
     ("y", .leaf "DictVectorizer" (some "0.22".toList) (demoNames "y" t))] none),
    ("clf", .leaf "RidgeClassifier" (some "0.22".toList) (demoRidge (.fin a) (.fin b) (.fin c)))]

theorem demoRidge_even (a b c : ℝ) : EvenFit (.linear .plain
    (Linear.ofFitted [[.fin a, .fin b]] [.str "no", .str "yes"] (some (.vector [.fin c])) none none none) : Single (XR fp)) 2 := by
  refine .linear fun r hr => ?_
  simp only [Linear.ofFitted, List.mem_singleton] at hr
  subst hr
  refine ⟨rfl, fun x hx => ?_⟩
  simp only [List.mem_cons, List.not_mem_nil, or_false] at hx
  rcases hx with rfl | rfl <;> exact ⟨_, rfl⟩

/-- Any two choices of the options. -/
example (s t s' t' : Bool) (a b c : ℝ) : Regime.exact.Holds FP.exact ∧
    Spec.Even .exact (demoEven s t a b c) (demoEven s' t' a b c) .records none ∧
    ∃ f, Behaves lib encode (demoEven s t a b c) f := by
  have hv : ReadableVersion (some "0.22".toList) := ⟨_, rfl⟩
  refine ⟨rfl, ?_, ?_⟩
  · refine .firstStep (w := 2) ?_ (.lastStep (.final (demoRidge_learned _ _ _) (demoRidge_even a b c)))
    refine .union (steps := [("x", .leaf "DictVectorizer" (some "0.22".toList) (demoNames "x" s),
        .leaf "DictVectorizer" (some "0.22".toList) (demoNames "x" s'), 1),
      ("y", .leaf "DictVectorizer" (some "0.22".toList) (demoNames "y" t),
        .leaf "DictVectorizer" (some "0.22".toList) (demoNames "y" t'), 1)]) (by simp) (fun p hp => ?_) fun p hp => ?_
    · simp only [List.mem_cons, List.not_mem_nil, or_false] at hp
      rcases hp with rfl | rfl <;> exact ⟨rfl, Nat.one_pos⟩
    · simp only [List.mem_cons, List.not_mem_nil, or_false] at hp
      rcases hp with rfl | rfl
      · exact .names (b := s') rfl (demoNames_learned "x" s) (demoNames_learned "x" s') (by
          intro p hp
          simp only [List.mem_singleton] at hp
          subst hp
          exact ⟨le_refl _, by simp⟩)
      · exact .names (b := t') rfl (demoNames_learned "y" t) (demoNames_learned "y" t') (by
          intro p hp
          simp only [List.mem_singleton] at hp
          subst hp
          exact ⟨le_refl _, by simp⟩)
  · exact ⟨_, .pipeline (steps := [(_, _), (_, _)]) (es := [_, _]) hv (.cons (.union (steps := [(_, _), (_, _)]) (es := [_, _]) hv
      (.cons (.single hv (demoNames_learned "x" s)) (.cons (.single hv (demoNames_learned "y" t)) .nil)))
      (.cons (.single hv (demoRidge_learned _ _ _)) .nil))⟩

/-- In double precision: a scaler and a linear model, on a dense and a sparse matrix. -/
example (a b c u v : ℝ) (hu : u ≠ 0) (hv : v ≠ 0) (x y : XR FP.binary64) : Regime.rounded.Holds FP.binary64 ∧
    Spec.Even (fp := FP.binary64) .rounded
      (.pipeline none [("scale", .leaf "MaxAbsScaler" none [("copy", .bool true), ("scale_", .ndarray (vnums [.fin u, .fin v])),
          ("max_abs_", .none)]),
        ("clf", .leaf "RidgeClassifier" none (demoRidge (.fin a) (.fin b) (.fin c)))])
      (.pipeline none [("scale", .leaf "MaxAbsScaler" none [("copy", .bool true), ("scale_", .ndarray (vnums [.fin u, .fin v])),
          ("max_abs_", .none)]),
        ("clf", .leaf "RidgeClassifier" none (demoRidge (.fin a) (.fin b) (.fin c)))]) (.matrix 2) none ∧
    Alike (fp := FP.binary64) .rounded (.matrix 2) (.arr (.ofMat [[.fin 0, x], [x, y]]))
      (.arr (.sparse [[(1, x)], [(0, x), (1, y)]] (some 2) .float)) := by
  refine ⟨FP.binary64_sound, ?_, .matrix (M := [[.fin 0, x], [x, y]]) (.dense (by simp) ?_) ?_⟩
  · refine .firstStep (w := 2) (.step (s := .maxAbs ⟨some [.fin u, .fin v], none⟩) ?_ (.maxAbs ⟨[u, v], rfl, rfl, ?_⟩))
      (.lastStep (.final (demoRidge_learned _ _ _) (demoRidge_even a b c)))
    · exact .maxAbs ⟨_, rfl, .bool _⟩ rfl rfl
    · simp [hu, hv]
  · simp [Regime.Entry]
  · refine Shows.sparse (g := .rounded) (w := 2) (dt := .float) (ds := [[(1, x)], [(0, x), (1, y)]]) (by simp) ?_
    simp [ValidRow, Regime.Order, Regime.Entry]
    omega

end PurePredict
