import Verif.Lemmas.GaugeObject
import Verif.Spec.Redrawn
/-
Fitted objects whose trees are the same functions.
-/
namespace PurePredict.Redraw
open Spec Gauge
variable {F : Type} [Arith F] {P : Data F → Prop} {lib : String → TextLib} {encode : Str → List Nat}

theorem leaf_same {t t' : Tree F (PVal F)} {d d' : DTree F} (h : t.Encodes 0 d) (h' : t'.Encodes 0 d') (x : Row F) (e : d.eval x.look = d'.eval x.look) :
    Alongside (fun n n' => pyGet t.value n = pyGet t'.value n') (t.getLeafNode x) (t'.getLeafNode x) := by
  have h1 := Tree.getLeafNode_encodes h x
  have h2 := Tree.getLeafNode_encodes h' x
  rw [← e] at h2
  cases hd : d.eval x.look with
  | none =>
    rw [hd] at h1 h2
    rw [h1, h2]
    exact .fail
  | some v =>
    rw [hd] at h1 h2
    obtain ⟨k, h1, h3⟩ := h1
    obtain ⟨k', h2, h4⟩ := h2
    rw [h1, h2]
    refine .done ?_
    rw [pyGet_nat, pyGet_nat, h3, h4]

theorem look_all {w : Nat} {r : Row F} (h : match r with | .list l => w ≤ l.length | .dict _ => True | .scalar _ => False) : ∀ f < w, ∃ v, r.look f = some v := by
  intro f hf
  cases r with
  | list l => exact ⟨_, List.getElem?_eq_getElem (Nat.lt_of_lt_of_le hf h)⟩
  | dict d => exact ⟨_, rfl⟩
  | scalar a => exact h.elim

theorem columns_rows {w : Nat} {X : Arr F} (h : HasColumns w (.arr X)) {rs : List (Row F)} (hr : X.rows = .ok rs) : ∀ r ∈ rs, ∀ f < w, ∃ v, r.look f = some v := by
  intro r hr'
  cases X with
  | list l => cases hr; exact look_all (h r hr')
  | sparse l s d =>
    cases hr
    obtain ⟨y, -, rfl⟩ := List.mem_map.1 hr'
    exact look_all trivial
  | errObj => cases hr
  | other => cases hr

theorem checked_rows {X Y : Arr F} {s : HandleSparse} (hc : checkArray X s = .ok Y) {rs : List (Row F)} (hr : Y.rows = .ok rs) : Y = X := by
  cases X with
  | list l =>
    unfold checkArray at hc
    simp only at hc
    split at hc
    · cases hc; cases hr
    · cases hc; rfl
  | sparse l n d =>
    cases s
    · cases hc; rfl
    · cases hc
    · cases hc
  | errObj => cases hc
  | other => cases hc

/-- The leaves of the records of a request hold the same numbers. -/
theorem leaves_for {t t' : Tree F (PVal F)} (h : Redraws P t t') (X : Arr F) (hX : X = .errObj ∨ P (.arr X)) :
    Alongside (List.Forall₂ fun n n' => pyGet t.value n = pyGet t'.value n')
      (do let X ← checkArray X .allow; (← X.rows).mapM t.getLeafNode) (do let X ← checkArray X .allow; (← X.rows).mapM t'.getLeafNode) := by
  refine .after _ fun Y hY => .after _ fun rs hr => ?_
  obtain rfl := checked_rows hY hr
  have hP : P (.arr Y) := hX.resolve_left (by rintro rfl; cases hr)
  cases h with
  | same => exact .mapM (forall₂_same (R := Eq) (fun _ => rfl) rs) fun a b e => by cases e; exact (Alongside.same _).mono fun a b e => by rw [e]
  | numbered _ h1 h2 =>
    exact .mapM (forall₂_same (R := Eq) (fun _ => rfl) rs) fun a b e => by cases e; exact leaf_same h1 h2 a rfl
  | function _ h1 h2 hf hw =>
    have hl := columns_rows (hw _ hP) hr
    have : List.Forall₂ (fun a b => a = b ∧ a ∈ rs) rs rs := by
      rw [List.forall₂_iff_get]
      exact ⟨rfl, fun i h _ => ⟨rfl, List.get_mem _ _⟩⟩
    exact .mapM this fun a b e => by
      obtain ⟨rfl, ha⟩ := e
      exact leaf_same h1 h2 a (hf _ (hl a ha))

theorem classes_for {t t' : Tree F (PVal F)} (h : Redraws P t t') : t'.classes = t.classes := by
  cases h with
  | same => rfl
  | numbered e => exact e
  | function e => exact e

theorem predictReg_for {t t' : Tree F (PVal F)} (h : Redraws P t t') (X : Arr F) (hX : X = .errObj ∨ P (.arr X)) :
    Alongside Eq (t.predictReg X) (t'.predictReg X) := by
  have e : ∀ u : Tree F (PVal F), u.predictReg X = ((do let X ← checkArray X .allow; (← X.rows).mapM u.getLeafNode) >>= fun ls => ls.mapM fun nd => do pyGet (← pyGet u.value nd) 0) := by
    intro u
    simp only [Tree.predictReg, bind_assoc]
  rw [e, e]
  exact (leaves_for h X hX).bind fun ls ls' hl => alongEq (.mapM hl fun n n' e => by rw [e]; exact .same _)

theorem predictProba_for {t t' : Tree F (PVal F)} (h : Redraws P t t') (X : Arr F) (hX : X = .errObj ∨ P (.arr X)) :
    Alongside Eq (t.predictProba X) (t'.predictProba X) := by
  have e : ∀ u : Tree F (PVal F), u.predictProba X = ((do let X ← checkArray X .allow; (← X.rows).mapM u.getLeafNode) >>= fun ls => ls.mapM u.probaFromLeaf) := by
    intro u
    simp only [Tree.predictProba, bind_assoc]
  rw [e, e]
  refine (leaves_for h X hX).bind fun ls ls' hl => alongEq (.mapM hl fun n n' e => ?_)
  unfold Tree.probaFromLeaf
  rw [e]
  exact .same _

theorem predict_for {t t' : Tree F (PVal F)} (h : Redraws P t t') (X : Arr F) (hX : X = .errObj ∨ P (.arr X)) :
    Alongside Eq (t.predict X) (t'.predict X) := by
  have e : ∀ u : Tree F (PVal F), u.predict X = ((do let X ← checkArray X .allow; (← X.rows).mapM u.getLeafNode) >>= fun ls => ls.mapM u.predFromLeaf >>= fun ps =>
      ps.mapM fun (p : Nat) => pyGet u.classes (p : Int)) := by
    intro u
    simp only [Tree.predict, bind_assoc]
  rw [e, e, classes_for h]
  refine (leaves_for h X hX).bind fun ls ls' hl => Alongside.next (alongEq (.mapM hl fun n n' e => ?_)) _
  unfold Tree.predFromLeaf
  rw [e]
  exact .same _

theorem addTree_for {t t' : Tree F (PVal F)} (h : Redraws P t t') (X : Arr F) (hX : X = .errObj ∨ P (.arr X)) (acc : List F) :
    Alongside Eq (Xgb.addTree X acc t) (Xgb.addTree X acc t') := by
  unfold Xgb.addTree
  exact (predictReg_for h X hX).next _

theorem foldlM_for {α β : Type} {f : α → β → Py α} {ls ls' : List β} (h : List.Forall₂ (fun x y => ∀ a, Alongside Eq (f a x) (f a y)) ls ls') (a : α) :
    Alongside Eq (ls.foldlM f a) (ls'.foldlM f a) := by
  induction h generalizing a with
  | nil => exact .same _
  | cons h _ ih =>
    rw [foldlM_cons', foldlM_cons']
    refine (h a).bind fun x y e => ?_
    cases e
    exact ih x

theorem foldlM_same {α β : Type} {f g : α → β → Py α} (ls : List β) (h : ∀ a b, Alongside Eq (f a b) (g a b)) (a : α) : Alongside Eq (ls.foldlM f a) (ls.foldlM g a) := by
  induction ls generalizing a with
  | nil => exact .same _
  | cons b ls ih =>
    rw [foldlM_cons', foldlM_cons']
    refine (h a b).bind fun x y e => ?_
    cases e
    exact ih x

theorem checked_or {X Y : Arr F} {s : HandleSparse} (hc : checkArray X s = .ok Y) (hX : P (.arr X)) : Y = .errObj ∨ P (.arr Y) := by
  cases X with
  | list l =>
    unfold checkArray at hc
    simp only at hc
    split at hc
    · cases hc; exact .inl rfl
    · cases hc; exact .inr hX
  | sparse l n d =>
    cases s
    · cases hc; exact .inr hX
    · cases hc
    · cases hc
  | errObj => cases hc
  | other => cases hc

theorem xgb_for {m m' : Xgb F (PVal F)} (h0 : m'.objective = m.objective) (h1 : m'.classes = m.classes) (h2 : m'.nClasses = m.nClasses)
    (hs : ∀ X, X = .errObj ∨ P (.arr X) → Alongside Eq (m.predict_ X) (m'.predict_ X))
    (hb : ∀ X, X = .errObj ∨ P (.arr X) → Alongside Eq (m.predictBinary X) (m'.predictBinary X)) :
    AgreeFor P (probabilist m.predict m.predictProba) (probabilist m'.predict m'.predictProba) := by
  have hp : ∀ X, P (.arr X) → Alongside Eq (m.predictProba X) (m'.predictProba X) := by
    intro X hX
    unfold Xgb.predictProba
    rw [h0, h2]
    refine .after _ fun Y hY => ?_
    cases m.objective with
    | multiSoftprob => exact (hs Y (checked_or hY hX)).next _
    | binaryLogistic => exact (hb Y (checked_or hY hX)).next _
  refine probabilist_for (fun X hX => ?_) hp
  unfold Xgb.predict
  rw [h1]
  exact (hp X hX).next _

theorem single_for {s s' : Single F} (h : RedrawsSingle P s s') : AgreeFor P (s.est lib encode) (s'.est lib encode) := by
  cases h with
  | classifier h =>
    exact classifier_for (fun X hX => predict_for h X (.inr hX)) (fun X hX => predictProba_for h X (.inr hX)) fun X hX => (predictProba_for h X (.inr hX)).next _
  | regressor h => exact predictor_for fun X hX => (predictReg_for h X (.inr hX)).next _
  | @binary m ts ts' ht h =>
    refine xgb_for rfl rfl rfl (fun X hX => ?_) fun X hX => ?_
    · unfold Xgb.predict_
      simp only [ht]
      refine alongEq (.mapM (forall₂_same (R := Eq) (fun _ => rfl) _) fun c _ e => ?_)
      refine .after _ fun n _ => foldlM_same _ (fun a b => ?_) _
      exact (pyGet_along h _).bind fun _ _ _ => .fail
    · unfold Xgb.predictBinary
      simp only [ht]
      exact .after _ fun n _ => foldlM_for (h.imp fun t t' h acc => addTree_for h X hX acc) _
  | @multi m ts ts' ht h =>
    refine xgb_for rfl rfl rfl (fun X hX => ?_) fun X hX => ?_
    · unfold Xgb.predict_
      simp only [ht]
      refine alongEq (.mapM (forall₂_same (R := Eq) (fun _ => rfl) _) fun c _ e => ?_)
      cases e
      refine .after _ fun n _ => foldlM_same _ (fun a b => ?_) _
      exact (pyGet_along h _).bind fun r r' hr => (pyGet_along hr _).bind fun t t' h => addTree_for h X hX a
    · unfold Xgb.predictBinary
      simp only [ht]
      refine .after _ fun n _ => ?_
      cases h with
      | nil => exact .same _
      | cons _ _ => exact .same _

theorem rawColumn_for {g g' : GB F (PVal F)} (h1 : g'.learningRate = g.learningRate) (X : Arr F) {sts sts' : List (List (Arr F → Py (List F)))}
    (h : List.Forall₂ (List.Forall₂ fun f f' => Alongside Eq (f X) (f' X)) sts sts') (k : Nat) (col : List F) :
    Alongside Eq (g.rawColumn X k sts col) (g'.rawColumn X k sts' col) := by
  induction h generalizing col with
  | nil => exact .done rfl
  | cons h _ ih =>
    rw [rawColumn_fold, rawColumn_fold, foldlM_cons', foldlM_cons']
    refine Alongside.bind (R := Eq) ?_ fun a b hab => ?_
    · unfold stageOn
      rw [h1]
      refine (pyGet_along h (k : Int)).bind fun f f' hf => hf.next _
    · cases hab
      rw [← rawColumn_fold, ← rawColumn_fold]
      exact ih a

theorem stages_for {stages stages' : List (List (Methods F))} (cs : List (PVal F)) (init : Methods F) (l : Loss) (lr : F) (nf : Nat)
    (h : List.Forall₂ (List.Forall₂ fun (m m' : Methods F) => ∀ X, P (.arr X) → Alongside Eq (m.runNumbers X) (m'.runNumbers X)) stages stages') :
    AgreeFor P (boostingEst cs stages init l lr nf) (boostingEst cs stages' init l lr nf) := by
  unfold boostingEst
  generalize hg : (⟨cs, stages.map fun st => st.map fun m => m.runNumbers, init.runProba, lr, nf, l⟩ : GB F (PVal F)) = g
  generalize hg' : (⟨cs, stages'.map fun st => st.map fun m => m.runNumbers, init.runProba, lr, nf, l⟩ : GB F (PVal F)) = g'
  have hF : ∀ X, P (.arr X) → List.Forall₂ (List.Forall₂ fun f f' => Alongside Eq (f X) (f' X)) g.estimators g'.estimators := by
    intro X hX
    subst hg hg'
    exact moved_map h fun st st' hc => moved_map hc fun m m' hm => hm X hX
  have e0 : g'.classes = g.classes := by subst hg hg'; rfl
  have e1 : g'.loss = g.loss := by subst hg hg'; rfl
  have e2 : g'.learningRate = g.learningRate := by subst hg hg'; rfl
  have e3 : g'.rawPredictInit = g.rawPredictInit := by subst hg hg'; rfl
  refine gb_for e0 fun X hX => ?_
  unfold GB.predictProba
  rw [e1]
  refine Alongside.next ?_ _
  unfold GB.rawPredict
  rw [e3]
  refine .after _ fun I _ => (pyGet_along (hF X hX) 0).bind fun st st' hst => ?_
  rw [hst.length_eq]
  refine Alongside.next (alongEq (.mapM (forall₂_same (R := Eq) (fun _ => rfl) _) fun k _ e => ?_)) _
  cases e
  exact .after _ fun len _ => rawColumn_for e2 X (hF X hX) k _

theorem stage_behaves {st st' : List (SkObj (Attrs F) (PVal F) F)} (h : List.Forall₂ (RedrawnTree P) st st') {es : List (Methods F)}
    (he : List.Forall₂ (Behaves lib encode) st es) :
    ∃ es', List.Forall₂ (Behaves lib encode) st' es' ∧ List.Forall₂ (fun (m m' : Methods F) => ∀ X, P (.arr X) → Alongside Eq (m.runNumbers X) (m'.runNumbers X)) es es' := by
  induction h generalizing es with
  | nil => cases he; exact ⟨[], .nil, .nil⟩
  | cons h _ ih =>
    cases he with
    | cons hb he =>
      obtain ⟨es', h1, h2⟩ := ih he
      cases h with
      | @mk n v a a' t t' hl hl' hr =>
        obtain ⟨rfl, hv⟩ := leaf_behaves hl hb
        refine ⟨_ :: es', .cons (.single hv hl') h1, .cons (fun X hX => ?_) h2⟩
        rw [regressor_numbers, regressor_numbers]
        exact predictReg_for hr X (.inr hX)

theorem stages_behave {stages stages' : List (List (SkObj (Attrs F) (PVal F) F))} (h : List.Forall₂ (List.Forall₂ (RedrawnTree P)) stages stages')
    {es : List (List (Methods F))} (he : List.Forall₂ (List.Forall₂ (Behaves lib encode)) stages es) :
    ∃ es', List.Forall₂ (List.Forall₂ (Behaves lib encode)) stages' es' ∧
      List.Forall₂ (List.Forall₂ fun (m m' : Methods F) => ∀ X, P (.arr X) → Alongside Eq (m.runNumbers X) (m'.runNumbers X)) es es' := by
  induction h generalizing es with
  | nil => cases he; exact ⟨[], .nil, .nil⟩
  | cons h _ ih =>
    cases he with
    | cons hb he =>
      obtain ⟨es', h1, h2⟩ := ih he
      obtain ⟨st', h3, h4⟩ := stage_behaves h hb
      exact ⟨st' :: es', .cons h3 h1, .cons h4 h2⟩

theorem members_behave {R : Methods F → Methods F → Prop} {ms ms' : List (SkObj (Attrs F) (PVal F) F)} {es : List (Methods F)}
    (he : List.Forall₂ (Behaves lib encode) ms es) (hlen : ms.length = ms'.length)
    (h : ∀ p ∈ ms.zip ms', ∀ f, Behaves lib encode p.1 f → ∃ f', Behaves lib encode p.2 f' ∧ R f f') :
    ∃ es', List.Forall₂ (Behaves lib encode) ms' es' ∧ List.Forall₂ R es es' := by
  induction he generalizing ms' with
  | nil =>
    cases ms' with
    | nil => exact ⟨[], .nil, .nil⟩
    | cons _ _ => simp at hlen
  | @cons m e ms es hm _ ih =>
    cases ms' with
    | nil => simp at hlen
    | cons m' ms' =>
      obtain ⟨f', h1, h2⟩ := h (m, m') (by simp) e hm
      obtain ⟨es', h3, h4⟩ := ih (ms' := ms') (by simpa using hlen) fun p hp => h p (by simp [hp])
      exact ⟨f' :: es', .cons h1 h3, .cons h2 h4⟩

theorem behaves_redrawn {o o' : SkObj (Attrs F) (PVal F) F} (h : Redrawn lib encode P o o') {f : Methods F} (hb : Behaves lib encode o f) :
    ∃ f', Behaves lib encode o' f' ∧ AgreeFor P f f' := by
  induction h generalizing f with
  | same => exact ⟨f, hb, agreeFor_refl f⟩
  | trans _ _ ih1 ih2 =>
    obtain ⟨g, h1, h2⟩ := ih1 hb
    obtain ⟨k, h3, h4⟩ := ih2 h1
    exact ⟨k, h3, agreeFor_trans h2 h4⟩
  | fewer _ hQ ih =>
    obtain ⟨g, h1, h2⟩ := ih hb
    exact ⟨g, h1, agreeFor_fewer hQ h2⟩
  | tree h1 h2 hs =>
    obtain ⟨rfl, hv⟩ := leaf_behaves h1 hb
    exact ⟨_, .single hv h2, single_for hs⟩
  | stages hs =>
    cases hb with
    | boosting hv hpl he h0 hl =>
      obtain ⟨es', h1, h2⟩ := stages_behave hs he
      exact ⟨_, .boosting hv hpl h1 h0 hl, stages_for _ _ _ _ _ h2⟩
  | inStart _ ih =>
    cases hb with
    | boosting hv hpl he h0 hl =>
      obtain ⟨e', h1, h2⟩ := ih h0
      exact ⟨_, .boosting hv hpl he h1 hl, start_for h2 _ _ _ _ _⟩
  | inEnsemble hP hP' hlen _ ih =>
    cases hb with
    | ensemble hv hpl he =>
      obtain ⟨es', h1, h2⟩ := members_behave he hlen fun p hp f hf => ih p hp hf
      exact ⟨_, .ensemble hv hpl h1, ensemble_within _ hP hP' h2 _⟩
  | @inPipeline P v steps n o o' _ ih =>
    cases hb with
    | @pipeline _ _ es hv he =>
      rw [List.map_append] at he
      obtain ⟨zs, z, rfl, g1, g2⟩ := forall₂_snoc he
      obtain ⟨z', h1, h2⟩ := ih g2
      refine ⟨_, .pipeline (es := zs ++ [z']) hv ?_, ?_⟩
      · rw [List.map_append]
        exact forall₂_append_one g1 h1
      · have hl : (steps.map Prod.fst).length = zs.length := by rw [← g1.length_eq]; simp
        have e : ∀ x : SkObj (Attrs F) (PVal F) F, ∀ y : Methods F, ((steps ++ [(n, x)]).map Prod.fst).zip (zs ++ [y]) = (steps.map Prod.fst).zip zs ++ [(n, y)] := by
          intro x y
          rw [List.map_append, List.zip_append hl]
          rfl
        rw [e, e]
        exact agreeFor_fewer (fun X hX Y hY => hX Y (reaches_of g1 hY)) (pipe_for h2 _ n)

end PurePredict.Redraw
