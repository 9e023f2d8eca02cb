import Verif.Lemmas.MemberOrder
/-
Stages and rounds in another order; whole objects.
-/
namespace PurePredict
open Spec
variable {fp : FP} {lib : String → TextLib} {encode : Str → List Nat}

/-! ### Stages -/

section
variable {F C : Type} [Arith F]

/-- _gb.py:75-78: one stage put onto a column -/
def stageOn (g : GB F C) (X : Arr F) (k : Nat) (column : List F) (st : List (Arr F → Py (List F))) : Py (List F) := do
  let preds ← (← pyGet st k) X
  (List.range preds.length).mapM fun (i : Nat) => do
    return (← pyGet column (i : Int)) +ₚ ((← pyGet preds (i : Int)) *ₚ g.learningRate)

theorem rawColumn_fold (g : GB F C) (X : Arr F) (k : Nat) (sts : List (List (Arr F → Py (List F)))) (c : List F) :
    g.rawColumn X k sts c = sts.foldlM (stageOn g X k) c := by
  induction sts generalizing c with
  | nil => rfl
  | cons st sts ih =>
    unfold GB.rawColumn
    rw [foldlM_cons']
    unfold stageOn
    simp only [bind_assoc, ih]
    rfl

theorem pyGet_shift {α : Type} (a : α) (l : List α) (i : Nat) : pyGet (a :: l) ((i + 1 : Nat) : Int) = pyGet l (i : Int) := by
  rw [pyGet_nat, pyGet_nat, List.getElem?_cons_succ]

theorem column_zip (lr : F) (c p : List F) :
    ((List.range p.length).mapM fun (i : Nat) => (do return (← pyGet c (i : Int)) +ₚ ((← pyGet p (i : Int)) *ₚ lr) : Py F)) =
      if p.length ≤ c.length then .ok (List.zipWith (fun a b => a +ₚ (b *ₚ lr)) c p) else .error .indexError := by
  induction p generalizing c with
  | nil => simp
  | cons b p ih =>
    cases c with
    | nil =>
      rw [List.length_cons, List.range_succ_eq_map, mapM_cons', pyGet_ge (by simp)]
      rfl
    | cons a c =>
      rw [List.length_cons, List.range_succ_eq_map, mapM_cons', mapM_map']
      simp only [Nat.succ_eq_add_one, pyGet_shift, ih c, List.length_cons, Nat.add_le_add_iff_right, List.zipWith_cons_cons]
      have : ∀ (x : F) (l : List F), pyGet (x :: l) ((0 : Nat) : Int) = .ok x := fun x l => pyGet_zero_cons x l
      simp only [this, py_ok_bind, py_pure]
      split <;> rfl

theorem reg_lengths {t t' : Tree F C} {X : Arr F} {p q : List F} (h : t.predictReg X = .ok p) (h' : t'.predictReg X = .ok q) : p.length = q.length := by
  unfold Tree.predictReg at h h'
  obtain ⟨Y, hY, h⟩ := bind_ok_iff.1 h
  obtain ⟨Y', hY', h'⟩ := bind_ok_iff.1 h'
  rw [hY] at hY'
  cases hY'
  obtain ⟨rs, hr, h⟩ := bind_ok_iff.1 h
  obtain ⟨rs', hr', h'⟩ := bind_ok_iff.1 h'
  rw [hr] at hr'
  cases hr'
  obtain ⟨ls, hl, h⟩ := bind_ok_iff.1 h
  obtain ⟨ls', hl', h'⟩ := bind_ok_iff.1 h'
  rw [mapM_length h, mapM_length h', mapM_length hl, mapM_length hl']

end

theorem zipStage_right (ho : AnyOrder fp) (lr : XR fp) (c p q : List (XR fp)) :
    List.zipWith (fun a b => a +ₚ (b *ₚ lr)) (List.zipWith (fun a b => a +ₚ (b *ₚ lr)) c p) q =
      List.zipWith (fun a b => a +ₚ (b *ₚ lr)) (List.zipWith (fun a b => a +ₚ (b *ₚ lr)) c q) p := by
  induction c generalizing p q with
  | nil => simp
  | cons x c ih =>
    cases p with
    | nil => simp
    | cons y p => cases q with
      | nil => simp
      | cons z q => simp only [List.zipWith_cons_cons, ih p q, ho x _ _]

theorem stageOn_swap (ho : AnyOrder fp) {C : Type} (g : GB (XR fp) C) (X : Arr (XR fp)) (k : Nat) (c : List (XR fp)) {st st' : List (Arr (XR fp) → Py (List (XR fp)))}
    (hl : ∀ f ∈ st, ∀ f' ∈ st', ∀ p q, f X = .ok p → f' X = .ok q → p.length = q.length) :
    Alongside Eq (stageOn g X k c st >>= fun d => stageOn g X k d st') (stageOn g X k c st' >>= fun d => stageOn g X k d st) := by
  unfold stageOn
  simp only [column_zip, bind_assoc]
  cases hf : pyGet st (k : Int) with
  | error e =>
    cases hf' : pyGet st' (k : Int) with
    | error e' => exact .fail
    | ok f' =>
      simp only [py_ok_bind]
      cases f' X with
      | error e => exact .fail
      | ok q =>
        rw [py_ok_bind]
        split <;> exact .fail
  | ok f =>
    cases hf' : pyGet st' (k : Int) with
    | error e' =>
      simp only [py_ok_bind]
      cases f X with
      | error e => exact .fail
      | ok q =>
        rw [py_ok_bind]
        split <;> exact .fail
    | ok f' =>
      simp only [py_ok_bind]
      cases hp : f X with
      | error e =>
        cases hq : f' X with
        | error e' => exact .fail
        | ok q =>
          rw [py_ok_bind]
          split <;> exact .fail
      | ok p =>
        cases hq : f' X with
        | error e' =>
          rw [py_ok_bind]
          split <;> exact .fail
        | ok q =>
          simp only [py_ok_bind]
          have e := hl f (pyGet_ok_mem hf) f' (pyGet_ok_mem hf') p q hp hq
          by_cases h : p.length ≤ c.length
          · have h' : q.length ≤ c.length := e ▸ h
            simp only [h, h', if_true, py_ok_bind, List.length_zipWith, le_inf_iff, e, le_refl, and_self]
            exact .done (zipStage_right ho _ c p q)
          · have h' : ¬ q.length ≤ c.length := e ▸ h
            simp only [h, h', if_false]
            exact .fail

theorem gb_agree {g g' : GB (XR fp) (PVal (XR fp))} (hc : g'.classes = g.classes) (hl : g'.loss = g.loss) (hr : ∀ X, Alongside Eq (g.rawPredict X) (g'.rawPredict X)) :
    AllAgree (classifier g.predict g.predictProba g.predictLogProba) (classifier g'.predict g'.predictProba g'.predictLogProba) := by
  have hpp : ∀ X, Alongside Eq (g.predictProba X) (g'.predictProba X) := by
    intro X
    unfold GB.predictProba
    rw [hl]
    exact (hr X).next _
  refine classifier_agree (fun X => ?_) hpp fun X => (hpp X).next _
  unfold GB.predict
  rw [hc]
  exact (hpp X).next _

theorem stages_agree (ho : AnyOrder fp) {stages stages' : List (List (Methods (XR fp)))} (hp : stages.Perm stages') {n : Nat} (hn : ∀ st ∈ stages, st.length = n)
    (hreg : ∀ st ∈ stages, ∀ m ∈ st, ∃ t : Tree (XR fp) (PVal (XR fp)), ∀ X, m.runNumbers X = t.predictReg X) (cs : List (PVal (XR fp))) (init : Methods (XR fp)) (l : Loss) (lr : XR fp) (nf : Nat) :
    AllAgree (boostingEst cs stages init l lr nf) (boostingEst cs stages' init l lr nf) := by
  unfold boostingEst
  refine gb_agree rfl rfl fun X => ?_
  unfold GB.rawPredict
  refine .after _ fun I _ => ?_
  cases hs : stages with
  | nil =>
    rw [hs] at hp
    rw [hp.symm.eq_nil]
    exact .same _
  | cons st sts =>
    obtain ⟨st', sts', hs'⟩ : ∃ st' sts', stages' = st' :: sts' := by
      cases h : stages' with
      | nil => rw [h, hs] at hp; exact absurd hp.length_eq (by simp)
      | cons a b => exact ⟨a, b, rfl⟩
    have e1 : st.length = n := hn st (by simp [hs])
    have e2 : st'.length = n := hn st' (hp.mem_iff.2 (by simp [hs']))
    rw [hs']
    simp only [List.map_cons, pyGet_zero_cons, py_ok_bind, List.length_map, e1, e2]
    refine Alongside.next (?_ : Alongside Eq _ _) _
    refine (Alongside.mapM (S := Eq) (forall₂_same (R := Eq) (fun _ => rfl) (List.range n)) fun k _ e => ?_).mono fun x y h => List.forall₂_eq_eq_eq ▸ h
    cases e
    refine .after _ fun len _ => ?_
    have key : ∀ {l l' : List (List (Methods (XR fp)))} (g g' : GB (XR fp) (PVal (XR fp))), l.Perm l' → g'.learningRate = g.learningRate →
        (∀ st ∈ l, ∀ m ∈ st, ∃ t : Tree (XR fp) (PVal (XR fp)), ∀ X, m.runNumbers X = t.predictReg X) → ∀ c,
        Alongside Eq (g.rawColumn X k (l.map fun st => st.map fun m => m.runNumbers) c) (g'.rawColumn X k (l'.map fun st => st.map fun m => m.runNumbers) c) := by
      intro l l' g g' hp hlr hreg c
      rw [rawColumn_fold, rawColumn_fold]
      have : stageOn g' X k = stageOn g X k := by
        funext c st
        unfold stageOn
        rw [hlr]
      rw [this]
      refine foldlM_perm (stageOn g X k) (hp.map _) (fun x hx y hy a => stageOn_swap ho g X k a fun f hf f' hf' p q hp hq => ?_) c
      obtain ⟨sx, hsx, rfl⟩ := List.mem_map.1 hx
      obtain ⟨sy, hsy, rfl⟩ := List.mem_map.1 hy
      obtain ⟨m, hm, rfl⟩ := List.mem_map.1 hf
      obtain ⟨m', hm', rfl⟩ := List.mem_map.1 hf'
      obtain ⟨t, ht⟩ := hreg sx hsx m hm
      obtain ⟨t', ht'⟩ := hreg sy hsy m' hm'
      rw [ht] at hp
      rw [ht'] at hq
      exact reg_lengths hp hq
    have := key (l := stages) (l' := stages') ⟨cs, stages.map fun st => st.map fun m => m.runNumbers, init.runProba, lr, nf, l⟩
      ⟨cs, stages'.map fun st => st.map fun m => m.runNumbers, init.runProba, lr, nf, l⟩ hp rfl hreg (List.replicate len (ofInt 0))
    rw [hs, hs'] at this
    exact this

theorem inStart_agree {init init' : Methods (XR fp)} (h : AllAgree init init') (cs : List (PVal (XR fp))) (stages : List (List (Methods (XR fp)))) (l : Loss) (lr : XR fp) (nf : Nat) :
    AllAgree (boostingEst cs stages init l lr nf) (boostingEst cs stages init' l lr nf) := by
  unfold boostingEst
  refine gb_agree rfl rfl fun X => ?_
  unfold GB.rawPredict
  refine Alongside.bind (R := Eq) ?_ fun I J e => ?_
  rotate_left
  · cases e
    simp only [rawColumn_fold]
    exact .same _
  unfold GB.rawPredictInit
  refine .after _ fun Y _ => .after _ fun wd _ => ?_
  cases wd with
  | none => exact .fail
  | some w =>
    simp only
    split
    · exact .fail
    · exact (runProba_agree h Y).next _

/-! ### Rounds -/

theorem addTree_swap (ho : AnyOrder fp) (a : List (XR fp)) (p q : Py (List (XR fp))) :
    Alongside Eq ((do return List.zipWith Arith.add a (← p) : Py (List (XR fp))) >>= fun b => (do return List.zipWith Arith.add b (← q) : Py (List (XR fp))))
      ((do return List.zipWith Arith.add a (← q) : Py (List (XR fp))) >>= fun b => (do return List.zipWith Arith.add b (← p) : Py (List (XR fp)))) := by
  cases p with
  | error e => cases q <;> exact .fail
  | ok p =>
    cases q with
    | error e => exact .fail
    | ok q => exact .done (zipWith_right ho a p q)

theorem foldlM_range_get {α β : Type} (l : List β) (f : α → β → Py α) (g : α → Nat → Py α) (h : ∀ j b, l[j]? = some b → ∀ a, g a j = f a b) (a : α) :
    (List.range l.length).foldlM g a = l.foldlM f a := by
  induction l generalizing g a with
  | nil => rfl
  | cons b l ih =>
    rw [List.length_cons, List.range_succ_eq_map, foldlM_cons', foldlM_cons', h 0 b rfl]
    congr 1
    funext c
    rw [List.foldlM_map]
    exact ih (fun a j => g a (j + 1)) (fun j b hb a => h (j + 1) b (by simpa using hb) a) c

theorem xgb_agree {m m' : Xgb (XR fp) (PVal (XR fp))} (ho : AnyOrder fp) (hn : ∀ ts, m.trees = .multi ts → ts.length = m.nEstimators) (h : RoundsMoved m m') (X : Arr (XR fp)) :
    Alongside Eq (m.predictProba X) (m'.predictProba X) := by
  cases h with
  | @binary ts ts' ht hp =>
    unfold Xgb.predictProba
    refine .after _ fun X _ => ?_
    simp only
    cases m.objective with
    | binaryLogistic =>
      refine Alongside.next ?_ _
      unfold Xgb.predictBinary
      refine .after _ fun n _ => ?_
      simp only [ht]
      exact foldlM_perm _ hp (fun x _ y _ a => addTree_swap ho a (x.predictReg X) (y.predictReg X)) _
    | multiSoftprob =>
      refine Alongside.next ?_ _
      unfold Xgb.predict_
      refine (Alongside.mapM (S := Eq) (forall₂_same (R := Eq) (fun _ => rfl) _) fun k _ e => ?_).mono fun x y h => List.forall₂_eq_eq_eq ▸ h
      cases e
      refine .after _ fun n _ => ?_
      simp only [ht]
      generalize List.replicate n (ofInt 0 : XR fp) = a
      cases List.range m.nEstimators with
      | nil => exact .same _
      | cons e l =>
        rw [foldlM_cons', foldlM_cons']
        cases pyGet ts (e : Int) <;> cases pyGet ts' (e : Int) <;> exact .fail
  | @multi ts ts' ht hp =>
    have hn := hn ts ht
    unfold Xgb.predictProba
    refine .after _ fun X _ => ?_
    simp only
    cases m.objective with
    | binaryLogistic =>
      refine Alongside.next ?_ _
      unfold Xgb.predictBinary
      refine .after _ fun n _ => ?_
      simp only [ht]
      rw [hp.isEmpty_eq]
      exact .same _
    | multiSoftprob =>
      refine Alongside.next ?_ _
      unfold Xgb.predict_
      refine (Alongside.mapM (S := Eq) (forall₂_same (R := Eq) (fun _ => rfl) _) fun k _ e => ?_).mono fun x y h => List.forall₂_eq_eq_eq ▸ h
      cases e
      refine .after _ fun n _ => ?_
      simp only [ht]
      have e : ∀ l : List (List (Tree (XR fp) (PVal (XR fp)))), l.length = m.nEstimators → ∀ a,
          (List.range m.nEstimators).foldlM (fun acc (e : Nat) => (do Xgb.addTree X acc (← pyGet (← pyGet l (e : Int)) (k : Int)) : Py (List (XR fp)))) a =
            l.foldlM (fun acc r => do return List.zipWith Arith.add acc (← (pyGet r (k : Int) >>= fun t => t.predictReg X))) a := by
        intro l hl a
        rw [← hl]
        refine foldlM_range_get l _ _ (fun j b hb a => ?_) a
        rw [pyGet_ok_nat.2 hb]
        simp only [py_ok_bind, bind_assoc]
        rfl
      rw [e ts hn, e ts' (hp.length_eq ▸ hn)]
      exact foldlM_perm _ hp (fun x _ y _ a => addTree_swap ho a (pyGet x (k : Int) >>= fun t => t.predictReg X) (pyGet y (k : Int) >>= fun t => t.predictReg X)) _

theorem xgbRounds_length {F C : Type} [Arith F] (frames : Nat → XgbFrame F) (K : Nat) (n idx : Nat) {ts : List (List (Tree F C))} (h : xgbRounds frames K idx n = .ok ts) :
    ts.length = n := by
  induction n generalizing idx ts with
  | zero => cases h; rfl
  | succ n ih =>
    unfold xgbRounds at h
    obtain ⟨r, -, h⟩ := bind_ok_iff.1 h
    obtain ⟨rs, hr, h⟩ := bind_ok_iff.1 h
    cases h
    simp [ih _ hr]

theorem learned_rounds {c} {a : Attrs (XR fp)} {m : Xgb (XR fp) (PVal (XR fp))} (h : Learned c a (.xgb m)) :
    ∀ ts, m.trees = .multi ts → ts.length = m.nEstimators := by
  intro ts ht
  cases h with
  | xgb _ _ _ _ _ _ h =>
    unfold Xgb.ofBooster at h
    obtain ⟨o, -, h⟩ := bind_ok_iff.1 h
    obtain ⟨t, hb, h⟩ := bind_ok_iff.1 h
    cases h
    unfold xgbBuild at hb
    split at hb
    · obtain ⟨r, -, hb⟩ := bind_ok_iff.1 hb
      cases hb
      cases ht
    · obtain ⟨r, hr, hb⟩ := bind_ok_iff.1 hb
      cases hb
      cases ht
      exact xgbRounds_length _ _ _ _ hr

/-! ### Pipelines -/

theorem applyAll_last {e e' : Methods (XR fp)} (h : AllAgree e e') (l : List (String × Option (Methods (XR fp)))) (n : String) (X : Data (XR fp)) :
    Alongside Eq (Pipeline.applyAll (l ++ [(n, some e)]) X) (Pipeline.applyAll (l ++ [(n, some e')]) X) := by
  induction l generalizing X with
  | nil =>
    simp only [List.nil_append, Pipeline.applyAll]
    cases he : e.transform with
    | none => rw [h.1.2 he]; exact .fail
    | some t =>
      obtain ⟨u, hu, hX⟩ := h.1.1 t he
      rw [hu]
      exact (hX X).next _
  | cons s l ih =>
    obtain ⟨k, s⟩ := s
    cases s with
    | none => exact ih X
    | some s =>
      simp only [List.cons_append, Pipeline.applyAll]
      cases s.transform with
      | none => exact .fail
      | some t => exact .after _ fun Y _ => ih Y

theorem pipe_agree {e e' : Methods (XR fp)} (h : AllAgree e e') (l : List (String × Methods (XR fp))) (n : String) :
    AllAgree (pipelineEst (l ++ [(n, e)])) (pipelineEst (l ++ [(n, e')])) := by
  have shape : ∀ x : Methods (XR fp), pipelineEst (l ++ [(n, x)]) = Pipeline.asEst ⟨(l.map fun s => (s.1, some s.2)) ++ [(n, some x)]⟩ :=
    fun x => by simp [pipelineEst]
  have fr : ∀ x : Methods (XR fp), (⟨(l.map fun s => (s.1, some s.2)) ++ [(n, some x)]⟩ : Pipeline (Data (XR fp)) (List (PVal (XR fp))) (List (List (XR fp)))).front =
      l.map fun s => (s.1, some s.2) := fun x => by simp [Pipeline.front]
  have fin : ∀ x : Methods (XR fp), (⟨(l.map fun s => (s.1, some s.2)) ++ [(n, some x)]⟩ : Pipeline (Data (XR fp)) (List (PVal (XR fp))) (List (List (XR fp)))).finalEstimator =
      .ok (some x) := fun x => by simp [Pipeline.finalEstimator]
  rw [shape, shape]
  refine ⟨?_, ?_, ?_, ?_⟩
  · simp only [Pipeline.asEst, fin]
    cases he : e.transform with
    | none =>
      rw [h.1.2 he]
      exact sameResults_none
    | some q =>
      obtain ⟨q', hq', hr⟩ := h.1.1 q he
      rw [hq']
      refine sameResults_some fun X => ?_
      simp only [Pipeline.transform, fin, py_ok_bind, he, hq', Option.isNone_some, Bool.false_eq_true, if_false]
      exact applyAll_last h _ n X
  · simp only [Pipeline.asEst, delegated_last]
    cases he : e.predict with
    | none =>
      rw [h.2.1.2 he]
      exact sameResults_none
    | some q =>
      obtain ⟨q', hq', hr⟩ := h.2.1.1 q he
      rw [hq']
      refine sameResults_some fun X => ?_
      simp only [Pipeline.predict, delegated_last, fr, he, hq', py_ok_bind]
      exact .after _ fun Y _ => hr Y
  · simp only [Pipeline.asEst, delegated_last]
    cases he : e.predictProba with
    | none =>
      rw [h.2.2.1.2 he]
      exact sameResults_none
    | some q =>
      obtain ⟨q', hq', hr⟩ := h.2.2.1.1 q he
      rw [hq']
      refine sameResults_some fun X => ?_
      simp only [Pipeline.predictProba, delegated_last, fr, he, hq', py_ok_bind]
      exact .after _ fun Y _ => hr Y
  · simp only [Pipeline.asEst, delegated_last]
    cases he : e.predictLogProba with
    | none =>
      rw [h.2.2.2.2 he]
      exact sameResults_none
    | some q =>
      obtain ⟨q', hq', hr⟩ := h.2.2.2.1 q he
      rw [hq']
      refine sameResults_some fun X => ?_
      simp only [Pipeline.predictLogProba, delegated_last, fr, he, hq', py_ok_bind]
      exact .after _ fun Y _ => hr Y

/-! ### Whole objects -/

/-- what belongs to the entries of a list belongs to those of the rearranged list -/
theorem perm_with {α β : Type} {R : α → β → Prop} {l l' : List α} {u : List β} (hp : l.Perm l') (h : List.Forall₂ R l u) :
    ∃ u', u.Perm u' ∧ List.Forall₂ R l' u' := by
  obtain ⟨u', h1, h2⟩ := List.perm_comp_forall₂ hp.symm h
  exact ⟨u', h2.symm, h1⟩

theorem forall₂_mem_right {α β : Type} {R : α → β → Prop} {l : List α} {u : List β} (h : List.Forall₂ R l u) {b : β} (hb : b ∈ u) : ∃ a ∈ l, R a b := by
  induction h with
  | nil => cases hb
  | cons h _ ih =>
    rcases List.mem_cons.1 hb with rfl | hb
    · exact ⟨_, by simp, h⟩
    · obtain ⟨a, ha, hr⟩ := ih hb
      exact ⟨a, by simp [ha], hr⟩

theorem behaves_resorted (ho : AnyOrder fp) {o o' : SkObj (Attrs (XR fp)) (PVal (XR fp)) (XR fp)} (h : Resorted o o') {f : Methods (XR fp)} (hb : Behaves lib encode o f) :
    ∃ f', Behaves lib encode o' f' ∧ AllAgree f f' := by
  induction h generalizing f with
  | same => exact ⟨f, hb, allAgree_refl f⟩
  | trans _ _ ih1 ih2 =>
    obtain ⟨g, h1, h2⟩ := ih1 hb
    obtain ⟨k, h3, h4⟩ := ih2 h1
    exact ⟨k, h3, allAgree_trans h2 h4⟩
  | members hp =>
    cases hb with
    | ensemble hv hpl he =>
      obtain ⟨es', h1, h2⟩ := perm_with hp he
      exact ⟨_, .ensemble hv hpl h2, members_agree ho h1 _⟩
  | @subspaces k v cs parts parts' hp =>
    cases hb with
    | @ensemble _ _ _ _ _ es hv hpl he =>
      have hz : List.Forall₂ (fun (p : SkObj (Attrs (XR fp)) (PVal (XR fp)) (XR fp) × List Int) (q : Methods (XR fp) × List Int) => Behaves lib encode p.1 q.1 ∧ q.2 = p.2)
          parts (es.zip (parts.map Prod.snd)) := by
        clear hp
        induction parts generalizing es with
        | nil => cases he; exact .nil
        | cons p parts ih =>
          cases he with
          | cons h hs => exact .cons ⟨h, rfl⟩ (ih hs)
      have hl : es.length = (parts.map Prod.snd).length := by simpa using he.length_eq.symm
      obtain ⟨qs, h1, h2⟩ := perm_with hp hz
      have e1 : parts'.map Prod.snd = qs.map Prod.snd := by
        clear hp h1
        induction h2 with
        | nil => rfl
        | cons h _ ih => rw [List.map_cons, List.map_cons, ih, h.2]
      have e2 : List.Forall₂ (Behaves lib encode) (parts'.map Prod.fst) (qs.map Prod.fst) := moved_map h2 fun p q h => h.1
      refine ⟨_, .ensemble hv hpl e2, ?_⟩
      have := subspaces_agree ho h1 cs
      rw [List.map_fst_zip (by omega), List.map_snd_zip (by omega)] at this
      rw [e1]
      exact this
  | @stages v cs stages stages' init loss args n hp hn hreg =>
    cases hb with
    | @boosting _ _ _ _ _ lr nf l es e hv hpl he h0 hl =>
      obtain ⟨es', h1, h2⟩ := perm_with hp he
      refine ⟨_, .boosting hv hpl h2 h0 hl, stages_agree ho h1 (n := n) (fun st hst => ?_) (fun st hst m hm => ?_) _ _ _ _ _⟩
      · obtain ⟨s, hs, hf⟩ := forall₂_mem_right he hst
        rw [← hf.length_eq, hn s hs]
      · obtain ⟨s, hs, hf⟩ := forall₂_mem_right he hst
        obtain ⟨x, hx, hbx⟩ := forall₂_mem_right hf hm
        cases hreg s hs x hx with
        | @mk c v a t hl =>
          obtain ⟨rfl, -⟩ := leaf_behaves hl hbx
          exact ⟨t, fun X => regressor_numbers t X⟩
  | @rounds c v a a' m m' h1 h2 hm =>
    obtain ⟨rfl, hv⟩ := leaf_behaves h1 hb
    refine ⟨_, .single hv h2, ?_⟩
    have hpp := fun X => xgb_agree ho (learned_rounds h1) hm X
    refine ⟨sameResults_none, sameResults_some (onArr_along fun X => ?_), sameResults_some (onArr_along hpp), sameResults_none⟩
    unfold Xgb.predict
    have hc : m'.classes = m.classes := by cases hm <;> rfl
    rw [hc]
    exact (hpp X).next _
  | @inPipeline v steps n o o' _ ih =>
    cases hb with
    | @pipeline _ _ es hv he =>
      rw [List.map_append] at he
      obtain ⟨zs, z, rfl, g1, g2⟩ := forall₂_snoc he
      obtain ⟨z', h1, h2⟩ := ih g2
      refine ⟨_, .pipeline (es := zs ++ [z']) hv ?_, ?_⟩
      · rw [List.map_append]
        exact forall₂_append_one g1 h1
      · have hl : (steps.map Prod.fst).length = zs.length := by rw [← g1.length_eq]; simp
        have e : ∀ x : SkObj (Attrs (XR fp)) (PVal (XR fp)) (XR fp), ∀ y : Methods (XR fp), ((steps ++ [(n, x)]).map Prod.fst).zip (zs ++ [y]) = (steps.map Prod.fst).zip zs ++ [(n, y)] := by
          intro x y
          rw [List.map_append, List.zip_append hl]
          rfl
        rw [e, e]
        exact pipe_agree h2 _ n
  | @inEnsemble k v fs cs ms ms' hlen _ ih =>
    cases hb with
    | @ensemble _ _ _ _ _ es hv hpl he =>
      obtain ⟨es', h1, h2⟩ := behaves_both he hlen fun p hp f hf => ih p hp hf
      exact ⟨_, .ensemble hv hpl h1, inEnsemble_agree h2 _ _⟩
  | @inStart v cs stages init init' loss args _ ih =>
    cases hb with
    | @boosting _ _ _ _ _ lr nf l es e hv hpl he h0 hl =>
      obtain ⟨e', h1, h2⟩ := ih h0
      exact ⟨_, .boosting hv hpl he h1 hl, inStart_agree h2 _ _ _ _ _⟩

end PurePredict
