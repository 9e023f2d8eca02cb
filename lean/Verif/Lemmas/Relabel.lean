import Verif.Spec.Relabel
import Verif.Props.C89
import Verif.Props.C41
import Verif.Props.C96
/-
Renamed classes: single estimators, pipelines, ensembles and boosting.
-/
namespace PurePredict
open Spec
variable {F : Type} [Arith F] {lib : String → TextLib} {encode : Str → List Nat}

theorem pyGet_rename {α β : Type} (σ : α → β) (l : List α) (i : Int) : pyGet (l.map σ) i = (pyGet l i).map σ := by
  unfold pyGet
  simp only [List.length_map, List.getElem?_map]
  generalize (if i < 0 then i + (l.length : Int) else i) = j
  by_cases hj : j < 0
  · simp only [if_pos hj]
    rfl
  · simp only [if_neg hj]
    cases l[j.toNat]? <;> rfl

theorem mapM_rename {α β γ : Type} (σ : β → γ) (g : α → Py β) (xs : List α) : (xs.mapM fun x => (g x).map σ) = (xs.mapM g).map (List.map σ) := by
  induction xs with
  | nil => rfl
  | cons x xs ih =>
    rw [mapM_cons', mapM_cons', ih]
    cases g x with
    | error e => rfl
    | ok a => cases xs.mapM g <;> rfl

theorem bind_rename {α β γ : Type} (σ : β → γ) (p : Py α) (g : α → Py β) : (p >>= fun a => (g a).map σ) = (p >>= g).map σ := by
  cases p <;> rfl

/-- labels looked up by the position of a maximum -/
theorem labels_rename {α : Type} (σ : PVal F → PVal F) (cs : List (PVal F)) (g : α → Py Nat) (xs : List α) :
    (xs.mapM fun a => g a >>= fun i => pyGet (cs.map σ) (i : Int)) = (xs.mapM fun a => g a >>= fun i => pyGet cs (i : Int)).map (List.map σ) := by
  rw [← mapM_rename]
  congr 1
  funext a
  rw [← bind_rename]
  congr 1
  funext i
  exact pyGet_rename σ cs i

theorem Spec.Renames.refl (f : Methods F) : Renames id f f :=
  ⟨rfl, rfl, rfl, fun p hp => ⟨p, hp, fun X => by cases p X <;> simp [Except.map]⟩, id⟩

theorem classifier_renames {σ : PVal F → PVal F} {p p' : Arr F → Py (List (PVal F))} {pp pl : Arr F → Py (List (List F))}
    (h : ∀ X, p' X = (p X).map (List.map σ)) : Renames σ (classifier p pp pl) (classifier p' pp pl) := by
  refine ⟨rfl, rfl, rfl, fun q hq => ?_, fun e => by cases e⟩
  cases hq
  refine ⟨_, rfl, fun X => ?_⟩
  cases X <;> first | exact h _ | rfl

theorem predictor_renames {σ : PVal F → PVal F} {p p' : Arr F → Py (List (PVal F))}
    (h : ∀ X, p' X = (p X).map (List.map σ)) : Renames σ (predictor p) (predictor p') := by
  refine ⟨rfl, rfl, rfl, fun q hq => ?_, fun e => by cases e⟩
  cases hq
  refine ⟨_, rfl, fun X => ?_⟩
  cases X <;> first | exact h _ | rfl

theorem probabilist_renames {σ : PVal F → PVal F} {p p' : Arr F → Py (List (PVal F))} {pp : Arr F → Py (List (List F))}
    (h : ∀ X, p' X = (p X).map (List.map σ)) : Renames σ (probabilist p pp) (probabilist p' pp) := by
  refine ⟨rfl, rfl, rfl, fun q hq => ?_, fun e => by cases e⟩
  cases hq
  refine ⟨_, rfl, fun X => ?_⟩
  cases X <;> first | exact h _ | rfl

theorem linear_renames {σ : PVal F → PVal F} {m : Linear F (PVal F)} (X : Arr F) :
    ({ m with classes := m.classes.map σ } : Linear F (PVal F)).predict X = (m.predict X).map (List.map σ) := by
  unfold Linear.predict
  rw [← bind_rename, show ({ m with classes := m.classes.map σ } : Linear F (PVal F)).decisionFunction X = m.decisionFunction X from rfl]
  congr 1
  funext s
  cases s with
  | flat s =>
    simp only [pyGet_rename]
    exact mapM_rename σ _ s
  | mat s => exact labels_rename σ m.classes argmax s

theorem walk_renames (t : Tree F (PVal F)) (cs : List (PVal F)) (x : Row F) (fuel : Nat) (nd : Int) :
    ({ t with classes := cs } : Tree F (PVal F)).walk x fuel nd = t.walk x fuel nd := by
  induction fuel generalizing nd with
  | zero => rfl
  | succ n ih =>
    unfold Tree.walk
    congr 1
    funext o
    cases o with
    | none => rfl
    | some k => exact ih k

theorem leaf_renames (t : Tree F (PVal F)) (cs : List (PVal F)) : ({ t with classes := cs } : Tree F (PVal F)).getLeafNode = t.getLeafNode :=
  funext fun x => walk_renames t cs x _ 0

theorem nb_renames {σ : PVal F → PVal F} {j j' : Arr F → Py (List (List F))} (h : j' = j) (cs : List (PVal F)) :
    Renames σ (classifier (nbPredict j cs) (nbPredictProba j) (nbPredictLogProba j))
      (classifier (nbPredict j' (cs.map σ)) (nbPredictProba j') (nbPredictLogProba j')) := by
  subst h
  refine classifier_renames fun X => ?_
  unfold nbPredict
  simp only [← bind_rename]
  congr 1
  funext X
  congr 1
  funext j
  exact labels_rename σ cs argmax j

/-- Single classifiers that differ in the names of their classes. -/
inductive Named (σ : PVal F → PVal F) : Single F → Single F → Prop
  | linear {k m} : Named σ (.linear k m) (.linear k { m with classes := m.classes.map σ })
  | tree {t} : Named σ (.treeClassifier t) (.treeClassifier { t with classes := t.classes.map σ })
  | gaussianNB {m} : Named σ (.gaussianNB m) (.gaussianNB { m with classes := m.classes.map σ })
  | multinomialNB {m} : Named σ (.multinomialNB m) (.multinomialNB { m with classes := m.classes.map σ })
  | complementNB {m} : Named σ (.complementNB m) (.complementNB { m with classes := m.classes.map σ })
  | xgb {m} : Named σ (.xgb m) (.xgb { m with classes := m.classes.map σ })

theorem named_renames {σ : PVal F → PVal F} {s t : Single F} (h : Named σ s t) : Renames σ (s.est lib encode) (t.est lib encode) := by
  cases h with
  | @linear k m =>
    show Renames σ (k.est m) (k.est _)
    have hp : ∀ X, ({ m with classes := m.classes.map σ } : Linear F (PVal F)).predictProba X = m.predictProba X := fun X => by
      unfold Linear.predictProba
      rw [show ({ m with classes := m.classes.map σ } : Linear F (PVal F)).isOvr = m.isOvr by unfold Linear.isOvr; simp only [List.length_map]]
      rfl
    cases k with
    | logistic =>
      have e1 : ({ m with classes := m.classes.map σ } : Linear F (PVal F)).predictProba = m.predictProba := funext hp
      have e2 : ({ m with classes := m.classes.map σ } : Linear F (PVal F)).predictLogProba = m.predictLogProba := funext fun X => by
        unfold Linear.predictLogProba
        rw [hp]
      show Renames σ (classifier m.predict m.predictProba m.predictLogProba) (classifier _ _ _)
      rw [e1, e2]
      exact classifier_renames linear_renames
    | sgd =>
      unfold LinKind.est
      rw [show ({ m with classes := m.classes.map σ } : Linear F (PVal F)).checkProba = m.checkProba from rfl]
      cases m.checkProba with
      | ok _ => exact classifier_renames linear_renames
      | error _ => exact predictor_renames linear_renames
    | plain => exact predictor_renames linear_renames
  | @tree t =>
    have e1 : ({ t with classes := t.classes.map σ } : Tree F (PVal F)).predictProba = t.predictProba := funext fun X => by
      unfold Tree.predictProba
      rw [leaf_renames]
      rfl
    have e2 : ({ t with classes := t.classes.map σ } : Tree F (PVal F)).predictLogProba = t.predictLogProba := funext fun X => by
      unfold Tree.predictLogProba
      rw [e1]
    show Renames σ (classifier t.predict t.predictProba t.predictLogProba) (classifier ({ t with classes := t.classes.map σ } : Tree F (PVal F)).predict _ _)
    rw [e1, e2]
    refine classifier_renames fun X => ?_
    unfold Tree.predict
    rw [leaf_renames, ← bind_rename]
    congr 1
    funext X
    rw [← bind_rename]
    congr 1
    funext rs
    rw [← bind_rename]
    congr 1
    funext ls
    rw [← bind_rename]
    congr 1
    funext ps
    rw [← mapM_rename]
    simp only [pyGet_rename]
  | @gaussianNB m =>
    exact nb_renames (j := m.jll) (j' := ({ m with classes := m.classes.map σ } : GaussianNB F (PVal F)).jll)
      (funext fun X => by unfold GaussianNB.jll; simp only [List.length_map]; rfl) m.classes
  | @multinomialNB m =>
    exact nb_renames (j := m.jllMultinomial) (j' := ({ m with classes := m.classes.map σ } : DiscreteNB F (PVal F)).jllMultinomial)
      (funext fun X => by unfold DiscreteNB.jllMultinomial; simp only [List.length_map]) m.classes
  | @complementNB m =>
    exact nb_renames (j := m.jllComplement) (j' := ({ m with classes := m.classes.map σ } : DiscreteNB F (PVal F)).jllComplement)
      (funext fun X => by unfold DiscreteNB.jllComplement; simp only [List.length_map]) m.classes
  | @xgb m =>
    show Renames σ (probabilist m.predict m.predictProba) (probabilist ({ m with classes := m.classes.map σ } : Xgb F (PVal F)).predict _)
    have e1 : ({ m with classes := m.classes.map σ } : Xgb F (PVal F)).predictProba = m.predictProba := rfl
    rw [e1]
    refine probabilist_renames fun X => ?_
    unfold Xgb.predict
    rw [e1, ← bind_rename]
    congr 1
    funext j
    exact labels_rename σ m.classes argmax j

/-! ### Compound objects -/

theorem pipe_renames {σ : PVal F → PVal F} {e e' : Methods F} (h : Renames σ e e') (l : List (String × Methods F)) (n : String) :
    Renames σ (pipelineEst (l ++ [(n, e)])) (pipelineEst (l ++ [(n, e')])) := by
  obtain ⟨h1, h2, h3, h4, h5⟩ := h
  have shape : ∀ x : Methods F, pipelineEst (l ++ [(n, x)]) = Pipeline.asEst ⟨(l.map fun s => (s.1, some s.2)) ++ [(n, some x)]⟩ :=
    fun x => by simp [pipelineEst]
  have fin : ∀ x : Methods F, (⟨(l.map fun s => (s.1, some s.2)) ++ [(n, some x)]⟩ : Pipeline (Data F) (List (PVal F)) (List (List F))).finalEstimator =
      .ok (some x) := fun x => by simp [Pipeline.finalEstimator]
  have fr : ∀ x : Methods F, (⟨(l.map fun s => (s.1, some s.2)) ++ [(n, some x)]⟩ : Pipeline (Data F) (List (PVal F)) (List (List F))).front =
      l.map fun s => (s.1, some s.2) := fun x => by simp [Pipeline.front]
  have app : ∀ X, Pipeline.applyAll ((l.map fun s => (s.1, some s.2)) ++ [(n, some e')]) X = Pipeline.applyAll ((l.map fun s => (s.1, some s.2)) ++ [(n, some e)]) X := by
    intro X
    rw [applyAll_append, applyAll_append]
    congr 1
    funext Y
    simp only [Pipeline.applyAll, h1]
  have ht : (⟨(l.map fun s => (s.1, some s.2)) ++ [(n, some e')]⟩ : Pipeline (Data F) (List (PVal F)) (List (List F))).transform =
      (⟨(l.map fun s => (s.1, some s.2)) ++ [(n, some e)]⟩ : Pipeline (Data F) (List (PVal F)) (List (List F))).transform := funext fun X => by
    unfold Pipeline.transform
    rw [fin, fin]
    simp only [py_ok_bind, h1, app]
  rw [shape, shape]
  refine ⟨?_, ?_, ?_, fun p hp => ?_, fun hp => ?_⟩
  · simp only [Pipeline.asEst, fin, h1, ht]
  · simp only [Pipeline.asEst, delegated_last, h2]
    cases e.predictProba with
    | none => rfl
    | some q =>
      simp only [Option.some.injEq]
      funext X
      simp only [Pipeline.predictProba, delegated_last, fr, h2]
  · simp only [Pipeline.asEst, delegated_last, h3]
    cases e.predictLogProba with
    | none => rfl
    | some q =>
      simp only [Option.some.injEq]
      funext X
      simp only [Pipeline.predictLogProba, delegated_last, fr, h3]
  · simp only [Pipeline.asEst, delegated_last] at hp ⊢
    cases he : e.predict with
    | none => simp only [he] at hp; cases hp
    | some q =>
      simp only [he] at hp
      cases hp
      obtain ⟨q', hq', hr⟩ := h4 q he
      simp only [hq']
      refine ⟨_, rfl, fun X => ?_⟩
      simp only [Pipeline.predict, delegated_last, fr, he, hq', py_ok_bind]
      rw [← bind_rename]
      congr 1
      funext Y
      exact hr Y
  · simp only [Pipeline.asEst, delegated_last] at hp ⊢
    cases he : e.predict with
    | none => simp only [h5 he]
    | some q => simp only [he] at hp; cases hp

theorem Spec.Renames.proba {τ : PVal F → PVal F} {e e' : Methods F} (h : Renames τ e e') : e'.runProba = e.runProba := by
  funext X
  unfold Est.runProba
  rw [h.2.1]

theorem ensemble_renames {σ : PVal F → PVal F} {fs : Option (List (List Int))} {cs : List (PVal F)} {es es' : List (Methods F)}
    (h : List.Forall₂ (fun e e' => Est.runProba e' = Est.runProba e) es es') : Renames σ (ensembleEst fs cs es) (ensembleEst fs (cs.map σ) es') := by
  have hm : (es'.map fun m => (⟨m.runProba⟩ : Member F)) = es.map fun m => ⟨m.runProba⟩ := by
    induction h with
    | nil => rfl
    | cons h _ ih => simp only [List.map_cons, h, ih]
  unfold ensembleEst
  rw [hm]
  generalize (es.map fun m => (⟨m.runProba⟩ : Member F)) = ms
  have ha : ∀ X l P, (⟨fs, cs.map σ, ms⟩ : Bagging F (PVal F)).accumulate X l P = (⟨fs, cs, ms⟩ : Bagging F (PVal F)).accumulate X l P := by
    intro X l
    induction l with
    | nil => exact fun _ => rfl
    | cons i l ih =>
      intro P
      unfold Bagging.accumulate
      simp only [ih]
      rfl
  have e1 : (⟨fs, cs.map σ, ms⟩ : Bagging F (PVal F)).predictProba = (⟨fs, cs, ms⟩ : Bagging F (PVal F)).predictProba := funext fun X => by
    unfold Bagging.predictProba
    simp only [ha]
    rfl
  have e2 : (⟨fs, cs.map σ, ms⟩ : Bagging F (PVal F)).predictLogProba = (⟨fs, cs, ms⟩ : Bagging F (PVal F)).predictLogProba := funext fun X => by
    unfold Bagging.predictLogProba
    rw [e1]
  simp only [e1, e2]
  refine classifier_renames fun X => ?_
  unfold Bagging.predict
  rw [e1, ← bind_rename]
  congr 1
  funext P
  rw [← bind_rename]
  congr 1
  funext am
  rw [← mapM_rename]
  simp only [pyGet_rename]

theorem boosting_renames {σ τ : PVal F → PVal F} {cs : List (PVal F)} {es : List (List (Methods F))} {e e' : Methods F} {l : Loss} {lr : F} {nf : Nat}
    (h : Renames τ e e') : Renames σ (boostingEst cs es e l lr nf) (boostingEst (cs.map σ) es e' l lr nf) := by
  unfold boostingEst
  rw [h.proba]
  generalize (es.map fun st => st.map fun m => Est.runNumbers m) = sts
  generalize Est.runProba e = ip
  have hc : ∀ X k ss c, (⟨cs.map σ, sts, ip, lr, nf, l⟩ : GB F (PVal F)).rawColumn X k ss c = (⟨cs, sts, ip, lr, nf, l⟩ : GB F (PVal F)).rawColumn X k ss c := by
    intro X k ss
    induction ss with
    | nil => exact fun _ => rfl
    | cons st ss ih =>
      intro c
      unfold GB.rawColumn
      simp only [ih]
  have e1 : (⟨cs.map σ, sts, ip, lr, nf, l⟩ : GB F (PVal F)).predictProba = (⟨cs, sts, ip, lr, nf, l⟩ : GB F (PVal F)).predictProba := funext fun X => by
    unfold GB.predictProba GB.rawPredict
    simp only [hc]
    rfl
  have e2 : (⟨cs.map σ, sts, ip, lr, nf, l⟩ : GB F (PVal F)).predictLogProba = (⟨cs, sts, ip, lr, nf, l⟩ : GB F (PVal F)).predictLogProba := funext fun X => by
    unfold GB.predictLogProba
    rw [e1]
  simp only [e1, e2]
  refine classifier_renames fun X => ?_
  unfold GB.predict
  rw [e1, ← bind_rename]
  congr 1
  funext P
  exact labels_rename σ cs argmax P

theorem labels_unique {e : Attrs F} {cs cs' : List (PVal F)} (h : HasLabels e cs) (h' : HasLabels e cs') : cs' = cs := by
  have := Option.some.inj (h.1.symm.trans h'.1)
  cases this
  rfl

theorem learned_named {σ : PVal F → PVal F} {c : String} {e e' : Attrs F} {s : Single F} (h : Learned c e s) (hc : c ∈ labelled) (ho : OtherNames σ e e') :
    ∃ t, Learned c e' t ∧ Named σ s t := by
  obtain ⟨ho, ls, hls, hls'⟩ := ho
  have vec : ∀ {n xs}, n ≠ "classes_" → HasVec e n xs → HasVec e' n xs := fun hn h => (ho _ hn).1 _ h
  have mat : ∀ {n xs}, n ≠ "classes_" → HasMat e n xs → HasMat e' n xs := fun hn h => (ho _ hn).1 _ h
  have str : ∀ {n o}, n ≠ "classes_" → HasStrOrNot e n o → HasStrOrNot e' n o := fun {n o} hn h => by
    cases o with
    | none => exact (ho _ hn).2 h
    | some s => exact (ho _ hn).1 _ h
  cases h with
  | @linear _ k _ coef cs b mc so lo hk h1 h2 h3 h4 h5 h6 =>
    cases labels_unique hls h2
    refine ⟨_, .linear hk (mat (by decide) h1) hls' (b := b) ?_ (str (by decide) h4) (str (by decide) h5) (str (by decide) h6), ?_⟩
    · match b, h3 with
      | none, h3 => exact (ho _ (by decide)).2 h3
      | some (.scalar x), h3 => exact h3.imp ((ho _ (by decide)).1 _) ((ho _ (by decide)).1 _)
      | some (.vector xs), h3 => exact (ho _ (by decide)).1 _ h3
    · have : Linear.ofFitted coef (ls.map σ) b mc so lo = { Linear.ofFitted coef ls b mc so lo with classes := (Linear.ofFitted coef ls b mc so lo).classes.map σ } := by
        unfold Linear.ofFitted
        simp only [List.length_map]
      rw [this]
      exact .linear
  | @treeClassifier _ _ l r f th value cs t hc h1 h2 h3 =>
    obtain ⟨c1, v1, ns, vs, g1, g2⟩ := h1
    cases cs with
    | none =>
      exfalso
      rcases h2 with h2 | h2
      · exact absurd (hls.1.symm.trans h2) (by simp)
      · exact absurd (hls.1.symm.trans h2) (by simp)
    | some cs =>
      cases labels_unique hls h2
      refine ⟨_, .treeClassifier (cs := some (ls.map σ)) (t := { t with classes := t.classes.map σ }) hc ⟨c1, v1, ns, vs, (ho _ (by decide)).1 _ g1, g2⟩ hls' ?_, .tree⟩
      unfold Tree.ofSklearn at h3 ⊢
      obtain ⟨x, hx, h3⟩ := bind_ok_iff.1 h3
      cases h3
      rw [hx]
      rfl
  | @gaussianNB _ m h1 h2 h3 h4 =>
    cases labels_unique hls h2
    exact ⟨_, .gaussianNB (m := { m with classes := m.classes.map σ }) (vec (by decide) h1) hls' (mat (by decide) h3) (mat (by decide) h4), .gaussianNB⟩
  | @multinomialNB _ m h1 h2 h3 =>
    cases labels_unique hls h2
    exact ⟨_, .multinomialNB (m := { m with classes := m.classes.map σ }) (vec (by decide) h1) hls' (mat (by decide) h3), .multinomialNB⟩
  | @complementNB _ m h1 h2 h3 =>
    cases labels_unique hls h2
    exact ⟨_, .complementNB (m := { m with classes := m.classes.map σ }) (vec (by decide) h1) hls' (mat (by decide) h3), .complementNB⟩
  | @xgb _ ob cs rows m K n h1 h2 h3 h4 h5 h6 h7 =>
    cases labels_unique hls h3
    obtain ⟨c1, v1, ns, vs, c2, v2, ms, ds, g1, g2⟩ := h6
    refine ⟨_, .xgb (m := { m with classes := m.classes.map σ }) ((ho _ (by decide)).1 _ h1) ((ho _ (by decide)).1 _ h2) hls' ((ho _ (by decide)).1 _ h4)
      ((ho _ (by decide)).1 _ h5) ⟨c1, v1, ns, vs, c2, v2, ms, ds, (ho _ (by decide)).1 _ g1, g2⟩ ?_, .xgb⟩
    unfold Xgb.ofBooster at h7 ⊢
    obtain ⟨x, hx, h7⟩ := bind_ok_iff.1 h7
    obtain ⟨y, hy, h7⟩ := bind_ok_iff.1 h7
    cases h7
    rw [hx, hy]
    rfl
  | treeRegressor h _ _ _ => exfalso; rcases h with rfl | rfl <;> exact absurd hc (by decide)
  | _ => exact absurd hc (by decide)

theorem behaves_parts {ms ms' : List (SkObj (Attrs F) (PVal F) F)} {es : List (Methods F)} (he : List.Forall₂ (Behaves lib encode) ms es) (hlen : ms.length = ms'.length)
    (h : ∀ p ∈ ms.zip ms', ∀ f, Behaves lib encode p.1 f → ∃ f', Behaves lib encode p.2 f' ∧ Est.runProba f' = Est.runProba f) :
    ∃ es', List.Forall₂ (Behaves lib encode) ms' es' ∧ List.Forall₂ (fun e e' => Est.runProba e' = Est.runProba e) es es' := by
  induction he generalizing ms' with
  | nil =>
    cases ms' with
    | nil => exact ⟨[], .nil, .nil⟩
    | cons _ _ => simp at hlen
  | @cons m e ms es hm _ ih =>
    cases ms' with
    | nil => simp at hlen
    | cons m' ms' =>
      obtain ⟨f', h1, h2⟩ := h (m, m') (by simp) e hm
      obtain ⟨es', h3, h4⟩ := ih (ms' := ms') (by simpa using hlen) fun p hp => h p (by simp [hp])
      exact ⟨f' :: es', .cons h1 h3, .cons h2 h4⟩

theorem forall₂_snoc {α β : Type} {R : α → β → Prop} {xs : List α} {x : α} {ys : List β} (h : List.Forall₂ R (xs ++ [x]) ys) :
    ∃ zs z, ys = zs ++ [z] ∧ List.Forall₂ R xs zs ∧ R x z := by
  induction xs generalizing ys with
  | nil =>
    cases h with
    | cons h hs => cases hs; exact ⟨[], _, rfl, .nil, h⟩
  | cons a xs ih =>
    cases h with
    | cons h hs =>
      obtain ⟨zs, z, rfl, h1, h2⟩ := ih hs
      exact ⟨_ :: zs, z, rfl, .cons h h1, h2⟩

theorem forall₂_append_one {α β : Type} {R : α → β → Prop} {xs : List α} {x : α} {ys : List β} {y : β} (h : List.Forall₂ R xs ys) (h' : R x y) :
    List.Forall₂ R (xs ++ [x]) (ys ++ [y]) := by
  induction h with
  | nil => exact .cons h' .nil
  | cons h _ ih => exact .cons h ih

theorem behaves_renames {σ : PVal F → PVal F} {o o' : SkObj (Attrs F) (PVal F) F} (h : Relabel σ o o') {f : Methods F}
    (hb : Behaves lib encode o f) : ∃ f', Behaves lib encode o' f' ∧ Renames σ f f' := by
  induction h generalizing f with
  | same => exact ⟨f, hb, .refl f⟩
  | single hc ho =>
    cases hb with
    | single hv hl =>
      obtain ⟨t, h1, h2⟩ := learned_named hl hc ho
      exact ⟨_, .single hv h1, named_renames h2⟩
  | @pipeline σ v steps n o o' _ ih =>
    cases hb with
    | @pipeline _ _ es hv hs =>
      rw [List.map_append] at hs
      obtain ⟨zs, z, rfl, g1, g2⟩ := forall₂_snoc hs
      obtain ⟨z', h1, h2⟩ := ih g2
      refine ⟨_, .pipeline (es := zs ++ [z']) hv ?_, ?_⟩
      · rw [List.map_append]
        exact forall₂_append_one g1 h1
      · have hl : (steps.map Prod.fst).length = zs.length := by rw [← g1.length_eq]; simp
        rw [List.map_append, List.map_append, List.zip_append hl, List.zip_append hl]
        exact pipe_renames h2 _ n
  | @ensemble σ k v fs cs ms ms' τ hp hlen _ ih =>
    cases hb with
    | @ensemble _ _ _ _ _ es hv hcs he =>
      obtain ⟨es', h1, h2⟩ := behaves_parts he hlen fun p hp f hf => by
        obtain ⟨f', a, b⟩ := ih p hp hf
        exact ⟨f', a, b.proba⟩
      exact ⟨_, .ensemble hv (by simpa using hp) h1, ensemble_renames h2⟩
  | @boosting σ τ v cs stages init init' loss args hp _ ih =>
    cases hb with
    | @boosting _ _ _ _ _ lr nf l es e hv hcs hs hi hl =>
      obtain ⟨e', h1, h2⟩ := ih hi
      exact ⟨_, .boosting hv (by simpa using hp) hs h1 (by rw [List.length_map]; exact hl), boosting_renames h2⟩

end PurePredict
