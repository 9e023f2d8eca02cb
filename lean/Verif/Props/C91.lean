import Verif.Props.C89
import Verif.Props.C55
import Verif.Spec.Methods
/-
C91: which methods and labels a converted object has.
-/
namespace PurePredict
open Spec
variable {F : Type} [Arith F] {lib : String → TextLib} {encode : Str → List Nat}

/-! ### Methods -/

theorem checkProba_iff (m : Linear F (PVal F)) : (∃ u, m.checkProba = .ok u) ↔ ∃ l, m.loss = some l ∧ l ∈ logLosses := by
  unfold Linear.checkProba attr
  cases m.loss with
  | none => simp
  | some l =>
    simp only [py_ok_bind, Option.some.injEq, exists_eq_left', logLosses]
    by_cases h : l ∈ ["", "l", "o", "g", "lo", "og", "log"] <;> simp [h]

theorem single_methods {c : String} {e : Attrs F} {s : Single F} (h : Learned c e s) (v : Option (List Char))
    (m : Method) : HasMethod (s.est lib encode) m ↔ Offers (.leaf c v e) m := by
  have key : Offers (.leaf c v e) m ↔ (c ∈ transforming ∧ m = .transform) ∨ (c ∈ predicting ∧ m = .predict) ∨
      (c ∈ probabilistic ∧ (m = .proba ∨ m = .logProba)) ∨
      (c ∈ byLoss ∧ (∃ l, HasAttr e "loss" (.str l) ∧ l ∈ logLosses) ∧ (m = .proba ∨ m = .logProba)) ∨
      (c = "XGBClassifier" ∧ m = .proba) := by
    constructor
    · intro h
      cases h with
      | transform h => exact .inl ⟨h, rfl⟩
      | predict h => exact .inr (.inl ⟨h, rfl⟩)
      | proba h hm => exact .inr (.inr (.inl ⟨h, hm⟩))
      | loss h h1 h2 hm => exact .inr (.inr (.inr (.inl ⟨h, ⟨_, h1, h2⟩, hm⟩)))
      | booster h => exact .inr (.inr (.inr (.inr ⟨h, rfl⟩)))
    · rintro (⟨h, rfl⟩ | ⟨h, rfl⟩ | ⟨h, hm⟩ | ⟨h, ⟨l, h1, h2⟩, hm⟩ | ⟨rfl, rfl⟩)
      · exact .transform h
      · exact .predict h
      · exact .proba h hm
      · exact .loss h h1 h2 hm
      · exact .booster rfl
  rw [key]
  cases h with
  | @linear c k e coef cs b mc so lo hk h1 h2 h3 h4 h5 h6 =>
    have hl : (∃ l, HasAttr e "loss" (.str l) ∧ l ∈ logLosses) ↔ ∃ l, lo = some l ∧ l ∈ logLosses := by
      cases lo with
      | none =>
        have : List.lookup "loss" e = none := h6
        simp [HasAttr, this]
      | some l =>
        have : List.lookup "loss" e = some (.str l) := h6
        simp [HasAttr, this]
    rw [hl]
    have hc := checkProba_iff (Linear.ofFitted coef cs b mc so lo)
    have e1 : (Linear.ofFitted coef cs b mc so lo).loss = lo := rfl
    rw [e1] at hc
    rw [← hc]
    simp only [linearClasses, List.mem_cons, Prod.mk.injEq, List.not_mem_nil, or_false] at hk
    rcases hk with ⟨rfl, rfl⟩ | ⟨rfl, rfl⟩ | ⟨rfl, rfl⟩ | ⟨rfl, rfl⟩ | ⟨rfl, rfl⟩ | ⟨rfl, rfl⟩ <;>
      cases hp : (Linear.ofFitted coef cs b mc so lo).checkProba <;> cases m <;>
      simp [Single.est, LinKind.est, hp, classifier, predictor, HasMethod, transforming, predicting, probabilistic, byLoss]
  | treeClassifier hk =>
    rcases hk with rfl | rfl <;> cases m <;>
      simp [Single.est, classifier, HasMethod, transforming, predicting, probabilistic, byLoss]
  | treeRegressor hk =>
    rcases hk with rfl | rfl <;> cases m <;>
      simp [Single.est, predictor, HasMethod, transforming, predicting, probabilistic, byLoss]
  | _ => cases m <;>
      simp [Single.est, classifier, predictor, probabilist, transformer, HasMethod, transforming, predicting, probabilistic, byLoss]

theorem pipelineEst_methods (ns : List String) (es : List (Methods F)) (h : ns.length = es.length) (m : Method) :
    HasMethod (pipelineEst (ns.zip es)) m ↔ ∃ e, es.getLast? = some e ∧ HasMethod e m := by
  have hl : ((ns.zip es).map fun s => (s.1, some s.2)).getLast? =
      (es.getLast?).bind fun e => ns.getLast?.map fun n => (n, some e) := by
    rw [List.getLast?_map]
    rcases List.eq_nil_or_concat es with rfl | ⟨es, e, rfl⟩
    · simp
    · rcases List.eq_nil_or_concat ns with rfl | ⟨ns, n, rfl⟩
      · simp at h
      · simp only [List.concat_eq_append, List.length_append, List.length_singleton, Nat.add_right_cancel_iff] at h
        simp [List.concat_eq_append, List.zip_append h]
  cases hx : es.getLast? with
  | none =>
    rw [hx] at hl
    simp only [Option.bind_none] at hl
    cases m <;> simp [HasMethod, pipelineEst, Pipeline.asEst, Pipeline.finalEstimator, Pipeline.delegated, hl]
  | some e =>
    rw [hx] at hl
    have hn : ∃ n, ns.getLast? = some n := by
      cases hn : ns.getLast? with
      | some n => exact ⟨n, rfl⟩
      | none =>
        rw [List.getLast?_eq_none_iff] at hn
        subst hn
        have : es = [] := List.length_eq_zero_iff.1 h.symm
        subst this; cases hx
    obtain ⟨n, hn⟩ := hn
    simp only [hn, Option.bind_some, Option.map_some] at hl
    cases m
    · cases ht : e.transform <;>
        simp [HasMethod, pipelineEst, Pipeline.asEst, Pipeline.finalEstimator, hl, ht]
    · cases ht : e.predict <;>
        simp [HasMethod, pipelineEst, Pipeline.asEst, Pipeline.finalEstimator, Pipeline.delegated, hl, ht]
    · cases ht : e.predictProba <;>
        simp [HasMethod, pipelineEst, Pipeline.asEst, Pipeline.finalEstimator, Pipeline.delegated, hl, ht]
    · cases ht : e.predictLogProba <;>
        simp [HasMethod, pipelineEst, Pipeline.asEst, Pipeline.finalEstimator, Pipeline.delegated, hl, ht]

theorem forall₂_last {α β : Type} {R : α → β → Prop} {l : List α} {l' : List β} (h : List.Forall₂ R l l') :
    (l.getLast? = none ∧ l'.getLast? = none) ∨ ∃ a b, l.getLast? = some a ∧ l'.getLast? = some b ∧ R a b := by
  have h' := List.rel_reverse h
  rw [← List.head?_reverse, ← List.head?_reverse]
  generalize l.reverse = k, l'.reverse = k' at h' ⊢
  cases h' with
  | nil => exact .inl ⟨rfl, rfl⟩
  | cons h _ => exact .inr ⟨_, _, rfl, rfl, h⟩

/-- An object that should behave as `f` has exactly the methods that the classes of its
parts say. -/
theorem behaves_methods {o : SkObj (Attrs F) (PVal F) F} {f : Methods F} (h : Behaves lib encode o f) (m : Method) :
    HasMethod f m ↔ Offers o m := by
  induction o using SkObj.induct generalizing f with
  | _ o ih =>
    cases h with
    | single hv hl => exact single_methods hl _ m
    | @pipeline v steps es hv hs =>
      have hlen := hs.length_eq
      rw [pipelineEst_methods _ _ (by rw [← hlen]; simp)]
      have key : Offers (.pipeline v steps) m ↔ ∃ o, (steps.map Prod.snd).getLast? = some o ∧ Offers o m := by
        constructor
        · intro h
          cases h with
          | @pipeline _ _ n o _ h1 h2 => exact ⟨o, by rw [List.getLast?_map, h1]; rfl, h2⟩
        · rintro ⟨o, h1, h2⟩
          rw [List.getLast?_map] at h1
          obtain ⟨⟨n, o'⟩, h3, rfl⟩ := Option.map_eq_some_iff.1 h1
          exact .pipeline h3 h2
      rw [key]
      rcases forall₂_last hs with ⟨h1, h2⟩ | ⟨a, b, h1, h2, h3⟩
      · simp [h1, h2]
      · rw [h1, h2]
        simp only [Option.some.injEq, exists_eq_left']
        exact ih a (by simpa [parts] using List.mem_of_getLast? h1) h3
    | union =>
      cases m <;> constructor <;> intro h <;> first | exact .union | rfl | cases h
    | ensemble =>
      cases m <;> constructor <;> intro h <;>
        first | exact .ensemble (by decide) | rfl | (cases h; done) | (cases h with | ensemble h => exact absurd rfl h)
    | boosting =>
      cases m <;> constructor <;> intro h <;>
        first | exact .boosting (by decide) | rfl | (cases h; done) | (cases h with | boosting h => exact absurd rfl h)

variable (trunc : F → Py Int)

/-- **C91**, methods: the converted object has exactly the methods that the classes of its parts say:
transformers transform, classifiers predict (with probabilities for the probabilistic classes, and for
stochastic gradient descent when the loss allows them), a pipeline has the methods of its last step. -/
theorem C91_methods {o : SkObj (Attrs F) (PVal F) F} {f : Methods F} (h : Behaves lib encode o f) :
    ∃ r, convert (singles trunc initXgb) o = .ok r ∧ ∀ m, HasMethod (r.methods lib encode) m ↔ Offers o m := by
  obtain ⟨r, hr, hm⟩ := C89_converted_behaves trunc lib encode o f h
  exact ⟨r, hr, fun m => by rw [hm]; exact behaves_methods h m⟩

/-! ### Labels -/

/-- the labels a single estimator uses -/
def Single.labels : Single F → Option (List (PVal F))
  | .linear _ m => some m.classes
  | .treeClassifier t => some t.classes
  | .treeRegressor t => some t.classes
  | .gaussianNB m => some m.classes
  | .multinomialNB m => some m.classes
  | .complementNB m => some m.classes
  | .xgb m => some m.classes
  | _ => none

theorem items_ok {v : PVal F} {l : List (PVal F)} (h : v.items = .ok l) : v = .list l := by
  cases v <;> simp [PVal.items] at h
  rw [h]

theorem readLinear_labels {o : PVal F} {m : Linear F (PVal F)} (h : readLinear o = .ok m) :
    o.attr "classes_" = .ok (.list m.classes) := by
  unfold readLinear at h
  obtain ⟨v1, -, h⟩ := bind_ok_iff.1 h
  obtain ⟨c, -, h⟩ := bind_ok_iff.1 h
  obtain ⟨v2, hv, h⟩ := bind_ok_iff.1 h
  obtain ⟨cs, hc, h⟩ := bind_ok_iff.1 h
  obtain ⟨b, -, h⟩ := bind_ok_iff.1 h
  cases h
  rw [hv, items_ok hc]

theorem readTree_labels {o : PVal F} {m : Tree F (PVal F)} (h : readTree o = .ok m) :
    o.attr "classes_" = .ok (.list m.classes) := by
  unfold readTree at h
  obtain ⟨_, -, h⟩ := bind_ok_iff.1 h
  obtain ⟨_, -, h⟩ := bind_ok_iff.1 h
  obtain ⟨_, -, h⟩ := bind_ok_iff.1 h
  obtain ⟨_, -, h⟩ := bind_ok_iff.1 h
  obtain ⟨_, -, h⟩ := bind_ok_iff.1 h
  obtain ⟨_, -, h⟩ := bind_ok_iff.1 h
  obtain ⟨_, -, h⟩ := bind_ok_iff.1 h
  obtain ⟨_, -, h⟩ := bind_ok_iff.1 h
  obtain ⟨_, -, h⟩ := bind_ok_iff.1 h
  obtain ⟨_, -, h⟩ := bind_ok_iff.1 h
  obtain ⟨_, hv, h⟩ := bind_ok_iff.1 h
  obtain ⟨_, hc, h⟩ := bind_ok_iff.1 h
  cases h
  rw [hv, items_ok hc]

theorem readGaussianNB_labels {o : PVal F} {m : GaussianNB F (PVal F)} (h : readGaussianNB o = .ok m) :
    o.attr "classes_" = .ok (.list m.classes) := by
  unfold readGaussianNB at h
  obtain ⟨_, -, h⟩ := bind_ok_iff.1 h
  obtain ⟨_, -, h⟩ := bind_ok_iff.1 h
  obtain ⟨_, hv, h⟩ := bind_ok_iff.1 h
  obtain ⟨_, hc, h⟩ := bind_ok_iff.1 h
  obtain ⟨_, -, h⟩ := bind_ok_iff.1 h
  obtain ⟨_, -, h⟩ := bind_ok_iff.1 h
  obtain ⟨_, -, h⟩ := bind_ok_iff.1 h
  obtain ⟨_, -, h⟩ := bind_ok_iff.1 h
  cases h
  rw [hv, items_ok hc]

theorem readDiscreteNB_labels {o : PVal F} {m : DiscreteNB F (PVal F)} (h : readDiscreteNB o = .ok m) :
    o.attr "classes_" = .ok (.list m.classes) := by
  unfold readDiscreteNB at h
  obtain ⟨_, -, h⟩ := bind_ok_iff.1 h
  obtain ⟨_, -, h⟩ := bind_ok_iff.1 h
  obtain ⟨_, hv, h⟩ := bind_ok_iff.1 h
  obtain ⟨_, hc, h⟩ := bind_ok_iff.1 h
  obtain ⟨_, -, h⟩ := bind_ok_iff.1 h
  obtain ⟨_, -, h⟩ := bind_ok_iff.1 h
  cases h
  rw [hv, items_ok hc]

theorem readXgb_labels {o : PVal F} {m : Xgb F (PVal F)} (h : readXgb o = .ok m) :
    o.attr "classes_" = .ok (.list m.classes) := by
  unfold readXgb at h
  obtain ⟨_, -, h⟩ := bind_ok_iff.1 h
  obtain ⟨_, -, h⟩ := bind_ok_iff.1 h
  obtain ⟨_, -, h⟩ := bind_ok_iff.1 h
  obtain ⟨_, -, h⟩ := bind_ok_iff.1 h
  obtain ⟨_, -, h⟩ := bind_ok_iff.1 h
  obtain ⟨_, -, h⟩ := bind_ok_iff.1 h
  obtain ⟨_, -, h⟩ := bind_ok_iff.1 h
  obtain ⟨_, hv, h⟩ := bind_ok_iff.1 h
  obtain ⟨_, hc, h⟩ := bind_ok_iff.1 h
  obtain ⟨_, -, h⟩ := bind_ok_iff.1 h
  obtain ⟨_, -, h⟩ := bind_ok_iff.1 h
  obtain ⟨_, -, h⟩ := bind_ok_iff.1 h
  obtain ⟨_, -, h⟩ := bind_ok_iff.1 h
  obtain ⟨_, -, h⟩ := bind_ok_iff.1 h
  cases h
  rw [hv, items_ok hc]

/-- what is read has the labels of the object -/
def LabelsRead (b : PVal F) (p : Py (Single F)) : Prop :=
  ∀ s, p = .ok s → ∀ cs, s.labels = some cs → b.attr "classes_" = .ok (.list cs)

theorem labelsRead_ite {b : PVal F} {c : Prop} [Decidable c] {p q : Py (Single F)} (hp : LabelsRead b p)
    (hq : LabelsRead b q) : LabelsRead b (if c then p else q) := by
  split
  · exact hp
  · exact hq

theorem labelsRead_map {b : PVal F} {M : Type} {r : Py M} {g : M → Single F}
    (h : ∀ m, r = .ok m → ∀ cs, (g m).labels = some cs → b.attr "classes_" = .ok (.list cs)) :
    LabelsRead b (r >>= fun m => .ok (g m)) := by
  intro s hs
  obtain ⟨m, hm, hs⟩ := bind_ok_iff.1 hs
  cases hs
  exact h m hm

theorem labelsRead_none {b : PVal F} {p : Py (Single F)} (h : ∀ s, p = .ok s → s.labels = none) : LabelsRead b p := by
  intro s hs cs hc
  rw [h s hs] at hc
  cases hc

/-- the labels found by `readSingle` are the attribute `classes_` -/
theorem readSingle_labels (n : List Char) (b : PVal F) : LabelsRead b (readSingle n b) := by
  unfold readSingle
  refine labelsRead_ite (labelsRead_map fun m hm cs hc => by cases hc; exact readLinear_labels hm) ?_
  refine labelsRead_ite (labelsRead_map fun m hm cs hc => by cases hc; exact readLinear_labels hm) ?_
  refine labelsRead_ite (labelsRead_map fun m hm cs hc => by cases hc; exact readLinear_labels hm) ?_
  refine labelsRead_ite (labelsRead_map fun m hm cs hc => by cases hc; exact readTree_labels hm) ?_
  refine labelsRead_ite (labelsRead_map fun m hm cs hc => by cases hc; exact readTree_labels hm) ?_
  refine labelsRead_ite (labelsRead_map fun m hm cs hc => by cases hc; exact readGaussianNB_labels hm) ?_
  refine labelsRead_ite (labelsRead_map fun m hm cs hc => by cases hc; exact readDiscreteNB_labels hm) ?_
  refine labelsRead_ite (labelsRead_map fun m hm cs hc => by cases hc; exact readDiscreteNB_labels hm) ?_
  refine labelsRead_ite (labelsRead_map fun m hm cs hc => by cases hc) ?_
  refine labelsRead_ite (labelsRead_map fun m hm cs hc => by cases hc; exact readXgb_labels hm) ?_
  refine labelsRead_ite (labelsRead_map fun m hm cs hc => by cases hc) ?_
  refine labelsRead_ite (labelsRead_map fun m hm cs hc => by cases hc) ?_
  refine labelsRead_ite (labelsRead_map fun m hm cs hc => by cases hc) ?_
  refine labelsRead_ite (labelsRead_map fun m hm cs hc => by cases hc) ?_
  refine labelsRead_ite (labelsRead_map fun m hm cs hc => by cases hc) ?_
  refine labelsRead_ite (labelsRead_map fun m hm cs hc => by cases hc) ?_
  refine labelsRead_ite (labelsRead_map fun m hm cs hc => by cases hc) ?_
  refine labelsRead_ite (labelsRead_none fun s h => ?_) ?_
  · obtain ⟨m, hm, h⟩ := bind_ok_iff.1 h; obtain ⟨m', hm', h⟩ := bind_ok_iff.1 h; cases h; rfl
  refine labelsRead_ite (labelsRead_none fun s h => ?_) ?_
  · obtain ⟨m, hm, h⟩ := bind_ok_iff.1 h; obtain ⟨m', hm', h⟩ := bind_ok_iff.1 h
    obtain ⟨m'', hm'', h⟩ := bind_ok_iff.1 h; obtain ⟨m3, hm3, h⟩ := bind_ok_iff.1 h; cases h; rfl
  refine labelsRead_ite (labelsRead_none fun s h => ?_) ?_
  · obtain ⟨m, hm, h⟩ := bind_ok_iff.1 h; obtain ⟨m', hm', h⟩ := bind_ok_iff.1 h; cases h; rfl
  refine labelsRead_ite (labelsRead_map fun m hm cs hc => by cases hc) ?_
  refine labelsRead_ite (labelsRead_map fun m hm cs hc => by cases hc) ?_
  refine labelsRead_ite (labelsRead_map fun m hm cs hc => by cases hc) ?_
  exact labelsRead_none fun s h => by cases h

theorem hasLabels_unique {e : Attrs F} {cs cs' : List (PVal F)} (h : HasLabels e cs) (h' : HasLabels e cs') : cs = cs' := by
  have h1 : List.lookup "classes_" e = _ := h.1
  have h2 : List.lookup "classes_" e = _ := h'.1
  rw [h1] at h2
  cases h2; rfl

theorem ofSklearn_classes {l r f : List Int} {th : List F} {value : List (List (List F))} {cs : Option (List (PVal F))}
    {d : List (PVal F)} {t : Tree F (PVal F)} (h : Tree.ofSklearn l r f th value cs d = .ok t) : t.classes = cs.getD d := by
  unfold Tree.ofSklearn at h
  obtain ⟨v, -, h⟩ := bind_ok_iff.1 h
  cases h; rfl

theorem ofBooster_classes {ob bo : String} {cs : List (PVal F)} {K n : Nat} {fr : Nat → XgbFrame F} {m : Xgb F (PVal F)}
    (h : Xgb.ofBooster ob bo cs K n fr = .ok m) : m.classes = cs := by
  unfold Xgb.ofBooster at h
  obtain ⟨o, -, h⟩ := bind_ok_iff.1 h
  obtain ⟨ts, -, h⟩ := bind_ok_iff.1 h
  cases h; rfl

theorem tree_labels {e : Attrs F} {cs : List (PVal F)} {cs' : Option (List (PVal F))} (h : HasLabels e cs)
    (h' : HasLabelsOrNot e cs') : cs' = some cs := by
  cases cs' with
  | some cs' => rw [hasLabels_unique h h']
  | none =>
    have h1 : List.lookup "classes_" e = _ := h.1
    rcases h' with h2 | h2
    · have h2 : List.lookup "classes_" e = _ := h2
      rw [h1] at h2; cases h2
    · have h2 : List.lookup "classes_" e = _ := h2
      rw [h1] at h2; cases h2

theorem learned_labels {c : String} {e : Attrs F} {s : Single F} (h : Learned c e s) {cs : List (PVal F)}
    (hc : c ∈ predicting) (hd : c ≠ "DummyClassifier") (hl : HasLabels e cs) : s.labels = some cs := by
  cases h with
  | linear _ _ h => rw [hasLabels_unique hl h]; rfl
  | treeClassifier _ _ h ht => rw [Single.labels, ofSklearn_classes ht, tree_labels hl h]; rfl
  | treeRegressor _ _ h ht => rw [Single.labels, ofSklearn_classes ht, tree_labels hl h]; rfl
  | gaussianNB _ h => rw [hasLabels_unique hl h]; rfl
  | multinomialNB _ h => rw [hasLabels_unique hl h]; rfl
  | complementNB _ h => rw [hasLabels_unique hl h]; rfl
  | dummy => exact absurd rfl hd
  | xgb _ _ h _ _ _ hm => rw [hasLabels_unique hl h, Single.labels, ofBooster_classes hm]
  | _ => simp [predicting] at hc

theorem classesLast_eq (ss : List (String × PureEst (PVal F) (PVal F) F)) {n : String} {r : PureEst (PVal F) (PVal F) F}
    (h : ss.getLast? = some (n, r)) : classesLast ss = r.classes := by
  induction ss with
  | nil => cases h
  | cons s ss ih =>
    cases ss with
    | nil => cases h; rw [classesLast, classesStep]
    | cons s' ss =>
      rw [classesLast]
      exact ih (by rw [← h, List.getLast?_cons_cons])

/-- **C91**, labels: `classes_` of the converted object is the list of labels of the fitted one, of the
last step in a pipeline. -/
theorem C91_classes {o : SkObj (Attrs F) (PVal F) F} {f : Methods F} (h : Behaves lib encode o f)
    {cs : List (PVal F)} (hl : LabelsOf o cs) :
    ∃ r, convert (singles trunc initXgb) o = .ok r ∧ r.classes = .ok (.list cs) := by
  obtain ⟨r, hr, -⟩ := C89_converted_behaves trunc lib encode o f h
  refine ⟨r, hr, ?_⟩
  induction o using SkObj.induct generalizing f r with
  | _ o ih =>
    cases hl with
    | leaf hc hL hd =>
      cases h with
      | single hv hl =>
        obtain ⟨b, hb, hr'⟩ := learned_converted trunc hl hv
        rw [hb] at hr
        cases hr
        exact readSingle_labels _ _ _ hr' _ (learned_labels hl hc hd hL)
    | @pipeline v steps n p cs h1 h2 =>
      cases h with
      | @pipeline _ _ es hv hs =>
        obtain ⟨w, hw⟩ := hv
        rw [convert_pipeline, hw, py_ok_bind] at hr
        obtain ⟨ss, hss, hr⟩ := bind_ok_iff.1 hr
        obtain ⟨-, rfl⟩ := (checked_ok_iff _ _ _).1 hr
        obtain ⟨hn, hc⟩ := (convertSteps_ok_iff _ _ _).1 hss
        have hm : (n, p) ∈ steps := List.mem_of_getLast? h1
        have hp : (steps.map Prod.snd).getLast? = some p := by rw [List.getLast?_map, h1]; rfl
        rcases forall₂_last hs with ⟨h3, -⟩ | ⟨a, b, h3, -, h5⟩
        · rw [hp] at h3; cases h3
        rw [hp] at h3; cases h3
        rcases forall₂_last hc with ⟨h4, -⟩ | ⟨a, r, h4, h6, h7⟩
        · rw [hp] at h4; cases h4
        rw [hp] at h4; cases h4
        rw [List.getLast?_map] at h6
        obtain ⟨⟨n', r'⟩, h8, rfl⟩ := Option.map_eq_some_iff.1 h6
        rw [PureEst.classes, classesLast_eq _ h8]
        exact ih p (by simpa [parts] using ⟨n, hm⟩) h5 h2 _ h7
    | ensemble =>
      cases h with
      | ensemble hv hc hs =>
        obtain ⟨w, hw⟩ := hv
        rw [convert_ensemble, hw, py_ok_bind] at hr
        obtain ⟨ss, hss, hr⟩ := bind_ok_iff.1 hr
        obtain ⟨-, rfl⟩ := (checked_ok_iff _ _ _).1 hr
        rw [PureEst.classes]
    | boosting =>
      cases h with
      | boosting hv hc hs hi hl =>
        obtain ⟨w, hw⟩ := hv
        rw [convert_boosting, hw, py_ok_bind] at hr
        obtain ⟨ss, hss, hr⟩ := bind_ok_iff.1 hr
        obtain ⟨si, hsi, hr⟩ := bind_ok_iff.1 hr
        obtain ⟨ls, hls, hr⟩ := bind_ok_iff.1 hr
        obtain ⟨-, rfl⟩ := (checked_ok_iff _ _ _).1 hr
        rw [PureEst.classes]

/-! ### Log-probabilities -/

theorem pipelineEst_last (ns : List String) (es : List (Methods F)) (h : ns.length = es.length) {e : Methods F}
    (he : es.getLast? = some e) :
    (∀ g, e.predictProba = some g → (pipelineEst (ns.zip es)).predictProba = some fun X => do
      g (← Pipeline.applyAll ((ns.zip es).map fun s => (s.1, some s.2)).dropLast X)) ∧
    (∀ g, e.predictLogProba = some g → (pipelineEst (ns.zip es)).predictLogProba = some fun X => do
      g (← Pipeline.applyAll ((ns.zip es).map fun s => (s.1, some s.2)).dropLast X)) := by
  have hl : ((ns.zip es).map fun s => (s.1, some s.2)).getLast?.map Prod.snd = some (some e) := by
    rcases List.eq_nil_or_concat es with rfl | ⟨es, e', rfl⟩
    · cases he
    · rcases List.eq_nil_or_concat ns with rfl | ⟨ns, n, rfl⟩
      · simp at h
      · simp only [List.concat_eq_append, List.length_append, List.length_singleton, Nat.add_right_cancel_iff] at h
        simp only [List.concat_eq_append, List.getLast?_append_of_ne_nil, ne_eq, List.cons_ne_nil, not_false_eq_true,
          List.getLast?_singleton, Option.some.injEq] at he
        subst he
        simp [List.concat_eq_append, List.zip_append h]
  obtain ⟨⟨n, x⟩, h1, rfl⟩ := Option.map_eq_some_iff.1 hl
  constructor
  · intro g hg
    have hd : (⟨(ns.zip es).map fun s => (s.1, some s.2)⟩ : Pipeline (Data F) _ _).delegated Est.predictProba = .ok g := by
      simp [Pipeline.delegated, Pipeline.finalEstimator, h1, hg]
    simp only [pipelineEst, Pipeline.asEst, hd]
    congr 1
    funext X
    simp only [Pipeline.predictProba, hd, py_ok_bind, Pipeline.front]
  · intro g hg
    have hd : (⟨(ns.zip es).map fun s => (s.1, some s.2)⟩ : Pipeline (Data F) _ _).delegated Est.predictLogProba = .ok g := by
      simp [Pipeline.delegated, Pipeline.finalEstimator, h1, hg]
    simp only [pipelineEst, Pipeline.asEst, hd]
    congr 1
    funext X
    simp only [Pipeline.predictLogProba, hd, py_ok_bind, Pipeline.front]

theorem isLogOf_bind {fp : FP} {D : Type} (x : Py D) {p q : D → Py (List (List (XR fp)))}
    (h : ∀ d, IsLogOf fp (p d) (q d)) : IsLogOf fp (x >>= p) (x >>= q) := by
  cases x with
  | ok d => exact h d
  | error e =>
    constructor
    · intro P hP; cases hP
    · intro e' h'; cases h'; rfl

theorem isLogOf_onArr {fp : FP} {p q : Arr (XR fp) → Py (List (List (XR fp)))} (h : ∀ X, IsLogOf fp (p X) (q X))
    (X : Data (XR fp)) : IsLogOf fp (Data.onArr p X) (Data.onArr q X) := by
  cases X with
  | arr X => exact h X
  | _ =>
    constructor
    · intro P hP; cases hP
    · intro e' h'; exact h'

/-- **C91**, log-probabilities: for every converted classifier of any depth that does not end in naive Bayes
or an XGBClassifier (which has no `predict_log_proba`), `predict_log_proba` exists when `predict_proba` does and is its entrywise logarithm on every request, with
the same exceptions, in every sound rounding. -/
theorem C91_log_partial {fp : FP} (hs : fp.Sound) {o : SkObj (Attrs (XR fp)) (PVal (XR fp)) (XR fp)}
    {f : Methods (XR fp)} (h : Behaves lib encode o f) (hb : ¬ EndsInBayes o) (hx : ¬ EndsInBooster o) {pp : Data (XR fp) → Py (List (List (XR fp)))}
    (hpp : f.predictProba = some pp) : ∃ pl, f.predictLogProba = some pl ∧ ∀ X, IsLogOf fp (pp X) (pl X) := by
  induction o using SkObj.induct generalizing f pp with
  | _ o ih =>
    cases h with
    | @single c v e s hv hl =>
      cases hl with
      | @linear _ k _ coef cs b mc so lo =>
        cases k with
        | logistic =>
          cases hpp
          exact ⟨_, rfl, isLogOf_onArr fun X => C55_logistic hs _ X⟩
        | sgd =>
          revert hpp
          simp only [Single.est, LinKind.est]
          cases (Linear.ofFitted coef cs b mc so lo).checkProba with
          | error x => intro h; cases h
          | ok u =>
            intro h; cases h
            exact ⟨_, rfl, isLogOf_onArr fun X => C55_sgd hs _ X⟩
        | plain => cases hpp
      | treeClassifier => cases hpp; exact ⟨_, rfl, isLogOf_onArr fun X => C55_tree hs _ X⟩
      | dummy => cases hpp; exact ⟨_, rfl, isLogOf_onArr fun X => C55_dummy hs _ X⟩
      | gaussianNB => exact absurd (.leaf (by simp)) hb
      | multinomialNB => exact absurd (.leaf (by simp)) hb
      | complementNB => exact absurd (.leaf (by simp)) hb
      | xgb => exact absurd (.leaf rfl) hx
      | _ => cases hpp
    | @pipeline v steps es hv hsteps =>
      have hlen : (steps.map Prod.fst).length = es.length := by rw [← hsteps.length_eq]; simp
      obtain ⟨e, he, hm⟩ := (pipelineEst_methods (steps.map Prod.fst) es hlen .proba).1 (by
        show Option.isSome _ = true
        rw [hpp]; rfl)
      rcases forall₂_last hsteps with ⟨-, h2⟩ | ⟨a, b, h1, h2, h3⟩
      · rw [he] at h2; cases h2
      rw [he] at h2; cases h2
      rw [List.getLast?_map] at h1
      obtain ⟨⟨n, a'⟩, h4, rfl⟩ := Option.map_eq_some_iff.1 h1
      obtain ⟨g, hg⟩ := Option.isSome_iff_exists.1 hm
      obtain ⟨gl, hgl, hlog⟩ := ih a' (by simpa [parts] using ⟨n, List.mem_of_getLast? h4⟩) h3
        (fun hy => hb (.pipeline h4 hy)) (fun hy => hx (.pipeline h4 hy)) hg
      obtain ⟨k1, k2⟩ := pipelineEst_last (steps.map Prod.fst) es hlen he
      rw [k1 g hg] at hpp
      cases hpp
      exact ⟨_, k2 gl hgl, fun X => isLogOf_bind _ hlog⟩
    | union => cases hpp
    | ensemble => cases hpp; exact ⟨_, rfl, isLogOf_onArr fun X => C55_bagging hs _ X⟩
    | boosting => cases hpp; exact ⟨_, rfl, isLogOf_onArr fun X => C55_gb hs _ X⟩

/-! ### Unions -/

/-- **C91**, unions: the union of converted transformers on numeric rows is the `FeatureUnion` of C42, on
documents the union of C87. -/
theorem C91_union (steps : List (String × Methods F)) (ws : Option (List (String × F))) :
    ∃ t, (unionEst steps ws).transform = some t ∧ (∀ X, t (.arr X) = do
      return .arr (← (⟨steps.map fun s => (s.1, fun A => s.2.runTransform (.arr A)), ws⟩ : FeatureUnion F).transform X)) ∧
      ∀ ds, t (.docs ds) = do
        return .arr (← (⟨steps.map fun s => (s.1, fun d => s.2.runTransform (.docs d)), ws⟩ : TextUnion F).transform ds) := by
  refine ⟨_, rfl, fun X => ?_, fun ds => ?_⟩
  · simp only [FeatureUnion.transform, Data.check]
    cases checkArray X .allow with
    | error e => rfl
    | ok X' =>
      simp only [py_ok_bind, mapM_map']
      rfl
  · simp only [TextUnion.transform, Data.check]
    cases ds with
    | nil => rfl
    | cons d ds =>
      simp only [List.isEmpty_cons, Bool.false_eq_true, if_false, py_ok_bind, mapM_map']
      rfl

/-! ### Labels of DummyClassifier -/

/-- **C91** is false of DummyClassifier: whatever was fitted, the converted object has no `classes_`. -/
theorem C91_dummy_false {e : Attrs F} {d : Dummy F} (h : Learned "DummyClassifier" e (.dummy d)) {v : Option (List Char)}
    (hv : ReadableVersion v) : ∃ r, convert (singles trunc initXgb) (.leaf "DummyClassifier" v e) = .ok r ∧
      r.classes = .error .attributeError := by
  obtain ⟨r, hr, -⟩ := C89_converted_behaves trunc (fun _ => ⟨fun _ => false, id, id, fun _ => false, fun _ => []⟩)
    (fun _ => []) _ _ (.single hv h)
  refine ⟨r, hr, ?_⟩
  have ht : ("DummyClassifier", "dummy.DummyClassifierPure",
      [Strategy, Listed "class_prior_", Copied "n_classes_", Copied "n_outputs_"]) ∈ classTable trunc := by
    simp [classTable]
  obtain ⟨b, rfl, hb⟩ := (C84_single trunc initXgb ht _ _ _).1 hr
  obtain ⟨-, l, hl, -, rfl⟩ := hb
  obtain ⟨l1, k1, h1, ⟨l2, k2, h2, ⟨l3, k3, h3, ⟨l4, l5, h4, rfl, rfl⟩, rfl⟩, rfl⟩, rfl⟩ := hl
  obtain ⟨v2, d2, -, -, rfl⟩ := h2
  obtain ⟨v3, -, rfl⟩ := h3
  obtain ⟨v4, -, rfl⟩ := h4
  rw [PureEst.classes]
  have hs : ∃ n v, l1 = [(n, v)] ∧ n ≠ "classes_" := by
    obtain ⟨v, -, -, rfl⟩ := h1
    exact ⟨_, _, rfl, by decide⟩
  obtain ⟨n, v, rfl, hn⟩ := hs
  simp [PVal.attr, Dict.get?, List.lookup, beq_false_of_ne hn.symm, beq_false_of_ne hn]

/-! ### Non-vacuity -/

/-- A pipeline of a scaler and a stochastic gradient classifier with log loss has the three methods of a
classifier, with hinge loss only `predict`. -/
example (v v' : Option (List Char)) (s : Attrs F) (l : String) (m : Method) :
    Offers (.pipeline v [("scale", .leaf "StandardScaler" v' s), ("clf", .leaf "SGDClassifier" v' [("loss", .str l)])]) m ↔
      m = .predict ∨ (l ∈ logLosses ∧ (m = .proba ∨ m = .logProba)) := by
  constructor
  · intro h
    cases h with
    | pipeline h1 h2 =>
      cases h1
      cases h2 with
      | transform h => simp [transforming] at h
      | predict => exact .inl rfl
      | proba h => simp [probabilistic] at h
      | booster h => simp at h
      | loss _ h1 h2 hm => cases h1; exact .inr ⟨h2, hm⟩
  · rintro (rfl | ⟨h, hm⟩)
    · exact .pipeline rfl (.predict (by simp [predicting]))
    · exact .pipeline rfl (.loss (by simp [byLoss]) rfl h hm)

example (v v' : Option (List Char)) (s : Attrs F) (a b c : F) : LabelsOf
    (.pipeline v [("scale", .leaf "StandardScaler" v' s), ("clf", .leaf "RidgeClassifier" v' (demoRidge a b c))])
    [.str "no", .str "yes"] ∧ ¬ EndsInBayes
    (.pipeline v [("scale", .leaf "StandardScaler" v' s), ("clf", .leaf "RidgeClassifier" v' (demoRidge a b c))]) ∧
    ¬ EndsInBooster
    (.pipeline v [("scale", .leaf "StandardScaler" v' s), ("clf", .leaf "RidgeClassifier" v' (demoRidge a b c))]) := by
  refine ⟨.pipeline rfl (.leaf (by simp [predicting]) ⟨rfl, ?_⟩ (by decide)), ?_, ?_⟩
  · intro c hc
    simp only [List.mem_cons, List.not_mem_nil, or_false] at hc
    rcases hc with rfl | rfl <;> exact .str _
  · intro h
    cases h with
    | pipeline h1 h2 =>
      cases h1
      cases h2 with
      | leaf h => simp at h
  · intro h
    cases h with
    | pipeline h1 h2 =>
      cases h1
      cases h2 with
      | leaf h => simp at h

end PurePredict
