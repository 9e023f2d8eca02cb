import Verif.Props.C72
import Verif.Props.C22
import Verif.Props.C77
import Verif.Props.C89
/-
C90: from fitted objects with their attributes to the formulas for the predictions.
-/
namespace PurePredict
open Spec

/-! ### Pipelines of two steps -/

theorem pipelineEst_two {F : Type} [Arith F] (n1 n2 : String) (f : Data F → Py (Arr F)) (p : Arr F → Py (List (PVal F)))
    (pp pl : Arr F → Py (List (List F))) :
    ∃ gp gpp gpl, pipelineEst [(n1, transformer f), (n2, classifier p pp pl)] = ⟨none, some gp, some gpp, some gpl⟩ ∧
      ∀ X, gp X = (f X >>= p) ∧ gpp X = (f X >>= pp) ∧ gpl X = (f X >>= pl) := by
  refine ⟨_, _, _, rfl, ?_⟩
  intro X
  refine ⟨?_, ?_, ?_⟩ <;>
  · simp only [Pipeline.predict, Pipeline.predictProba, Pipeline.predictLogProba,
      Pipeline.delegated, Pipeline.finalEstimator, Pipeline.front, transformer, classifier, List.map_cons, List.map_nil,
      List.getLast?_cons_cons, List.getLast?_singleton, List.dropLast_cons_cons, List.dropLast_singleton,
      Pipeline.applyAll, py_ok_bind, py_pure]
    cases f X <;> rfl

section
variable (trunc : Ex → Py Int) (lib : String → TextLib) (encode : Str → List Nat)

/-- A fitted logistic regression with real parameters. -/
def Spec.HasLogistic (e : Attrs Ex) (W : List (List ℝ)) (b : List ℝ) (classes : List (PVal Ex)) (mc so : String) : Prop :=
  HasMat e "coef_" (W.map fins) ∧ HasLabels e classes ∧ HasIntercept e (some (.vector (fins b))) ∧
    HasStrOrNot e "multi_class" (some mc) ∧ HasStrOrNot e "solver" (some so) ∧ NoAttr e "loss"

/-- A model is fitted one-vs-rest (or has two classes). -/
def Spec.OneVsRest (mc so : String) (k : Nat) : Prop :=
  mc = "ovr" ∨ mc = "warn" ∨ (mc = "auto" ∧ (k ≤ 2 ∨ so = "liblinear"))

theorem hasLogistic_learned {e : Attrs Ex} {W : List (List ℝ)} {b : List ℝ} {classes : List (PVal Ex)} {mc so : String}
    (h : HasLogistic e W b classes mc so) : Learned "LogisticRegression" e (.linear .logistic
      (Linear.ofFitted (W.map fins) classes (some (.vector (fins b))) (some mc) (some so) none)) := by
  obtain ⟨h1, h2, h3, h4, h5, h6⟩ := h
  exact .linear (by simp [linearClasses]) h1 h2 h3 h4 h5 h6

theorem ofFitted_exact {W : List (List ℝ)} {b : List ℝ} (classes : List (PVal Ex)) (mc so lo : Option String) {w : Nat}
    (hW : Rect w W) (hb : b.length = W.length) (h0 : 0 < W.length) :
    (Linear.ofFitted (W.map fins) classes (some (.vector (fins b))) mc so lo).IsExact w W.length W b :=
  ⟨rfl, hW, rfl, rfl, hb, h0⟩

theorem ofFitted_isOvr (W : List (List ℝ)) (b : List ℝ) (classes : List (PVal Ex)) (mc so : String) :
    (Linear.ofFitted (W.map fins) classes (some (.vector (fins b))) (some mc) (some so) none).isOvr = .ok true ↔
      OneVsRest mc so classes.length := by
  rw [C05_dispatch _ mc so rfl rfl]
  show Except.ok (decide _) = _ ↔ _
  simp only [Except.ok.injEq, decide_eq_true_eq]
  rfl

theorem ofFitted_not_ovr (W : List (List ℝ)) (b : List ℝ) (classes : List (PVal Ex)) (mc so : String)
    (h : ¬ OneVsRest mc so classes.length) :
    (Linear.ofFitted (W.map fins) classes (some (.vector (fins b))) (some mc) (some so) none).isOvr = .ok false := by
  rw [C05_dispatch _ mc so rfl rfl]
  exact congrArg Except.ok (decide_eq_false h)

/-- The score of a standardised record. -/
noncomputable def Spec.scaledScore (w : Nat) (mean scale : Nat → ℝ) (W : List (List ℝ)) (b : List ℝ) (x : List ℝ)
    (c : Nat) : ℝ :=
  b.getD c 0 + ∑ j ∈ Finset.range w, (W.getD c []).getD j 0 * ((x.getD j 0 - mean j) / scale j)

theorem linScore_std (w : Nat) (mean scale : Nat → ℝ) (W : List (List ℝ)) (b : List ℝ) (x : List ℝ) (c : Nat) :
    linScore w W b ((List.range w).map fun j => stdEntry true true mean scale j (x.getD j 0)) c =
      scaledScore w mean scale W b x c := by
  unfold linScore scaledScore
  rw [add_comm]
  congr 1
  apply Finset.sum_congr rfl
  intro j hj
  rw [List.getD_eq_getElem _ _ (by simpa using hj)]
  simp [stdEntry, mul_comm]

/-- A fitted scaler with its means and standard deviations. -/
def Spec.HasScaling (e : Attrs Ex) (w : Nat) (mean scale : Nat → ℝ) : Prop :=
  HasAttr e "with_mean" (.bool true) ∧ HasAttr e "with_std" (.bool true) ∧
    HasVec e "scale_" (fins ((List.range w).map scale)) ∧ HasVec e "mean_" (fins ((List.range w).map mean)) ∧
    ∀ j < w, scale j ≠ 0

variable {v v1 v2 : Option (List Char)} (hv : ReadableVersion v) (hv1 : ReadableVersion v1) (hv2 : ReadableVersion v2)
  (n1 n2 : String) {e1 e2 : Attrs Ex}
include hv hv1 hv2

theorem scaled_behaves {w : Nat} {mean scale : Nat → ℝ} (h1 : HasScaling e1 w mean scale) {W : List (List ℝ)}
    {b : List ℝ} {classes : List (PVal Ex)} {mc so : String} (h2 : HasLogistic e2 W b classes mc so) :
    ∃ r, convert (singles trunc initXgb) (.pipeline v [(n1, .leaf "StandardScaler" v1 e1),
        (n2, .leaf "LogisticRegression" v2 e2)]) = .ok r ∧ ∃ gp gpp gpl,
      r.methods lib encode = ⟨none, some gp, some gpp, some gpl⟩ ∧ ∀ R : List (List ℝ), R ≠ [] → Rect w R →
        let m := Linear.ofFitted (W.map fins) classes (some (.vector (fins b))) (some mc) (some so) none
        let S := R.map fun x => (List.range w).map fun j => stdEntry true true mean scale j (x.getD j 0)
        gp (.arr (.ofMat (R.map fins))) = m.predict (.ofMat (S.map fins)) ∧
        gpp (.arr (.ofMat (R.map fins))) = m.predictProba (.ofMat (S.map fins)) := by
  obtain ⟨a1, a2, a3, a4, a5⟩ := h1
  have l1 : Learned "StandardScaler" e1 (.standard ⟨true, true, some (fins ((List.range w).map scale)),
      some (fins ((List.range w).map mean))⟩) := .standard a1 a2 a3 a4
  obtain ⟨r, hr, hm⟩ := C89_converted_behaves trunc lib encode _ _
    (.pipeline (steps := [(n1, .leaf "StandardScaler" v1 e1), (n2, .leaf "LogisticRegression" v2 e2)]) hv
      (.cons (.single hv1 l1) (.cons (.single hv2 (hasLogistic_learned h2)) .nil)))
  refine ⟨r, hr, ?_⟩
  obtain ⟨gp, gpp, gpl, hg, hx⟩ := pipelineEst_two n1 n2
    (Data.onArr (⟨true, true, some (fins ((List.range w).map scale)), some (fins ((List.range w).map mean))⟩ :
      StandardScaler Ex).transform)
    (Linear.ofFitted (W.map fins) classes (some (.vector (fins b))) (some mc) (some so) none).predict
    (Linear.ofFitted (W.map fins) classes (some (.vector (fins b))) (some mc) (some so) none).predictProba
    (Linear.ofFitted (W.map fins) classes (some (.vector (fins b))) (some mc) (some so) none).predictLogProba
  refine ⟨gp, gpp, gpl, hm.trans hg, ?_⟩
  intro R hR hw m S
  have ht := C22_transform_formula (⟨true, true, some (fins ((List.range w).map scale)),
    some (fins ((List.range w).map mean))⟩ : StandardScaler Ex) w mean scale (fun _ => rfl) (fun _ => ⟨rfl, a5⟩) R hR hw
  constructor
  · rw [(hx _).1]
    show (StandardScaler.transform _ _ >>= _) = _
    rw [ht, py_ok_bind]; rfl
  · rw [(hx _).2.1]
    show (StandardScaler.transform _ _ >>= _) = _
    rw [ht, py_ok_bind]; rfl

/-- **C90**, scaling and binary logistic regression: the fitted pipeline converts, and for every request
the probability of the second class is the logistic function of
`b + ∑ coef_j · (x_j - mean_j) / scale_j`; the label follows the sign of that score. -/
theorem C90_scaled_logistic {w : Nat} {mean scale : Nat → ℝ} (h1 : HasScaling e1 w mean scale) {W : List ℝ} {b : ℝ}
    (hW : W.length = w) {c0 c1 : PVal Ex} {mc so : String} (h2 : HasLogistic e2 [W] [b] [c0, c1] mc so)
    (ho : OneVsRest mc so 2) :
    ∃ r, convert (singles trunc initXgb) (.pipeline v [(n1, .leaf "StandardScaler" v1 e1),
        (n2, .leaf "LogisticRegression" v2 e2)]) = .ok r ∧ ∃ gp gpp gpl,
      r.methods lib encode = ⟨none, some gp, some gpp, some gpl⟩ ∧ ∀ R : List (List ℝ), R ≠ [] → Rect w R →
        gpp (.arr (.ofMat (R.map fins))) = .ok (R.map fun x =>
          fins [1 - sigmoid (scaledScore w mean scale [W] [b] x 0), sigmoid (scaledScore w mean scale [W] [b] x 0)]) ∧
        gp (.arr (.ofMat (R.map fins))) = .ok (R.map fun x =>
          if 0 < scaledScore w mean scale [W] [b] x 0 then c1 else c0) := by
  obtain ⟨r, hr, gp, gpp, gpl, hm, hx⟩ := scaled_behaves trunc lib encode hv hv1 hv2 n1 n2 h1 h2
  refine ⟨r, hr, gp, gpp, gpl, hm, fun R hR hw => ?_⟩
  obtain ⟨x1, x2⟩ := hx R hR hw
  have hex := ofFitted_exact (w := w) (W := [W]) (b := [b]) [c0, c1] (some mc) (some so) none (by simpa [Rect] using hW) rfl
    (by simp)
  have hS : (R.map fun x => (List.range w).map fun j => stdEntry true true mean scale j (x.getD j 0)) ≠ [] := by
    simpa using hR
  have hSw : Rect w (R.map fun x => (List.range w).map fun j => stdEntry true true mean scale j (x.getD j 0)) := by
    intro y hy; obtain ⟨x, _, rfl⟩ := List.mem_map.1 hy; simp
  constructor
  · rw [x2, C05_ovr_uses_lr _ _ ((ofFitted_isOvr _ _ _ _ _).2 ho), C05_lr_binary _ w [W] [b] hex _ hS hSw, List.map_map]
    congr 1
    apply List.map_congr_left
    intro x _
    simp only [Function.comp, linScore_std]
  · rw [x1, (C04_binary _ w [W] [b] hex c0 c1 rfl _ hS hSw).2, List.map_map]
    congr 1
    apply List.map_congr_left
    intro x _
    simp only [Function.comp, linScore_std]

/-- **C90**, several classes: softmax of the scores or normalised logistic functions, depending on how
the model was fitted; the label is that of the first largest score. -/
theorem C90_scaled_logistic_multi {w : Nat} {mean scale : Nat → ℝ} (h1 : HasScaling e1 w mean scale)
    {W : List (List ℝ)} {b : List ℝ} (hW : Rect w W) (hb : b.length = W.length) {classes : List (PVal Ex)}
    (hc : classes.length = W.length) (hk : 2 < W.length) {mc so : String} (h2 : HasLogistic e2 W b classes mc so) :
    ∃ r, convert (singles trunc initXgb) (.pipeline v [(n1, .leaf "StandardScaler" v1 e1),
        (n2, .leaf "LogisticRegression" v2 e2)]) = .ok r ∧ ∃ gp gpp gpl,
      r.methods lib encode = ⟨none, some gp, some gpp, some gpl⟩ ∧ ∀ R : List (List ℝ), R ≠ [] → Rect w R →
        (OneVsRest mc so W.length → gpp (.arr (.ofMat (R.map fins))) = .ok (R.map fun x =>
          fins ((List.range W.length).map (ovr W.length (scaledScore w mean scale W b x))))) ∧
        (¬ OneVsRest mc so W.length → gpp (.arr (.ofMat (R.map fins))) = .ok (R.map fun x =>
          fins ((List.range W.length).map (softmax W.length (scaledScore w mean scale W b x))))) ∧
        ∃ labels, gp (.arr (.ofMat (R.map fins))) = .ok labels ∧ List.Forall₂ (fun x l => ∃ i,
          IsFirstMax ((List.range W.length).map (scaledScore w mean scale W b x)) i ∧ classes[i]? = some l) R labels := by
  obtain ⟨r, hr, gp, gpp, gpl, hm, hx⟩ := scaled_behaves trunc lib encode hv hv1 hv2 n1 n2 h1 h2
  refine ⟨r, hr, gp, gpp, gpl, hm, fun R hR hw => ?_⟩
  obtain ⟨x1, x2⟩ := hx R hR hw
  have hex := ofFitted_exact (w := w) (W := W) (b := b) classes (some mc) (some so) none hW hb (by omega)
  have hS : (R.map fun x => (List.range w).map fun j => stdEntry true true mean scale j (x.getD j 0)) ≠ [] := by
    simpa using hR
  have hSw : Rect w (R.map fun x => (List.range w).map fun j => stdEntry true true mean scale j (x.getD j 0)) := by
    intro y hy; obtain ⟨x, _, rfl⟩ := List.mem_map.1 hy; simp
  have hfun : ∀ x, linScore w W b ((List.range w).map fun j => stdEntry true true mean scale j (x.getD j 0)) =
      scaledScore w mean scale W b x := fun x => funext fun c => linScore_std w mean scale W b x c
  refine ⟨fun ho => ?_, fun ho => ?_, ?_⟩
  · rw [x2, C05_ovr_uses_lr _ _ ((ofFitted_isOvr _ _ _ _ _).2 (by rw [hc]; exact ho)),
      C05_lr_multiclass _ w _ W b hex (by omega) _ hS hSw, List.map_map]
    congr 1
    apply List.map_congr_left
    intro x _
    simp only [Function.comp, hfun]
  · rw [x2, C05_multinomial _ w _ W b hex (by omega) (ofFitted_not_ovr _ _ _ _ _ (by rw [hc]; exact ho)) _ hS hSw,
      List.map_map]
    congr 1
    apply List.map_congr_left
    intro x _
    simp only [Function.comp, hfun]
  · obtain ⟨-, ls, h1, h2⟩ := C04_multiclass _ w _ W b hex (by omega) hc _ hS hSw
    refine ⟨ls, by rw [x1, h1], ?_⟩
    rw [List.forall₂_map_left_iff] at h2
    refine h2.imp ?_
    intro x l h
    rw [hfun] at h
    exact h

/-- **C90**, text classification: TfidfVectorizer and binary logistic regression from the fitted objects.
The score of a document is `textScore` (normalised tf-idf times coefficients, plus intercept). -/
theorem C90_text_logistic {p : String} {vec : CountVectorizer} {t : Tfidf Ex} {terms : List Str} {idf : List ℝ} {n : Norm}
    (hl : Learned "TfidfVectorizer" e1 (.tfidfVec p vec t)) (hf : FittedTfidf vec t terms idf n)
    {an : Str → List Str} (han : buildAnalyzer (lib p) vec.opts = .ok an) {W : List ℝ} {b : ℝ}
    (hW : W.length = terms.length) {c0 c1 : PVal Ex} {mc so : String} (h2 : HasLogistic e2 [W] [b] [c0, c1] mc so)
    (ho : OneVsRest mc so 2) :
    ∃ r, convert (singles trunc initXgb) (.pipeline v [(n1, .leaf "TfidfVectorizer" v1 e1),
        (n2, .leaf "LogisticRegression" v2 e2)]) = .ok r ∧ ∃ gp gpp gpl,
      r.methods lib encode = ⟨none, some gp, some gpp, some gpl⟩ ∧ ∀ docs : List Str, docs ≠ [] →
        gpp (.docs docs) = .ok (docs.map fun d => fins [1 - sigmoid (textScore (normOf n) terms idf [W] [b] (an d) 0),
          sigmoid (textScore (normOf n) terms idf [W] [b] (an d) 0)]) ∧
        gp (.docs docs) = .ok (docs.map fun d =>
          if 0 < textScore (normOf n) terms idf [W] [b] (an d) 0 then c1 else c0) := by
  obtain ⟨r, hr, hm⟩ := C89_converted_behaves trunc lib encode _ _
    (.pipeline (steps := [(n1, .leaf "TfidfVectorizer" v1 e1), (n2, .leaf "LogisticRegression" v2 e2)]) hv
      (.cons (.single hv1 hl) (.cons (.single hv2 (hasLogistic_learned h2)) .nil)))
  refine ⟨r, hr, ?_⟩
  obtain ⟨gp, gpp, gpl, hg, hx⟩ := pipelineEst_two n1 n2
    (Data.onDocs fun ds => tfidfVectorizerTransform (lib p) vec t (some ds))
    (Linear.ofFitted ([W].map fins) [c0, c1] (some (.vector (fins [b]))) (some mc) (some so) none).predict
    (Linear.ofFitted ([W].map fins) [c0, c1] (some (.vector (fins [b]))) (some mc) (some so) none).predictProba
    (Linear.ofFitted ([W].map fins) [c0, c1] (some (.vector (fins [b]))) (some mc) (some so) none).predictLogProba
  refine ⟨gp, gpp, gpl, hm.trans hg, fun docs hd => ?_⟩
  have hex := ofFitted_exact (w := terms.length) (W := [W]) (b := [b]) [c0, c1] (some mc) (some so) none
    (by simpa [Rect] using hW) rfl (by simp)
  have key := C72_binary hf han hex ((ofFitted_isOvr _ _ _ _ _).2 ho) c0 c1 rfl docs hd
  obtain ⟨k1, k2, -⟩ := textPipeline_eq (lib p) vec t
    (Linear.ofFitted ([W].map fins) [c0, c1] (some (.vector (fins [b]))) (some mc) (some so) none) docs
  constructor
  · rw [(hx _).2.1]
    exact k2.symm.trans key.1
  · rw [(hx _).1]
    exact k1.symm.trans key.2

end

/-! ### Forests -/

/-- The `tree_` attribute holds the tree `s`. -/
def Spec.HoldsTree {F : Type} [Arith F] (e : Attrs F) (s : SkTree F) : Prop :=
  HasTree e ((s.layout 0).map SkNode.left) ((s.layout 0).map SkNode.right) ((s.layout 0).map SkNode.feature)
    ((s.layout 0).map SkNode.threshold) ((s.layout 0).map SkNode.value)

/-- A fitted tree classifier, as the forests hold them. -/
def Spec.IsTreeMember {F : Type} [Arith F] (o : SkObj (Attrs F) (PVal F) F) (s : SkTree F) : Prop :=
  ∃ c v e cs, o = .leaf c v e ∧ (c = "DecisionTreeClassifier" ∨ c = "ExtraTreeClassifier") ∧ ReadableVersion v ∧
    HoldsTree e s ∧ HasLabels e cs

/-- A fitted regression tree, as boosting holds them. -/
def Spec.IsRegressionMember {F : Type} [Arith F] (o : SkObj (Attrs F) (PVal F) F) (s : SkTree F) : Prop :=
  ∃ v e, o = .leaf "DecisionTreeRegressor" v e ∧ ReadableVersion v ∧ HoldsTree e s ∧
    (NoAttr e "classes_" ∨ HasAttr e "classes_" .none)

theorem walk_labels {F C : Type} [Arith F] (l r f : List Int) (th : List F) (value : List (List F)) (cs cs' : List C)
    (x : Row F) (n : Nat) (nd : Int) :
    (⟨l, r, f, th, value, cs⟩ : Tree F C).walk x n nd = (⟨l, r, f, th, value, cs'⟩ : Tree F C).walk x n nd := by
  induction n generalizing nd with
  | zero => rfl
  | succ n ih =>
    unfold Tree.walk
    show ((⟨l, r, f, th, value, cs⟩ : Tree F C).step x nd >>= _) = ((⟨l, r, f, th, value, cs⟩ : Tree F C).step x nd >>= _)
    congr 1
    funext o
    cases o with
    | none => rfl
    | some n => exact ih n

/-- The labels of a tree are only used by `predict`. -/
theorem ofSklearn_labels {F C : Type} [Arith F] {l r f : List Int} {th : List F} {value : List (List (List F))}
    {cs cs' : Option (List C)} {d d' : List C} {t : Tree F C} (h : Tree.ofSklearn l r f th value cs d = .ok t) :
    ∃ t', Tree.ofSklearn l r f th value cs' d' = .ok t' ∧ t'.predictProba = t.predictProba ∧
      t'.predictReg = t.predictReg := by
  unfold Tree.ofSklearn at h ⊢
  obtain ⟨vals, hvals, h⟩ := bind_ok_iff.1 h
  cases h
  rw [hvals, py_ok_bind]
  have hg : (⟨l, r, f, th, vals, cs'.getD d'⟩ : Tree F C).getLeafNode =
      (⟨l, r, f, th, vals, cs.getD d⟩ : Tree F C).getLeafNode := funext fun x => walk_labels _ _ _ _ _ _ _ _ _ _
  refine ⟨_, rfl, ?_, ?_⟩
  · funext X
    unfold Tree.predictProba
    rw [hg]; rfl
  · funext X
    unfold Tree.predictReg
    rw [hg]

section
variable {trunc : Ex → Py Int} {lib : String → TextLib} {encode : Str → List Nat}

theorem forest_members {ms : List (SkObj (Attrs Ex) (PVal Ex) Ex)} {ss : List (SkTree Ex)} {k : Nat} (hk : 0 < k)
    (h : List.Forall₂ IsTreeMember ms ss) (hs : ∀ s ∈ ss, CountsTree k s) {classes : List (PVal Ex)}
    (hcls : classes.length = k) {ts : List (Tree Ex (PVal Ex))}
    (hts : ss.mapM (fun s => convertTree s classes) = .ok ts) :
    ∃ es : List (Methods Ex), List.Forall₂ (Behaves lib encode) ms es ∧
      es.map (fun m => (⟨m.runProba⟩ : Member Ex)) = ts.map fun t => ⟨t.predictProba⟩ := by
  induction h generalizing ts with
  | nil => cases hts; exact ⟨[], .nil, rfl⟩
  | @cons o s ms ss h1 _ ih =>
    rw [List.mapM_cons] at hts
    obtain ⟨t, ht, hts⟩ := bind_ok_iff.1 hts
    obtain ⟨ts', hts', hts⟩ := bind_ok_iff.1 hts
    cases hts
    obtain ⟨es, he, hes⟩ := ih (fun s h => hs s (by simp [h])) hts'
    obtain ⟨c, v, e, cs, rfl, hc, hv, hT, hL⟩ := h1
    obtain ⟨t', ht', hp, -⟩ := ofSklearn_labels (cs' := some cs) (d' := [.int 0, .int 1]) ht
    refine ⟨_ :: es, .cons (.single hv (.treeClassifier (cs := some cs) hc hT hL ht')) he, ?_⟩
    rw [List.map_cons, List.map_cons, hes, ← hp]
    rfl

variable (trunc lib encode)

/-- **C90**, forests: a fitted RandomForestClassifier or ExtraTreesClassifier (or a BaggingClassifier of
trees on all features) converts, and for every request the probabilities are the means over the trees of
the proportions at the leaf reached, the label that of the first largest mean. -/
theorem C90_forest (kind : EnsKind) {v : Option (List Char)} (hv : ReadableVersion v) {classes : List (PVal Ex)}
    (hp : ∀ c ∈ classes, Plain c) (k : Nat) (hk : 0 < k) (hcls : classes.length = k)
    {ms : List (SkObj (Attrs Ex) (PVal Ex) Ex)} {ss : List (SkTree Ex)} (hne : ss ≠ [])
    (h : List.Forall₂ IsTreeMember ms ss) (hs : ∀ s ∈ ss, CountsTree k s) :
    ∃ r, convert (singles trunc initXgb) (.ensemble kind v none classes ms) = .ok r ∧ ∃ gp gpp gpl,
      r.methods lib encode = ⟨none, some gp, some gpp, some gpl⟩ ∧
      ∀ M : List (List ℝ), M ≠ [] → (∀ s ∈ ss, ∀ x ∈ M, ∀ f ∈ s.features, f < x.length) →
        ∃ Ps : List (Nat → Nat → ℝ),
          List.Forall₂ (fun s P => ∀ i (hi : i < M.length), ∃ c, SkTree.counts s (fins M[i]) c ∧
            (List.range k).map (P i) = c.map fun a => a / c.sum) ss Ps ∧
          gpp (.arr (.ofMat (M.map fins))) = .ok (mat M.length k fun i c => .fin (meanEntry Ps i c)) ∧
          ∃ labels, gp (.arr (.ofMat (M.map fins))) = .ok labels ∧ labels.length = M.length ∧
            ∀ i < M.length, ∃ c, IsFirstMax ((List.range k).map (meanEntry Ps i)) c ∧ labels[i]? = classes[c]? := by
  obtain ⟨ts, hts, hall⟩ := C65_forest ss hne k hk hs classes hcls
  obtain ⟨es, he, hes⟩ := forest_members (lib := lib) (encode := encode) hk h hs hcls hts
  obtain ⟨r, hr, hm⟩ := C89_converted_behaves trunc lib encode _ _ (.ensemble (k := kind) (fs := none) hv hp he)
  refine ⟨r, hr, _, _, _, hm.trans rfl, fun M hM hw => ?_⟩
  obtain ⟨Ps, hPs, hpp⟩ := hall M hM hw
  refine ⟨Ps, hPs, ?_, ?_⟩
  · rw [hes]; exact hpp
  · have hrow : ∀ i, ∃ c, argmax (fins ((List.range k).map (meanEntry Ps i))) = .ok c ∧ c < k := by
      intro i
      obtain ⟨c, hc⟩ := argmax_total (l := fins ((List.range k).map (meanEntry Ps i)))
        (by intro e; have := congrArg List.length e; simp at this; omega)
      exact ⟨c, hc, by simpa using argmax_lt hc⟩
    choose c hc1 hc2 using hrow
    refine ⟨(List.range M.length).map fun i => classes[c i]'(by rw [hcls]; exact hc2 i), ?_, by simp, ?_⟩
    · rw [hes]
      show Bagging.predict _ _ = _
      simp only [Bagging.predict, hpp, py_ok_bind]
      rw [mat, mapM_map', mapM_ok_map (g := c)]
      · rw [py_ok_bind, mapM_map']
        exact mapM_ok_map fun i _ => pyGet_lt _
      · intro i _
        rw [← hc1 i]
        simp [fins, Function.comp_def]
    · intro i hi
      refine ⟨c i, argmax_fins.1 (hc1 i), ?_⟩
      have : c i < classes.length := by rw [hcls]; exact hc2 i
      simp [hi, this]

/-! ### Bagging with feature subsets -/

/-- The feature subset of every member (`none`: all features). -/
def subsets (fs : Option (List (List Int))) (n : Nat) : List (Option (List Int)) :=
  match fs with
  | none => List.replicate n none
  | some l => l.map some

omit trunc lib encode in
theorem members_zip {C : Type} (fs : Option (List (List Int))) (cs : List C) (es : List (Methods Ex)) :
    Bagging.members ⟨fs, cs, es.map fun m => ⟨m.runProba⟩⟩ =
      (es.zip (subsets fs es.length)).map fun p => (⟨p.1.runProba⟩, p.2) := by
  cases fs with
  | none =>
    simp only [Bagging.members, subsets]
    induction es with
    | nil => rfl
    | cons e es ih => simpa [List.replicate_succ] using ih
  | some l =>
    simp only [Bagging.members, subsets]
    rw [List.zip_map_right, List.map_map, List.zipWith_map_left, ← List.map_uncurry_zip_eq_zipWith]
    rfl

/-- **C90**, ensembles of any fitted members: a fitted BaggingClassifier (each member on its own feature
subset) or forest converts, and whenever every member answers on the records restricted to its
features, the probabilities are the means of the members' probabilities, the label that of the first
largest mean. -/
theorem C90_bagging (kind : EnsKind) {v : Option (List Char)} (hv : ReadableVersion v) {classes : List (PVal Ex)}
    (hp : ∀ c ∈ classes, Plain c) (k : Nat) (hk : 0 < k) (hcls : classes.length = k) {fs : Option (List (List Int))}
    {ms : List (SkObj (Attrs Ex) (PVal Ex) Ex)} {es : List (Methods Ex)}
    (he : List.Forall₂ (Behaves lib encode) ms es) (hne : ms ≠ []) (hfs : (subsets fs ms.length).length = ms.length) :
    ∃ r, convert (singles trunc initXgb) (.ensemble kind v fs classes ms) = .ok r ∧ ∃ gp gpp gpl,
      r.methods lib encode = ⟨none, some gp, some gpp, some gpl⟩ ∧
      ∀ M : List (List ℝ), M ≠ [] → (∀ sub, some sub ∈ subsets fs ms.length → ∀ x ∈ M, ∀ i ∈ sub, 0 ≤ i ∧ i < x.length) →
        ∀ Ps : List (Nat → Nat → ℝ),
          List.Forall₂ (fun (m : Methods Ex × Option (List Int)) P => ∃ p, m.1.predictProba = some p ∧
            p (.arr (.ofMat (M.map fun x => fins (columns 0 m.2 x)))) = .ok (mat M.length k fun i c => .fin (P i c)))
            (es.zip (subsets fs ms.length)) Ps →
          gpp (.arr (.ofMat (M.map fins))) = .ok (mat M.length k fun i c => .fin (meanEntry Ps i c)) ∧
          ∃ labels, gp (.arr (.ofMat (M.map fins))) = .ok labels ∧ labels.length = M.length ∧
            ∀ i < M.length, ∃ c, IsFirstMax ((List.range k).map (meanEntry Ps i)) c ∧ labels[i]? = classes[c]? := by
  obtain ⟨r, hr, hm⟩ := C89_converted_behaves trunc lib encode _ _ (.ensemble (k := kind) (fs := fs) hv hp he)
  refine ⟨r, hr, _, _, _, hm.trans rfl, fun M hM hw Ps h => ?_⟩
  have hlen := he.length_eq
  rw [hlen] at hfs hw h
  have hfit : Bagging.Fits (⟨fs, classes, es.map fun m => ⟨m.runProba⟩⟩ : Bagging Ex (PVal Ex)) M := by
    constructor
    · intro l hl
      simp only at hl
      subst hl
      simpa [subsets] using hfs
    · intro l hl f hf x hx i hi
      simp only at hl
      subst hl
      exact hw f (by simpa [subsets] using hf) x hx i hi
  have hret : List.Forall₂ (Returns M k)
      (Bagging.members (⟨fs, classes, es.map fun m => ⟨m.runProba⟩⟩ : Bagging Ex (PVal Ex))) Ps := by
    rw [members_zip, List.forall₂_map_left_iff]
    refine h.imp ?_
    rintro ⟨m, f⟩ P ⟨p, h1, h2⟩
    simp only [Returns, Est.runProba] at h1 ⊢
    rw [h1]
    exact h2
  have hPs : Ps ≠ [] := by
    intro e
    subst e
    have h0 := h.length_eq
    rw [List.length_zip, hfs, List.length_nil, min_self] at h0
    exact hne (List.length_eq_zero_iff.1 (hlen.trans h0))
  exact ⟨C13_proba_is_mean _ M hM hfit k Ps hPs hret, C13_predict_is_argmax _ M hM hfit k hk hcls Ps hPs hret⟩

/-! ### Gradient boosting -/

theorem num_float (l : List Ex) : (l.map PVal.float).mapM PVal.num = .ok l := by
  have := mapM_map_ok (PVal.float) PVal.num id (fun x : Ex => rfl) l
  rwa [List.map_id] at this

omit trunc in
theorem stage_members {ms : List (SkObj (Attrs Ex) (PVal Ex) Ex)} {ss : List (SkTree Ex)} {nf : Nat}
    (h : List.Forall₂ IsRegressionMember ms ss)
    (hs : ∀ s ∈ ss, (∀ v ∈ s.values, ∃ a : ℝ, v = [[.fin a]]) ∧ ∀ f ∈ s.features, f < nf)
    {fs : List (Arr Ex → Py (List Ex))}
    (hf : (ss.map SkTree.arrays).mapM (fun (a : SkArrays Ex) => do
      let t : Tree Ex (PVal Ex) ← Tree.ofSklearn a.left a.right a.feature a.threshold a.value none []
      return t.predictReg) = .ok fs) :
    ∃ es : List (Methods Ex), List.Forall₂ (Behaves lib encode) ms es ∧ (es.map fun m => m.runNumbers) = fs := by
  induction h generalizing fs with
  | nil => cases hf; exact ⟨[], .nil, rfl⟩
  | @cons o s ms ss h1 _ ih =>
    rw [List.map_cons, List.mapM_cons] at hf
    obtain ⟨f, hf1, hf⟩ := bind_ok_iff.1 hf
    obtain ⟨t, ht, hf1⟩ := bind_ok_iff.1 hf1
    cases hf1
    obtain ⟨fs', hfs', hf⟩ := bind_ok_iff.1 hf
    cases hf
    obtain ⟨es, he, hes⟩ := ih (fun s h => hs s (by simp [h])) hfs'
    obtain ⟨v, e, rfl, hv, hT, hL⟩ := h1
    obtain ⟨t', ht', -, hp⟩ := ofSklearn_labels (cs' := none) (d' := [.int 0, .int 1]) ht
    refine ⟨_ :: es, .cons (.single hv (.treeRegressor (cs := none) (.inl rfl) hT hL ht')) he, ?_⟩
    rw [List.map_cons, hes, ← hp]
    congr 1
    funext X
    show ((do return (← t'.predictReg X).map PVal.float) >>= fun l => l.mapM PVal.num) = _
    cases t'.predictReg X with
    | error x => rfl
    | ok l => exact num_float l

omit trunc in
theorem stages_members {mss : List (List (SkObj (Attrs Ex) (PVal Ex) Ex))} {sss : List (List (SkTree Ex))} {nf : Nat}
    (h : List.Forall₂ (List.Forall₂ IsRegressionMember) mss sss)
    (hs : ∀ ss ∈ sss, ∀ s ∈ ss, (∀ v ∈ s.values, ∃ a : ℝ, v = [[.fin a]]) ∧ ∀ f ∈ s.features, f < nf)
    {fs : List (List (Arr Ex → Py (List Ex)))}
    (hf : (sss.map fun st => st.map SkTree.arrays).mapM (fun st => st.mapM fun (a : SkArrays Ex) => do
      let t : Tree Ex (PVal Ex) ← Tree.ofSklearn a.left a.right a.feature a.threshold a.value none []
      return t.predictReg) = .ok fs) :
    ∃ es : List (List (Methods Ex)), List.Forall₂ (List.Forall₂ (Behaves lib encode)) mss es ∧
      (es.map fun st => st.map fun m => m.runNumbers) = fs := by
  induction h generalizing fs with
  | nil => cases hf; exact ⟨[], .nil, rfl⟩
  | @cons ms ss mss sss h1 _ ih =>
    rw [List.map_cons, List.mapM_cons] at hf
    obtain ⟨f, hf1, hf⟩ := bind_ok_iff.1 hf
    obtain ⟨fs', hfs', hf⟩ := bind_ok_iff.1 hf
    cases hf
    obtain ⟨es, he, hes⟩ := ih (fun s h => hs s (by simp [h])) hfs'
    obtain ⟨e, he1, hes1⟩ := stage_members lib encode h1 (hs ss (by simp)) hf1
    exact ⟨e :: es, .cons he1 he, by rw [List.map_cons, hes, hes1]⟩

/-- A fitted gradient boosting model with real parameters: version 0.21.0 or later, the trees of all
stages, the default initial estimator with class shares `prior`. -/
structure Spec.FittedBoosting (v : Option (List Char)) (classes : List (PVal Ex))
    (mss : List (List (SkObj (Attrs Ex) (PVal Ex) Ex))) (stages : List (List (SkTree Ex)))
    (vi : Option (List Char)) (ei : Attrs Ex) (prior : List ℝ) : Prop where
  version : ∃ w, checkVersion v (some "0.21.0".toList) = .ok w
  plain : ∀ c ∈ classes, Plain c
  trees : List.Forall₂ (List.Forall₂ IsRegressionMember) mss stages
  versionInit : ReadableVersion vi
  init : Learned "DummyClassifier" ei (.dummy ⟨fins prior⟩)

theorem boosting_behaves {v : Option (List Char)} {classes : List (PVal Ex)}
    {mss : List (List (SkObj (Attrs Ex) (PVal Ex) Ex))} {stages : List (List (SkTree Ex))}
    {vi : Option (List Char)} {ei : Attrs Ex} {prior : List ℝ} (h : FittedBoosting v classes mss stages vi ei prior)
    {cols nf : Nat} (hst : FittedStages stages cols nf) (loss : String) (lr : ℝ) {g : GB Ex (PVal Ex)}
    (hg : convertGB (stages := stages) (nf := nf) classes prior loss lr = .ok g) :
    ∃ r, convert (singles trunc initXgb) (.boosting v classes mss (.leaf "DummyClassifier" vi ei) loss
        [.float (.fin lr), .int nf]) = .ok r ∧ ∃ gp gpp gpl,
      r.methods lib encode = ⟨none, some gp, some gpp, some gpl⟩ ∧
      (∀ X, gp (.arr X) = g.predict X) ∧ (∀ X, gpp (.arr X) = g.predictProba X) ∧
      ∀ X, gpl (.arr X) = g.predictLogProba X := by
  unfold convertGB GB.ofFitted at hg
  obtain ⟨sts, hsts, hg⟩ := bind_ok_iff.1 hg
  simp only [Dummy.ofFitted, bne_self_eq_false, Bool.false_eq_true, if_false, py_ok_bind] at hg
  obtain ⟨l, hl, hg⟩ := bind_ok_iff.1 hg
  cases hg
  obtain ⟨es, he, hes⟩ := stages_members lib encode h.trees (nf := nf)
    (fun st hst' s hs => ⟨hst.values st hst' s hs, hst.features st hst' s hs⟩) hsts
  have hl' : lossOf loss classes.length = some l := by
    rw [C69_gb_loss] at hl
    cases hx : lossOf loss classes.length with
    | none => rw [hx] at hl; cases hl
    | some l' => rw [hx] at hl; cases hl; rfl
  obtain ⟨r, hr, hm⟩ := C89_converted_behaves trunc lib encode _ _
    (.boosting (lr := .fin lr) (nf := nf) h.version h.plain he (.single h.versionInit h.init) hl')
  refine ⟨r, hr, _, _, _, hm.trans rfl, ?_⟩
  rw [hes]
  exact ⟨fun X => rfl, fun X => rfl, fun X => rfl⟩

/-- **C90**, gradient boosting with two classes: from the fitted object with its trees to the logistic
function of the additive score (log-odds of the prior plus the learning rate times the leaf values). -/
theorem C90_boosting_binary {v : Option (List Char)} {c0 c1 : PVal Ex}
    {mss : List (List (SkObj (Attrs Ex) (PVal Ex) Ex))} {stages : List (List (SkTree Ex))}
    {vi : Option (List Char)} {ei : Attrs Ex} {prior : List ℝ} (h : FittedBoosting v [c0, c1] mss stages vi ei prior)
    {nf : Nat} (hst : FittedStages stages 1 nf) (hp : prior.length = 2) (lr : ℝ) :
    ∃ r, convert (singles trunc initXgb) (.boosting v [c0, c1] mss (.leaf "DummyClassifier" vi ei) "deviance"
        [.float (.fin lr), .int nf]) = .ok r ∧ ∃ gp gpp gpl,
      r.methods lib encode = ⟨none, some gp, some gpp, some gpl⟩ ∧ ∀ M : List (List ℝ), M ≠ [] → Rect nf M →
        gpp (.arr (.ofMat (M.map fins))) = .ok (M.map fun x =>
          fins [1 - sigmoid (gbScore .binomial prior lr stages x 0), sigmoid (gbScore .binomial prior lr stages x 0)]) ∧
        gp (.arr (.ofMat (M.map fins))) = .ok (M.map fun x =>
          if 0 < gbScore .binomial prior lr stages x 0 then c1 else c0) := by
  obtain ⟨g, hg, hall⟩ := C77_binomial hst [c0, c1] prior lr c0 c1 rfl rfl hp
  obtain ⟨r, hr, gp, gpp, gpl, hm, h1, h2, -⟩ := boosting_behaves trunc lib encode h hst "deviance" lr hg
  refine ⟨r, hr, gp, gpp, gpl, hm, fun M hM hw => ?_⟩
  obtain ⟨k1, k2⟩ := hall M hM hw
  exact ⟨by rw [h2, k1], by rw [h1, k2]⟩

/-- **C90**, gradient boosting with more classes: softmax of the additive scores, label of the first
largest. -/
theorem C90_boosting_multi {v : Option (List Char)} {classes : List (PVal Ex)}
    {mss : List (List (SkObj (Attrs Ex) (PVal Ex) Ex))} {stages : List (List (SkTree Ex))}
    {vi : Option (List Char)} {ei : Attrs Ex} {prior : List ℝ} (h : FittedBoosting v classes mss stages vi ei prior)
    {nf : Nat} (hk : 2 < classes.length) (hst : FittedStages stages classes.length nf)
    (hp : prior.length = classes.length) (lr : ℝ) :
    ∃ r, convert (singles trunc initXgb) (.boosting v classes mss (.leaf "DummyClassifier" vi ei) "deviance"
        [.float (.fin lr), .int nf]) = .ok r ∧ ∃ gp gpp gpl,
      r.methods lib encode = ⟨none, some gp, some gpp, some gpl⟩ ∧ ∀ M : List (List ℝ), M ≠ [] → Rect nf M →
        gpp (.arr (.ofMat (M.map fins))) = .ok (M.map fun x => fins ((List.range classes.length).map
          (softmax classes.length (gbScore .multinomial prior lr stages x)))) ∧
        ∃ labels, gp (.arr (.ofMat (M.map fins))) = .ok labels ∧ List.Forall₂ (fun x l => ∃ i,
          IsFirstMax ((List.range classes.length).map (gbScore .multinomial prior lr stages x)) i ∧
          classes[i]? = some l) M labels := by
  obtain ⟨g, hg, hall⟩ := C77_multinomial hst classes prior lr hk rfl hp
  obtain ⟨r, hr, gp, gpp, gpl, hm, h1, h2, -⟩ := boosting_behaves trunc lib encode h hst "deviance" lr hg
  refine ⟨r, hr, gp, gpp, gpl, hm, fun M hM hw => ?_⟩
  obtain ⟨k1, ls, k2, k3⟩ := hall M hM hw
  exact ⟨by rw [h2, k1], ls, by rw [h1, k2], k3⟩

end

/-! ### Non-vacuity -/

theorem version_022 : ReadableVersion (some "0.22".toList) := ⟨_, rfl⟩

noncomputable def demoScaling : Attrs Ex :=
  [("copy", .bool true), ("with_mean", .bool true), ("with_std", .bool true),
   ("scale_", .ndarray (vnums (fins [2, 2]))), ("mean_", .ndarray (vnums (fins [1, 1])))]

noncomputable def demoLogistic : Attrs Ex :=
  [("C", .float (.fin 1)), ("coef_", .ndarray (vmat [fins [1, -1]])), ("intercept_", .ndarray (vnums (fins [0]))),
   ("classes_", .ndarray (.list [.str "no", .str "yes"])), ("multi_class", .str "auto"), ("solver", .str "lbfgs")]

theorem plain_labels (a b : String) : ∀ c ∈ ([.str a, .str b] : List (PVal Ex)), Plain c := by
  intro c hc
  simp only [List.mem_cons, List.not_mem_nil, or_false] at hc
  rcases hc with rfl | rfl <;> exact .str _

theorem demoScaling_has : HasScaling demoScaling 2 (fun _ => 1) (fun _ => 2) :=
  ⟨rfl, rfl, rfl, rfl, fun _ _ => by norm_num⟩

theorem demoLogistic_has : HasLogistic demoLogistic [[1, -1]] [0] [.str "no", .str "yes"] "auto" "lbfgs" :=
  ⟨rfl, ⟨rfl, plain_labels _ _⟩, rfl, rfl, rfl, rfl⟩

/-- The pipeline of both: the record (5, 1) is scaled to (2, 0), its score is 2, its label "yes". -/
example (trunc : Ex → Py Int) (lib : String → TextLib) (encode : Str → List Nat) :
    ∃ r, convert (singles trunc initXgb) (.pipeline (some "0.22".toList)
        [("scale", .leaf "StandardScaler" (some "0.22".toList) demoScaling),
         ("clf", .leaf "LogisticRegression" (some "0.22".toList) demoLogistic)]) = .ok r ∧
      ∃ gp, (r.methods lib encode).predict = some gp ∧
        gp (.arr (.ofMat [fins [5, 1]])) = .ok [.str "yes"] := by
  obtain ⟨r, hr, gp, gpp, gpl, hm, h⟩ := C90_scaled_logistic trunc lib encode version_022 version_022 version_022
    "scale" "clf" demoScaling_has rfl demoLogistic_has (.inr (.inr ⟨rfl, .inl (le_refl 2)⟩))
  refine ⟨r, hr, gp, by rw [hm], ?_⟩
  have := (h [[5, 1]] (by simp) (by simp [Rect])).2
  rw [List.map_cons, List.map_nil] at this
  rw [this]
  have hs : 0 < scaledScore 2 (fun _ => 1) (fun _ => 2) [[1, -1]] [0] [5, 1] 0 := by
    simp [scaledScore, Finset.sum_range_succ]
  simp only [List.map_cons, List.map_nil, if_pos hs]

/-- Three classes fitted with a common softmax. -/
noncomputable def demoLogistic3 : Attrs Ex :=
  [("coef_", .ndarray (vmat [fins [1, 0], fins [0, 1], fins [-1, -1]])), ("intercept_", .ndarray (vnums (fins [0, 0, 1]))),
   ("classes_", .ndarray (.list [.int 0, .int 1, .int 2])), ("multi_class", .str "multinomial"), ("solver", .str "lbfgs")]

example : HasLogistic demoLogistic3 [[1, 0], [0, 1], [-1, -1]] [0, 0, 1] [.int 0, .int 1, .int 2] "multinomial" "lbfgs" ∧
    ¬ OneVsRest "multinomial" "lbfgs" 3 ∧ Rect 2 ([[1, 0], [0, 1], [-1, -1]] : List (List ℝ)) := by
  refine ⟨⟨rfl, ⟨rfl, ?_⟩, rfl, rfl, rfl, rfl⟩, by simp [OneVsRest], by simp [Rect]⟩
  intro c hc
  simp only [List.mem_cons, List.not_mem_nil, or_false] at hc
  rcases hc with rfl | rfl | rfl <;> exact .int _

/-- A fitted TfidfVectorizer over the words "cat" and "dog". -/
noncomputable def demoText : Attrs Ex :=
  [("analyzer", .str "word"), ("ngram_range", .tuple [.int 1, .int 1]), ("stop_words", .none), ("strip_accents", .none),
   ("lowercase", .bool false), ("token_pattern", .str "."), ("preprocessor", .none), ("tokenizer", .none),
   ("decode_error", .str "strict"), ("encoding", .str "utf-8"), ("input", .str "content"), ("binary", .bool false),
   ("dtype", .cls (.numpy "int64" "int")), ("vocabulary_", .dict [.str "dog", .str "cat"] [.int 1, .npScalar (.int 0)]),
   ("_tfidf", .obj "TfidfTransformer" (some "0.22".toList)
     ["norm", "use_idf", "smooth_idf", "sublinear_tf", "idf_", "_idf_diag"]
     [.str "l2", .bool true, .bool true, .bool false, .ndarray (vnums (fins [1, 2])), .spmatrix [2, 2]])]

theorem demoText_learned : Learned "TfidfVectorizer" demoText
    (.tfidfVec "." ⟨plainOpts, catDog, false, .int⟩ catDogTfidf) := by
  refine .tfidfVec (v := ⟨plainOpts, catDog, false, .int⟩) ⟨⟨⟨"word", rfl, ?_⟩, rfl, rfl, ⟨.none, rfl, ?_⟩, rfl, rfl, rfl,
    rfl, ⟨_, rfl, .str _⟩, ⟨_, rfl, .str _⟩, ⟨_, rfl, .str _⟩⟩, ⟨"int", ?_, .inr ⟨"int64", by decide, rfl⟩⟩, rfl,
    [.int 1, .npScalar (.int 0)], rfl, .cons (.inl rfl) (.cons (.inr rfl) .nil)⟩ rfl version_022
    ⟨⟨"l2", rfl, ?_⟩, rfl, ⟨_, rfl, .bool _⟩, rfl, rfl, _, rfl⟩
  · exact List.mem_cons_self ..
  · exact List.mem_cons_self ..
  · exact List.mem_cons_self ..
  · exact List.mem_cons_of_mem _ (List.mem_cons_self ..)

/-- The whole text classifier, its documents split at spaces. -/
example (trunc : Ex → Py Int) (encode : Str → List Nat) :=
  C90_text_logistic trunc (fun _ => plainLib) encode version_022 version_022 version_022 "tfidf" "clf"
    demoText_learned catDogFitted plain_analyzer (W := [1, -1]) rfl demoLogistic_has
    (.inr (.inr ⟨rfl, .inl (le_refl 2)⟩))

/-- Tree objects around the stumps of C65 and C77. -/
noncomputable def demoTree (s : SkTree Ex) (rest : Attrs Ex) : Attrs Ex :=
  ("tree_", .obj "Tree" none ["children_left", "children_right", "feature", "threshold", "value"]
    [.ndarray (vints s.arrays.left), .ndarray (vints s.arrays.right), .ndarray (vints s.arrays.feature),
     .ndarray (vnums s.arrays.threshold), .ndarray (.list (s.arrays.value.map vmat))]) :: rest

theorem demoTree_holds (s : SkTree Ex) (rest : Attrs Ex) : HoldsTree (demoTree s rest) s :=
  ⟨_, _, _, _, rfl, rfl, rfl, rfl, rfl, rfl⟩

/-- A forest of two stumps. -/
example (trunc : Ex → Py Int) (lib : String → TextLib) (encode : Str → List Nat) :=
  have member : IsTreeMember (.leaf "DecisionTreeClassifier" (some "0.22".toList)
      (demoTree skStump [("classes_", .ndarray (.list [.str "a", .str "b"]))])) skStump :=
    ⟨_, _, _, _, rfl, .inl rfl, version_022, demoTree_holds _ _, rfl, plain_labels _ _⟩
  C90_forest trunc lib encode .randomForest version_022 (plain_labels "a" "b") 2 (by norm_num) rfl
    (ss := [skStump, skStump]) (by simp) (.cons member (.cons member .nil))
    (by intro s hs; simp only [List.mem_cons, List.not_mem_nil, or_false, or_self] at hs; subst hs; exact skStump_counts)

/-- The default initial estimator with equal shares. -/
noncomputable def demoInit : Attrs Ex :=
  [("strategy", .str "prior"), ("class_prior_", .ndarray (vnums (fins [1 / 2, 1 / 2]))), ("n_classes_", .int 2),
   ("n_outputs_", .int 1)]

theorem demoInit_learned : Learned "DummyClassifier" demoInit (.dummy ⟨fins [1 / 2, 1 / 2]⟩) :=
  .dummy (.inr ⟨rfl, rfl⟩) rfl ⟨_, rfl, .int _⟩ ⟨_, rfl, .int _⟩

/-- A bagging classifier of two dummies, the first on column 1 and the second on columns 0 and 1. -/
example (trunc : Ex → Py Int) (lib : String → TextLib) (encode : Str → List Nat) :=
  have member : Behaves lib encode (.leaf "DummyClassifier" (some "0.22".toList) demoInit)
      (Single.est lib encode (.dummy ⟨fins [1 / 2, 1 / 2]⟩)) := .single version_022 demoInit_learned
  C90_bagging trunc lib encode .bagging version_022 (plain_labels "a" "b") 2 (by norm_num) rfl
    (fs := some [[1], [0, 1]]) (.cons member (.cons member .nil)) (by simp) (by simp [subsets])

/-- The members answer there with equal shares. -/
example (lib : String → TextLib) (encode : Str → List Nat) : ∃ p,
    (Single.est lib encode (.dummy ⟨fins [1 / 2, 1 / 2]⟩)).predictProba = some p ∧
    p (.arr (.ofMat ([[3, 4]].map fun x => fins (columns 0 (some [1]) x)))) =
      .ok (mat 1 2 fun _ _ => .fin (1 / 2)) := ⟨_, rfl, rfl⟩

theorem demoBoosting : FittedBoosting (some "0.22".toList) [.str "a", .str "b"]
    [[.leaf "DecisionTreeRegressor" (some "0.22".toList) (demoTree gbStump [])]] [[gbStump]]
    (some "0.22".toList) demoInit [1 / 2, 1 / 2] where
  version := ⟨_, rfl⟩
  plain := plain_labels _ _
  trees := .cons (.cons ⟨_, _, rfl, version_022, demoTree_holds _ _, .inl rfl⟩ .nil) .nil
  versionInit := version_022
  init := .dummy (.inr ⟨rfl, rfl⟩) rfl ⟨_, rfl, .int _⟩ ⟨_, rfl, .int _⟩

/-- One boosting stage with learning rate 2: the record (7) gets "b". -/
example (trunc : Ex → Py Int) (lib : String → TextLib) (encode : Str → List Nat) :
    ∃ r, convert (singles trunc initXgb) (.boosting (some "0.22".toList) [.str "a", .str "b"]
        [[.leaf "DecisionTreeRegressor" (some "0.22".toList) (demoTree gbStump [])]]
        (.leaf "DummyClassifier" (some "0.22".toList) demoInit) "deviance" [.float (.fin 2), .int (1 : Nat)]) = .ok r ∧
      ∃ gp, (r.methods lib encode).predict = some gp ∧ gp (.arr (.ofMat [fins [7]])) = .ok [.str "b"] := by
  obtain ⟨r, hr, gp, gpp, gpl, hm, h⟩ := C90_boosting_binary trunc lib encode demoBoosting gbStump_fitted rfl 2
  refine ⟨r, hr, gp, by rw [hm], ?_⟩
  have := (h [[7]] (by simp) (by simp [Rect])).2
  rw [List.map_cons, List.map_nil] at this
  rw [this, List.map_cons, List.map_nil, gbStump_score]
  norm_num

end PurePredict
