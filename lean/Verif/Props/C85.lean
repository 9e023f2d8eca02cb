import Verif.Props.C84
/-
C85: which fitted objects conversion refuses, and how.
-/
namespace PurePredict
open Spec
variable {F : Type} (trunc : F → Py Int) (xgb : SkFitted F → Py (PVal F))

/-! ### Errors of a sequence of steps -/

theorem runSteps_error (pre : List (Step F)) (f : Step F) (post : List (Step F)) (e : SkFitted F)
    {l : Attrs F} (h1 : runSteps pre e = .ok l) {x : PyErr} (h2 : f e = .error x) :
    runSteps (pre ++ f :: post) e = .error x := by
  rw [runSteps_append, h1, py_ok_bind, runSteps, h2]; rfl

theorem byStep_error (d : String) (pre : List (Step F)) (f : Step F) (post : List (Step F)) (e : SkFitted F)
    (hv : ReadableVersion e.version) {l : Attrs F} (h1 : runSteps pre e = .ok l) {x : PyErr}
    (h2 : f e = .error x) : byStep d (pre ++ f :: post) e = .error x := by
  obtain ⟨w, hw⟩ := hv
  unfold byStep
  rw [hw, py_ok_bind, runSteps_error pre f post e h1 h2]; rfl

theorem byStep_not_plain (d : String) (fs : List (Step F)) (e : SkFitted F) (hv : ReadableVersion e.version)
    {l : Attrs F} (h1 : runSteps fs e = .ok l) (h2 : ∃ p ∈ l, ¬ Plain p.2) :
    byStep d fs e = .error .valueError := by
  obtain ⟨w, hw⟩ := hv
  unfold byStep
  rw [hw, py_ok_bind, h1, py_ok_bind, finish_not_plain d l h2]

theorem copyStep_none {e : SkFitted F} {n : String} (h : NoAttr e.state n) :
    copyStep n e = .error .attributeError := by
  unfold copyStep; rw [get_none e n h]; rfl
theorem listStep_none {e : SkFitted F} {n : String} (h : NoAttr e.state n) :
    listStep n e = .error .attributeError := by
  unfold listStep Fitted.array; rw [get_none e n h]; rfl
theorem listNoneStep_none {e : SkFitted F} {n : String} (h : NoAttr e.state n) :
    listNoneStep n e = .error .attributeError := by
  unfold listNoneStep Fitted.arrayOrNone; rw [get_none e n h]; rfl

/-! ### From constructors to `convert_estimator` -/

theorem convert_ctor {n c : String} {ctor : SkFitted F → Py (PVal F)} (i : Nat)
    (hi : (constructors trunc)[i]? = some (n, ctor)) (hn : n = c ++ "Pure") (v : Option (List Char)) (s : Attrs F) :
    convert (singles trunc xgb) (.leaf c v s : SkObj (Attrs F) (PVal F) F) =
      (do return .leaf (c ++ "Pure").toList (← ctor ⟨c, v, s⟩)) := by
  subst hn
  obtain ⟨q, hq, hR⟩ := forall₂_right (constructors_agree trunc).flip (List.mem_of_getElem? hi)
  have hc : c ∈ singleNames := by
    rw [← classTable_names trunc, List.mem_map]
    refine ⟨q, hq, ?_⟩
    have := congrArg String.toList hR.1
    simp only [String.toList_append] at this
    exact String.toList_inj.1 (List.append_cancel_right this).symm
  obtain ⟨m, hm, hcm⟩ := names_counterpart c hc
  have key : (singles trunc xgb).construct m.1.toList (c ++ "Pure").toList ⟨c, v, s⟩ = ctor ⟨c, v, s⟩ := by
    obtain ⟨p, hp, hr⟩ := find_of_forall₂ (R := fun (a b : String × (SkFitted F → Py (PVal F))) => a = b)
      (l := constructors trunc) (List.forall₂_same.2 fun _ _ => rfl) (fun p => p.1.toList)
      (fun p => p.1.toList) (fun a b h => by rw [h]) (by
        have := names_nodup
        rw [← classTable_names trunc, List.map_map] at this
        exact this) (List.mem_of_getElem? hi)
    subst hr
    unfold singles
    simp only
    rw [hp]
  rw [convert, C43_supported _ _ _ (m := m.1) ⟨m.2, hm, hcm⟩, key]

theorem convert_ctor_error {n c : String} {ctor : SkFitted F → Py (PVal F)} (i : Nat)
    (hi : (constructors trunc)[i]? = some (n, ctor)) (hn : n = c ++ "Pure") {v : Option (List Char)}
    {s : Attrs F} {x : PyErr} (h : ctor ⟨c, v, s⟩ = .error x) :
    convert (singles trunc xgb) (.leaf c v s : SkObj (Attrs F) (PVal F) F) = .error x := by
  rw [convert_ctor trunc xgb i hi hn, h]; rfl

/-! ### Unfitted estimators -/

namespace Spec
/-- For each class: the parameters read before the first attribute that only a fitted object has, and
that attribute.  (Normalizer and HashingVectorizer have none.) -/
def firstFitted : List (String × List (FieldSpec F) × String) := [
  ("LogisticRegression", [], "coef_"), ("RidgeClassifier", [], "coef_"), ("SGDClassifier", [], "coef_"),
  ("Perceptron", [], "coef_"), ("PassiveAggressiveClassifier", [], "coef_"), ("LinearSVC", [], "coef_"),
  ("DecisionTreeClassifier", [], "tree_"), ("DecisionTreeRegressor", [], "tree_"),
  ("ExtraTreeClassifier", [], "tree_"), ("ExtraTreeRegressor", [], "tree_"),
  ("GaussianNB", [], "class_prior_"), ("MultinomialNB", [], "class_log_prior_"),
  ("ComplementNB", [], "class_log_prior_"), ("SimpleImputer", [], "statistics_"),
  ("MissingIndicator", [Copied "features"], "features_"), ("DummyClassifier", [Strategy], "class_prior_"),
  ("OneHotEncoder", [DTyped], "categories_"), ("OrdinalEncoder", [DTyped], "categories_"),
  ("StandardScaler", [Copied "with_mean", Copied "with_std"], "scale_"),
  ("MinMaxScaler", [Copied "feature_range"], "scale_"), ("MaxAbsScaler", [Copied "copy"], "scale_"),
  ("DictVectorizer", [], "vocabulary_"), ("CountVectorizer", [DTyped, Copied "binary"], "vocabulary_"),
  ("TfidfTransformer", [Copied "norm", Copied "use_idf", Copied "smooth_idf", Copied "sublinear_tf"], "idf_")]
end Spec

/-- A constructor raises `x` when the fields `pre` are there and attribute `n` is not. -/
def Misses (ctor : SkFitted F → Py (PVal F)) (pre : List (FieldSpec F)) (n : String) : Prop :=
  ∀ e, ReadableVersion e.version → (∃ l, Rows pre e.state l) → NoAttr e.state n →
    ctor e = .error .attributeError

theorem misses_byStep {ctor : SkFitted F → Py (PVal F)} {d : String} {ps : List (Step F)} {f : Step F}
    {post : List (Step F)} {pre : List (FieldSpec F)} {n : String} (h : ctor = byStep d (ps ++ f :: post))
    (hp : List.Forall₂ Does ps pre) (hf : ∀ e, NoAttr e.state n → f e = .error .attributeError) :
    Misses ctor pre n := by
  rintro e hv ⟨l, hl⟩ hn
  rw [h]
  exact byStep_error d ps f post e hv ((runSteps_iff hp e l).2 hl) (hf e hn)

theorem misses_linear (d : String) : Misses (initLinear (F := F) d) [] "coef_" := by
  rintro e ⟨w, hw⟩ - hn
  unfold initLinear Fitted.array
  rw [hw, get_none e _ hn]; rfl

theorem misses_tree (d : String) : Misses (initTree (F := F) d) [] "tree_" := by
  rintro e ⟨w, hw⟩ - hn
  unfold initTree
  rw [hw, get_none e _ hn]; rfl

theorem misses_encoder (d : String) : Misses (initEncoder (F := F) d) [DTyped] "categories_" :=
  misses_byStep (ps := [dtypeStep]) (initEncoder_steps d) (by ctor_fields) fun e h => by
    unfold listEachStep; rw [get_none e _ h]; rfl

/-- **C85**: an estimator that has not been fitted cannot be converted: `convert_estimator` raises
AttributeError.  (A TfidfTransformer fitted with `use_idf=False` has no `idf_` either.) -/
theorem C85_unfitted {c n : String} {pre : List (FieldSpec F)} (h : (c, pre, n) ∈ firstFitted (F := F))
    (v : Option (List Char)) (hv : ReadableVersion v) (s : Attrs F) (hp : ∃ l, Rows pre s l) (hn : NoAttr s n) :
    convert (singles trunc xgb) (.leaf c v s : SkObj (Attrs F) (PVal F) F) = .error .attributeError := by
  have key : ∀ (i : Nat) (n' : String) (ctor : SkFitted F → Py (PVal F)),
      (constructors trunc)[i]? = some (n', ctor) → n' = c ++ "Pure" → Misses ctor pre n →
      convert (singles trunc xgb) (.leaf c v s : SkObj (Attrs F) (PVal F) F) = .error .attributeError :=
    fun i n' ctor hi hn' hm => convert_ctor_error trunc xgb i hi hn' (hm ⟨c, v, s⟩ hv hp hn)
  simp only [firstFitted, List.mem_cons, Prod.mk.injEq, List.not_mem_nil, or_false] at h
  rcases h with ⟨rfl, rfl, rfl⟩ | ⟨rfl, rfl, rfl⟩ | ⟨rfl, rfl, rfl⟩ | ⟨rfl, rfl, rfl⟩ | ⟨rfl, rfl, rfl⟩ |
    ⟨rfl, rfl, rfl⟩ | ⟨rfl, rfl, rfl⟩ | ⟨rfl, rfl, rfl⟩ | ⟨rfl, rfl, rfl⟩ | ⟨rfl, rfl, rfl⟩ |
    ⟨rfl, rfl, rfl⟩ | ⟨rfl, rfl, rfl⟩ | ⟨rfl, rfl, rfl⟩ | ⟨rfl, rfl, rfl⟩ | ⟨rfl, rfl, rfl⟩ |
    ⟨rfl, rfl, rfl⟩ | ⟨rfl, rfl, rfl⟩ | ⟨rfl, rfl, rfl⟩ | ⟨rfl, rfl, rfl⟩ | ⟨rfl, rfl, rfl⟩ |
    ⟨rfl, rfl, rfl⟩ | ⟨rfl, rfl, rfl⟩ | ⟨rfl, rfl, rfl⟩ | ⟨rfl, rfl, rfl⟩
  · exact key 0 _ _ rfl rfl (misses_linear _)
  · exact key 1 _ _ rfl rfl (misses_linear _)
  · exact key 2 _ _ rfl rfl (misses_linear _)
  · exact key 3 _ _ rfl rfl (misses_linear _)
  · exact key 4 _ _ rfl rfl (misses_linear _)
  · exact key 5 _ _ rfl rfl (misses_linear _)
  · exact key 6 _ _ rfl rfl (misses_tree _)
  · exact key 7 _ _ rfl rfl (misses_tree _)
  · exact key 8 _ _ rfl rfl (misses_tree _)
  · exact key 9 _ _ rfl rfl (misses_tree _)
  · exact key 10 _ _ rfl rfl (misses_byStep (ps := []) initGaussianNB_steps .nil fun e h => listStep_none h)
  · exact key 11 _ _ rfl rfl (misses_byStep (ps := []) (initDiscreteNB_steps _) .nil fun e h => listStep_none h)
  · exact key 12 _ _ rfl rfl (misses_byStep (ps := []) (initDiscreteNB_steps _) .nil fun e h => listStep_none h)
  · exact key 13 _ _ rfl rfl (misses_byStep (ps := []) initSimpleImputer_steps .nil fun e h => listStep_none h)
  · exact key 14 _ _ rfl rfl (misses_byStep (ps := [copyStep "features"]) initMissingIndicator_steps
      (by ctor_fields) fun e h => listStep_none h)
  · exact key 15 _ _ rfl rfl (misses_byStep (ps := [strategyStep]) initDummy_steps
      (by ctor_fields) fun e h => listStep_none h)
  · exact key 16 _ _ rfl rfl (misses_encoder _)
  · exact key 17 _ _ rfl rfl (misses_encoder _)
  · exact key 18 _ _ rfl rfl (misses_byStep (ps := [copyStep "with_mean", copyStep "with_std"])
      initStandardScaler_steps (by ctor_fields) fun e h => listNoneStep_none h)
  · exact key 19 _ _ rfl rfl (misses_byStep (ps := [copyStep "feature_range"])
      initMinMaxScaler_steps (by ctor_fields) fun e h => listNoneStep_none h)
  · exact key 20 _ _ rfl rfl (misses_byStep (ps := [copyStep "copy"])
      initMaxAbsScaler_steps (by ctor_fields) fun e h => listNoneStep_none h)
  · exact key 22 _ _ rfl rfl (misses_byStep (ps := []) initDictVectorizer_steps .nil fun e h => copyStep_none h)
  · exact key 24 _ _ rfl rfl (misses_byStep (ps := [dtypeStep, copyStep "binary"])
      (initCountVectorizer_steps trunc) (by ctor_fields) fun e h => by
        unfold vocabularyStep; rw [get_none e _ h]; rfl)
  · exact key 25 _ _ rfl rfl (misses_byStep
      (ps := [copyStep "norm", copyStep "use_idf", copyStep "smooth_idf", copyStep "sublinear_tf"])
      initTfidfTransformer_steps (by ctor_fields) fun e h => listStep_none h)

/-- **C85**, tf-idf vectorizers that are not fitted, or fitted with `use_idf=False`: their transformer
has no `idf_`, and conversion raises AttributeError. -/
theorem C85_tfidf_vectorizer (v v' : Option (List Char)) (hv : ReadableVersion v) (hv' : ReadableVersion v')
    (s : Attrs F) (ns : List String) (vs : List (PVal F))
    (ht : HasAttr s "_tfidf" (.obj "TfidfTransformer" v' ns vs))
    (hp : ∃ l, Rows [Copied "norm", Copied "use_idf", Copied "smooth_idf", Copied "sublinear_tf"] (ns.zip vs) l)
    (hn : NoAttr (ns.zip vs) "idf_") :
    convert (singles trunc xgb) (.leaf "TfidfVectorizer" v s : SkObj (Attrs F) (PVal F) F) = .error .attributeError := by
  refine convert_ctor_error trunc xgb (n := "TfidfVectorizerPure") 23 rfl rfl ?_
  have h : initTfidfTransformer ⟨"TfidfTransformer", v', ns.zip vs⟩ = .error .attributeError :=
    misses_byStep (ps := [copyStep "norm", copyStep "use_idf", copyStep "smooth_idf", copyStep "sublinear_tf"])
      initTfidfTransformer_steps (by ctor_fields) (fun e h => listStep_none h) _ hv' hp hn
  obtain ⟨w, hw⟩ := hv
  unfold initTfidfVectorizer
  rw [show checkVersion (Fitted.version ⟨"TfidfVectorizer", v, s⟩) none = .ok w from hw, py_ok_bind,
    (get_ok_iff ⟨"TfidfVectorizer", v, s⟩ "_tfidf" _).2 ht, py_ok_bind, convertTfidf, if_pos rfl, h]
  rfl

/-! ### Data that are not plain -/

theorem byFields_not_plain {ctor : SkFitted F → Py (PVal F)} {d : String} {Rs : List (FieldSpec F)}
    (h : ByFields ctor d Rs) (e : SkFitted F) (hv : ReadableVersion e.version) {l : Attrs F}
    (hl : Rows Rs e.state l) (hn : ∃ p ∈ l, ¬ Plain p.2) : ctor e = .error .valueError := by
  obtain ⟨fs, rfl, hd⟩ := h
  exact byStep_not_plain d fs e hv ((runSteps_iff hd e l).2 hl) hn

theorem linear_not_plain (d : String) (e : SkFitted F) (hv : ReadableVersion e.version) {l : Attrs F}
    (hl : Rows linearFields e.state l) (hn : ∃ p ∈ l, ¬ Plain p.2) : initLinear d e = .error .valueError := by
  obtain ⟨w, hw⟩ := hv
  obtain ⟨l1, m1, ⟨v1, co, a1, b1, rfl⟩, ⟨l2, m2, ⟨v2, cl, a2, b2, rfl⟩, ⟨b, m3, hb,
    ⟨mc, m4, hmc, ⟨so, m5, hso, ⟨lo, m6, hlo, rfl, rfl⟩, rfl⟩, rfl⟩, rfl⟩, rfl⟩, rfl⟩ := hl
  have hcl := (array_ok_iff e "classes_" cl).2 ⟨v2, a2, b2⟩
  unfold initLinear
  rw [hw, py_ok_bind, (array_ok_iff e "coef_" co).2 ⟨v1, a1, b1⟩, py_ok_bind, hcl, py_ok_bind,
    (does_intercept hcl b).2 hb, py_ok_bind,
    show e.optional "multi_class" = .ok mc from (does_optional _ e mc).2 hmc, py_ok_bind,
    show e.optional "solver" = .ok so from (does_optional _ e so).2 hso, py_ok_bind,
    show e.optional "loss" = .ok lo from (does_optional _ e lo).2 hlo, py_ok_bind]
  refine finish_not_plain _ _ ?_
  simpa using hn

/-- **C85**: an estimator with everything its class needs, but with something else than plain data in an
attribute that is copied (a function, a set, a numpy integer, ...), is refused with ValueError. -/
theorem C85_not_plain {c dotted : String} {fs : List (FieldSpec F)} (h : (c, dotted, fs) ∈ classTable trunc)
    (v : Option (List Char)) (hv : ReadableVersion v) (s l : Attrs F) (hl : Rows fs s l)
    (hn : ∃ p ∈ l, ¬ Plain p.2) :
    convert (singles trunc xgb) (.leaf c v s : SkObj (Attrs F) (PVal F) F) = .error .valueError := by
  have key : ∀ (i : Nat) (n' : String) (ctor : SkFitted F → Py (PVal F)),
      (constructors trunc)[i]? = some (n', ctor) → n' = c ++ "Pure" → ByFields ctor dotted fs →
      convert (singles trunc xgb) (.leaf c v s : SkObj (Attrs F) (PVal F) F) = .error .valueError :=
    fun i n' ctor hi hn' hm => convert_ctor_error trunc xgb i hi hn' (byFields_not_plain hm ⟨c, v, s⟩ hv hl hn)
  have keyL : ∀ (i : Nat) (n' : String),
      (constructors trunc)[i]? = some (n', initLinear dotted) → n' = c ++ "Pure" → fs = linearFields →
      convert (singles trunc xgb) (.leaf c v s : SkObj (Attrs F) (PVal F) F) = .error .valueError :=
    fun i n' hi hn' hm => convert_ctor_error trunc xgb i hi hn'
      (linear_not_plain dotted ⟨c, v, s⟩ hv (by subst hm; exact hl) hn)
  simp only [classTable, List.mem_cons, Prod.mk.injEq, List.not_mem_nil, or_false] at h
  rcases h with ⟨rfl, rfl, rfl⟩ | ⟨rfl, rfl, rfl⟩ | ⟨rfl, rfl, rfl⟩ | ⟨rfl, rfl, rfl⟩ | ⟨rfl, rfl, rfl⟩ |
    ⟨rfl, rfl, rfl⟩ | ⟨rfl, rfl, rfl⟩ | ⟨rfl, rfl, rfl⟩ | ⟨rfl, rfl, rfl⟩ | ⟨rfl, rfl, rfl⟩ |
    ⟨rfl, rfl, rfl⟩ | ⟨rfl, rfl, rfl⟩ | ⟨rfl, rfl, rfl⟩ | ⟨rfl, rfl, rfl⟩ | ⟨rfl, rfl, rfl⟩ |
    ⟨rfl, rfl, rfl⟩ | ⟨rfl, rfl, rfl⟩ | ⟨rfl, rfl, rfl⟩ | ⟨rfl, rfl, rfl⟩ | ⟨rfl, rfl, rfl⟩ |
    ⟨rfl, rfl, rfl⟩ | ⟨rfl, rfl, rfl⟩ | ⟨rfl, rfl, rfl⟩ | ⟨rfl, rfl, rfl⟩ | ⟨rfl, rfl, rfl⟩ |
    ⟨rfl, rfl, rfl⟩ | ⟨rfl, rfl, rfl⟩
  · exact keyL 0 _ rfl rfl rfl
  · exact keyL 1 _ rfl rfl rfl
  · exact keyL 2 _ rfl rfl rfl
  · exact keyL 3 _ rfl rfl rfl
  · exact keyL 4 _ rfl rfl rfl
  · exact keyL 5 _ rfl rfl rfl
  · exact key 6 _ _ rfl rfl (initTree_by _)
  · exact key 7 _ _ rfl rfl (initTree_by _)
  · exact key 8 _ _ rfl rfl (initTree_by _)
  · exact key 9 _ _ rfl rfl (initTree_by _)
  · exact key 10 _ _ rfl rfl initGaussianNB_by
  · exact key 11 _ _ rfl rfl (initDiscreteNB_by _)
  · exact key 12 _ _ rfl rfl (initDiscreteNB_by _)
  · exact key 13 _ _ rfl rfl initSimpleImputer_by
  · exact key 14 _ _ rfl rfl initMissingIndicator_by
  · exact key 15 _ _ rfl rfl initDummy_by
  · exact key 16 _ _ rfl rfl (initEncoder_by _)
  · exact key 17 _ _ rfl rfl (initEncoder_by _)
  · exact key 18 _ _ rfl rfl initStandardScaler_by
  · exact key 19 _ _ rfl rfl initMinMaxScaler_by
  · exact key 20 _ _ rfl rfl initMaxAbsScaler_by
  · exact key 21 _ _ rfl rfl initNormalizer_by
  · exact key 22 _ _ rfl rfl initDictVectorizer_by
  · exact key 23 _ _ rfl rfl (initTfidfVectorizer_by trunc)
  · exact key 24 _ _ rfl rfl (initCountVectorizer_by trunc)
  · exact key 25 _ _ rfl rfl initTfidfTransformer_by
  · exact key 26 _ _ rfl rfl initHashingVectorizer_by

/-! ### Other refusals -/

/-- **C85**: a `dtype` that is not a class (a string such as "float32", a `numpy.dtype` instance) is
refused with TypeError by the encoders, the count vectorizer and the hashing vectorizer. -/
theorem C85_dtype (c : String) (hc : c ∈ ["OneHotEncoder", "OrdinalEncoder", "CountVectorizer", "HashingVectorizer"])
    (v : Option (List Char)) (hv : ReadableVersion v) (s : Attrs F) (w : PVal F) (hw : HasAttr s "dtype" w)
    (h : ∀ d, w = .cls d → d = .uncallable) :
    convert (singles trunc xgb) (.leaf c v s : SkObj (Attrs F) (PVal F) F) = .error .typeError := by
  have hd : dtypeStep (⟨c, v, s⟩ : SkFitted F) = .error .typeError := by
    unfold dtypeStep
    rw [(get_ok_iff ⟨c, v, s⟩ "dtype" w).2 hw, py_ok_bind]
    cases w with
    | cls d => cases h d rfl; rfl
    | _ => rfl
  simp only [List.mem_cons, List.not_mem_nil, or_false] at hc
  rcases hc with rfl | rfl | rfl | rfl
  · refine convert_ctor_error trunc xgb (n := "OneHotEncoderPure") 16 rfl rfl ?_
    rw [initEncoder_steps]; exact byStep_error _ [] dtypeStep _ _ hv rfl hd
  · refine convert_ctor_error trunc xgb (n := "OrdinalEncoderPure") 17 rfl rfl ?_
    rw [initEncoder_steps]; exact byStep_error _ [] dtypeStep _ _ hv rfl hd
  · refine convert_ctor_error trunc xgb (n := "CountVectorizerPure") 24 rfl rfl ?_
    rw [initCountVectorizer_steps]; exact byStep_error _ [] dtypeStep _ _ hv rfl hd
  · refine convert_ctor_error trunc xgb (n := "HashingVectorizerPure") 26 rfl rfl ?_
    rw [initHashingVectorizer_steps]; exact byStep_error _ [] dtypeStep _ _ hv rfl hd

/-- **C85**: an encoder that drops categories is refused with ValueError. -/
theorem C85_drop (c : String) (hc : c ∈ ["OneHotEncoder", "OrdinalEncoder"])
    (v : Option (List Char)) (hv : ReadableVersion v) (s : Attrs F)
    (hp : ∃ l, Rows [DTyped, ListedEach "categories_", IfPresent "sparse"] s l)
    (w : PVal F) (hw : HasAttr s "drop" w) (h : w ≠ .none) :
    convert (singles trunc xgb) (.leaf c v s : SkObj (Attrs F) (PVal F) F) = .error .valueError := by
  obtain ⟨l, hl⟩ := hp
  have hl := (runSteps_iff (fs := [dtypeStep, listEachStep "categories_", fun e => e.optional "sparse"])
    (by ctor_fields) ⟨c, v, s⟩ l).2 hl
  have hd : dropStep (⟨c, v, s⟩ : SkFitted F) = .error .valueError := by
    unfold dropStep
    rw [if_pos]
    by_contra hne
    rw [Bool.not_eq_true] at hne
    rcases (hasNotNone_false _ _).1 hne with h1 | h1
    · exact hw.not_no h1
    · exact h (hw.unique h1)
  simp only [List.mem_cons, List.not_mem_nil, or_false] at hc
  rcases hc with rfl | rfl
  · refine convert_ctor_error trunc xgb (n := "OneHotEncoderPure") 16 rfl rfl ?_
    rw [initEncoder_steps]; exact byStep_error _ _ dropStep _ _ hv hl hd
  · refine convert_ctor_error trunc xgb (n := "OrdinalEncoderPure") 17 rfl rfl ?_
    rw [initEncoder_steps]; exact byStep_error _ _ dropStep _ _ hv hl hd

/-- **C85**: a dummy classifier of several outputs (its `class_prior_` is a list of arrays) is refused
with AttributeError, one with another strategy than "prior" with ValueError. -/
theorem C85_dummy (v : Option (List Char)) (hv : ReadableVersion v) (s : Attrs F) :
    (∀ l, (∃ l, Rows [Strategy] s l) → HasAttr s "class_prior_" (.list l) →
      convert (singles trunc xgb) (.leaf "DummyClassifier" v s : SkObj (Attrs F) (PVal F) F) = .error .attributeError) ∧
    (∀ st, st ≠ "prior" →
      (HasAttr s "_strategy" (.str st) ∨ (NoAttr s "_strategy" ∧ HasAttr s "strategy" (.str st))) →
      convert (singles trunc xgb) (.leaf "DummyClassifier" v s : SkObj (Attrs F) (PVal F) F) = .error .valueError) := by
  constructor
  · rintro l ⟨m, hm⟩ hl
    refine convert_ctor_error trunc xgb (n := "DummyClassifierPure") 15 rfl rfl ?_
    rw [initDummy_steps]
    refine byStep_error _ [strategyStep] (listStep "class_prior_") _ _ hv
      ((runSteps_iff (by ctor_fields) ⟨"DummyClassifier", v, s⟩ m).2 hm) ?_
    unfold listStep Fitted.array
    rw [(get_ok_iff ⟨"DummyClassifier", v, s⟩ "class_prior_" _).2 hl]; rfl
  · intro st hst h
    refine convert_ctor_error trunc xgb (n := "DummyClassifierPure") 15 rfl rfl ?_
    rw [initDummy_steps]
    refine byStep_error _ [] strategyStep _ _ hv rfl ?_
    have hb : (st == "prior") = false := by simpa using hst
    unfold strategyStep Fitted.getOr
    rcases h with h | ⟨h1, h⟩
    · rw [has_true (e := ⟨"DummyClassifier", v, s⟩) h, if_pos rfl, (get_ok_iff ⟨"DummyClassifier", v, s⟩ _ _).2 h,
        py_ok_bind]
      simp only [PVal.eqStr, hb]; rfl
    · rw [has_false (e := ⟨"DummyClassifier", v, s⟩) h1, if_neg (by simp),
        (get_ok_iff ⟨"DummyClassifier", v, s⟩ _ _).2 h, py_ok_bind]
      simp only [PVal.eqStr, hb]; rfl

/-- **C85**: a tree classifier of several outputs (its `classes_` is a list of arrays) is refused with
AttributeError. -/
theorem C85_multioutput_tree (c : String)
    (hc : c ∈ ["DecisionTreeClassifier", "ExtraTreeClassifier"])
    (v : Option (List Char)) (hv : ReadableVersion v) (s : Attrs F)
    (hp : ∃ l, Rows [TreeListed "children_left" "children_left_", TreeListed "children_right" "children_right_",
      TreeListed "feature" "feature_", TreeListed "threshold" "threshold_", TreeValues] s l)
    (cs : List (PVal F)) (hcs : HasAttr s "classes_" (.list cs)) :
    convert (singles trunc xgb) (.leaf c v s : SkObj (Attrs F) (PVal F) F) = .error .attributeError := by
  obtain ⟨l, hl⟩ := hp
  have hl := (runSteps_iff (fs := [treeStep "children_left" "children_left_",
    treeStep "children_right" "children_right_", treeStep "feature" "feature_",
    treeStep "threshold" "threshold_", treeValueStep]) (by ctor_fields) ⟨c, v, s⟩ l).2 hl
  have hd : treeClassesStep (⟨c, v, s⟩ : SkFitted F) = .error .attributeError := by
    unfold treeClassesStep treeClasses
    have h1 : (⟨c, v, s⟩ : SkFitted F).hasNotNone "classes_" = true := by
      by_contra hne
      rw [Bool.not_eq_true] at hne
      rcases (hasNotNone_false _ _).1 hne with h1 | h1
      · exact hcs.not_no h1
      · exact nomatch hcs.unique h1
    rw [h1, if_pos rfl, Fitted.array, (get_ok_iff ⟨c, v, s⟩ "classes_" _).2 hcs]; rfl
  simp only [List.mem_cons, List.not_mem_nil, or_false] at hc
  rcases hc with rfl | rfl
  · refine convert_ctor_error trunc xgb (n := "DecisionTreeClassifierPure") 6 rfl rfl ?_
    rw [initTree_steps]; exact byStep_error _ _ treeClassesStep _ _ hv hl hd
  · refine convert_ctor_error trunc xgb (n := "ExtraTreeClassifierPure") 8 rfl rfl ?_
    rw [initTree_steps]; exact byStep_error _ _ treeClassesStep _ _ hv hl hd

/-- The tree of a regressor with one node and outputs `outs`. -/
def fittedStump (outs : List Nat) : Attrs Nat :=
  [("n_outputs_", .int outs.length),
   ("tree_", .obj "Tree" none ["children_left", "children_right", "feature", "threshold", "value"]
     [.ndarray (.list [.int (-1)]), .ndarray (.list [.int (-1)]), .ndarray (.list [.int (-2)]),
      .ndarray (.list [.float 0]), .ndarray (.list [.list (outs.map fun y => .list [.float y])])])]

/-- A regression tree of several outputs is *not* refused: it is converted to a tree of its first
output, the others are lost without an error. -/
theorem C85_multioutput_false (tr : Nat → Py Int) (xg : SkFitted Nat → Py (PVal Nat)) :
    ∃ r, convert (singles tr xg) (.leaf "DecisionTreeRegressor" none (fittedStump [3, 4]) : SkObj (Attrs Nat) (PVal Nat) Nat) = .ok r ∧
      convert (singles tr xg) (.leaf "DecisionTreeRegressor" none (fittedStump [3, 5]) : SkObj (Attrs Nat) (PVal Nat) Nat) = .ok r := by
  refine ⟨.leaf "DecisionTreeRegressorPure".toList (.pure "tree._classes.DecisionTreeRegressorPure"
    ["children_left_", "children_right_", "feature_", "threshold_", "value_", "classes_"]
    [.list [.int (-1)], .list [.int (-1)], .list [.int (-2)], .list [.float 0], .list [.list [.float 3]],
     .list [.int 0, .int 1]]), ?_, ?_⟩
  · rw [convert_ctor tr xg (n := "DecisionTreeRegressorPure") 7 rfl rfl]; rfl
  · rw [convert_ctor tr xg (n := "DecisionTreeRegressorPure") 7 rfl rfl]; rfl

/-! ### Non-vacuity -/

/-- options of a text vectorizer -/
def demoOptions (analyzer stop : PVal Nat) : Attrs Nat :=
  [("dtype", .cls (.plain "float")), ("binary", .bool false), ("vocabulary_", .dict [.str "a"] [.npScalar (.int 0)]),
   ("analyzer", analyzer), ("preprocessor", .none), ("tokenizer", .none), ("stop_words", stop),
   ("token_pattern", .str "(?u)\\b\\w\\w+\\b"), ("ngram_range", .tuple [.int 1, .int 1]), ("strip_accents", .none),
   ("decode_error", .str "strict"), ("encoding", .str "utf-8"), ("lowercase", .bool true), ("input", .str "content")]

/-- the attributes conversion would give them -/
def demoCopied (analyzer stop : PVal Nat) : Attrs Nat :=
  [("dtype", .cls (.plain "float")), ("binary", .bool false), ("vocabulary_", .dict [.str "a"] [.int 0]),
   ("analyzer", analyzer), ("preprocessor", .none), ("tokenizer", .none), ("stop_words", stop),
   ("token_pattern", .str "(?u)\\b\\w\\w+\\b"), ("ngram_range", .tuple [.int 1, .int 1]), ("strip_accents", .none),
   ("decode_error", .str "strict"), ("encoding", .str "utf-8"), ("lowercase", .bool true), ("input", .str "content")]

theorem demoCopied_rows (tr : Nat → Py Int) (a sw : PVal Nat) :
    Rows (countFields tr) (demoOptions a sw) (demoCopied a sw) :=
  (runSteps_iff (does_count tr) ⟨"CountVectorizer", none, demoOptions a sw⟩ _).1 (by rfl)

/-- A custom analyzer: `C85_not_plain` applies. -/
example (tr : Nat → Py Int) (xg : SkFitted Nat → Py (PVal Nat)) :
    convert (singles tr xg) (.leaf "CountVectorizer" none (demoOptions .func .none) : SkObj (Attrs Nat) (PVal Nat) Nat) =
      .error .valueError :=
  C85_not_plain tr xg (List.mem_iff_getElem?.2 ⟨24, rfl⟩) none ⟨_, rfl⟩ _ _ (demoCopied_rows tr _ _)
    ⟨("analyzer", .func), by simp [demoCopied], nofun⟩

/-- Stop words in a set. -/
example (tr : Nat → Py Int) (xg : SkFitted Nat → Py (PVal Nat)) :
    convert (singles tr xg) (.leaf "CountVectorizer" none (demoOptions (.str "word") (.set [.str "the"])) :
      SkObj (Attrs Nat) (PVal Nat) Nat) = .error .valueError :=
  C85_not_plain tr xg (List.mem_iff_getElem?.2 ⟨24, rfl⟩) none ⟨_, rfl⟩ _ _ (demoCopied_rows tr _ _)
    ⟨("stop_words", .set [.str "the"]), by simp [demoCopied], nofun⟩

/-- An unfitted scaler: it has its parameters only. -/
example (tr : Nat → Py Int) (xg : SkFitted Nat → Py (PVal Nat)) :
    convert (singles tr xg) (.leaf "StandardScaler" none
      [("copy", .bool true), ("with_mean", .bool true), ("with_std", .bool true)] : SkObj (Attrs Nat) (PVal Nat) Nat) =
      .error .attributeError :=
  C85_unfitted tr xg (List.mem_iff_getElem?.2 ⟨18, rfl⟩) none ⟨_, rfl⟩ _
    ⟨_, (runSteps_iff (fs := [copyStep "with_mean", copyStep "with_std"]) (by ctor_fields)
      ⟨"StandardScaler", none, _⟩ _).1 rfl⟩ rfl

/-- A tf-idf vectorizer without inverse document frequencies. -/
example (tr : Nat → Py Int) (xg : SkFitted Nat → Py (PVal Nat)) :
    convert (singles tr xg) (.leaf "TfidfVectorizer" none
      (("_tfidf", .obj "TfidfTransformer" none ["norm", "use_idf", "smooth_idf", "sublinear_tf"]
        [.str "l2", .bool false, .bool true, .bool false]) :: demoOptions (.str "word") .none) : SkObj (Attrs Nat) (PVal Nat) Nat) =
      .error .attributeError :=
  C85_tfidf_vectorizer tr xg none none ⟨_, rfl⟩ ⟨_, rfl⟩ _ _ _ rfl
    ⟨_, (runSteps_iff (fs := [copyStep "norm", copyStep "use_idf", copyStep "smooth_idf", copyStep "sublinear_tf"])
      (by ctor_fields) ⟨"TfidfTransformer", none, _⟩ _).1 rfl⟩ rfl

/-- A dtype given as a string. -/
example (tr : Nat → Py Int) (xg : SkFitted Nat → Py (PVal Nat)) :
    convert (singles tr xg) (.leaf "OneHotEncoder" none [("dtype", .str "float32")] : SkObj (Attrs Nat) (PVal Nat) Nat) =
      .error .typeError :=
  C85_dtype tr xg _ (by simp) none ⟨_, rfl⟩ _ (.str "float32") rfl nofun

/-- A most-frequent dummy classifier. -/
example (tr : Nat → Py Int) (xg : SkFitted Nat → Py (PVal Nat)) :
    convert (singles tr xg) (.leaf "DummyClassifier" none [("strategy", .str "most_frequent")] :
      SkObj (Attrs Nat) (PVal Nat) Nat) = .error .valueError :=
  (C85_dummy tr xg none ⟨_, rfl⟩ _).2 "most_frequent" (by decide) (.inr ⟨rfl, rfl⟩)

/-- An encoder fitted with `drop="first"`. -/
example (tr : Nat → Py Int) (xg : SkFitted Nat → Py (PVal Nat)) :
    convert (singles tr xg) (.leaf "OneHotEncoder" none [("dtype", .cls (.plain "float")),
      ("categories_", .list [.ndarray (.list [.str "a"])]), ("drop", .str "first")] : SkObj (Attrs Nat) (PVal Nat) Nat) =
      .error .valueError :=
  C85_drop tr xg _ (by simp) none ⟨_, rfl⟩ _
    ⟨_, (runSteps_iff (fs := [dtypeStep, listEachStep "categories_", fun e => e.optional "sparse"]) (by ctor_fields)
      ⟨"OneHotEncoder", none, _⟩ _).1 rfl⟩ (.str "first") rfl nofun

/-- A tree classifier of two outputs. -/
example (tr : Nat → Py Int) (xg : SkFitted Nat → Py (PVal Nat)) :
    convert (singles tr xg) (.leaf "DecisionTreeClassifier" none
      (("classes_", .list [.ndarray (.list [.int 0, .int 1]), .ndarray (.list [.int 5])]) :: fittedStump [3, 4]) :
      SkObj (Attrs Nat) (PVal Nat) Nat) = .error .attributeError :=
  C85_multioutput_tree tr xg _ (by simp) none ⟨_, rfl⟩ _
    ⟨_, (runSteps_iff (fs := [treeStep "children_left" "children_left_",
      treeStep "children_right" "children_right_", treeStep "feature" "feature_",
      treeStep "threshold" "threshold_", treeValueStep]) (by ctor_fields) ⟨"DecisionTreeClassifier", none, _⟩ _).1 rfl⟩
    _ rfl

end PurePredict
