import Verif.Lemmas.XgbObject
import Verif.Props.C69
import Verif.Props.C84
/-
C89: from the fitted scikit-learn object to the methods of the converted one.
-/
namespace PurePredict
open Spec
variable {F : Type} [Arith F] (trunc : F → Py Int)

theorem learned_built {c : String} {e : Attrs F} {m : Single F} (h : Learned c e m) (hc : c ≠ "XGBClassifier") {v : Option (List Char)}
    (hv : ReadableVersion v) : ∃ dotted fs b, (c, dotted, fs) ∈ classTable trunc ∧ Built dotted fs v e b ∧
      readSingle (c ++ "Pure").toList b = .ok m := by
  cases h with
  | linear hk h1 h2 h3 h4 h5 h6 =>
    simp only [linearClasses, List.mem_cons, Prod.mk.injEq, List.not_mem_nil, or_false] at hk
    rcases hk with ⟨rfl, rfl⟩ | ⟨rfl, rfl⟩ | ⟨rfl, rfl⟩ | ⟨rfl, rfl⟩ | ⟨rfl, rfl⟩ | ⟨rfl, rfl⟩
    · obtain ⟨b, hb, hr⟩ := linear_built "linear_model._logistic.LogisticRegressionPure" hv h1 h2 h3 h4 h5 h6
      exact ⟨_, _, b, by simp [classTable], hb, by simp [readSingle, hr]⟩
    · obtain ⟨b, hb, hr⟩ := linear_built "linear_model._stochastic_gradient.SGDClassifierPure" hv h1 h2 h3 h4 h5 h6
      exact ⟨_, _, b, by simp [classTable], hb, by simp [readSingle, hr]⟩
    · obtain ⟨b, hb, hr⟩ := linear_built "linear_model._perceptron.PerceptronPure" hv h1 h2 h3 h4 h5 h6
      exact ⟨_, _, b, by simp [classTable], hb, by simp [readSingle, hr]⟩
    · obtain ⟨b, hb, hr⟩ := linear_built "linear_model._passive_aggressive.PassiveAggressiveClassifierPure" hv h1 h2 h3 h4 h5 h6
      exact ⟨_, _, b, by simp [classTable], hb, by simp [readSingle, hr]⟩
    · obtain ⟨b, hb, hr⟩ := linear_built "linear_model._ridge.RidgeClassifierPure" hv h1 h2 h3 h4 h5 h6
      exact ⟨_, _, b, by simp [classTable], hb, by simp [readSingle, hr]⟩
    · obtain ⟨b, hb, hr⟩ := linear_built "svm._classes.LinearSVCPure" hv h1 h2 h3 h4 h5 h6
      exact ⟨_, _, b, by simp [classTable], hb, by simp [readSingle, hr]⟩
  | treeClassifier hk h1 h2 h3 =>
    rcases hk with rfl | rfl
    · obtain ⟨b, hb, hr⟩ := tree_built "tree._classes.DecisionTreeClassifierPure" hv h1 h2 h3
      exact ⟨_, _, b, by simp [classTable], hb, by simp [readSingle, hr]⟩
    · obtain ⟨b, hb, hr⟩ := tree_built "tree._classes.ExtraTreeClassifierPure" hv h1 h2 h3
      exact ⟨_, _, b, by simp [classTable], hb, by simp [readSingle, hr]⟩
  | treeRegressor hk h1 h2 h3 =>
    rcases hk with rfl | rfl
    · obtain ⟨b, hb, hr⟩ := tree_built "tree._classes.DecisionTreeRegressorPure" hv h1 h2 h3
      exact ⟨_, _, b, by simp [classTable], hb, by simp [readSingle, hr]⟩
    · obtain ⟨b, hb, hr⟩ := tree_built "tree._classes.ExtraTreeRegressorPure" hv h1 h2 h3
      exact ⟨_, _, b, by simp [classTable], hb, by simp [readSingle, hr]⟩
  | gaussianNB h1 h2 h3 h4 =>
    obtain ⟨b, hb, hr⟩ := gaussian_built "naive_bayes.GaussianNBPure" hv h1 h2 h3 h4
    exact ⟨_, _, b, by simp [classTable], hb, by simp [readSingle, hr]⟩
  | multinomialNB h1 h2 h3 =>
    obtain ⟨b, hb, hr⟩ := discrete_built "naive_bayes.MultinomialNBPure" hv h1 h2 h3
    exact ⟨_, _, b, by simp [classTable], hb, by simp [readSingle, hr]⟩
  | complementNB h1 h2 h3 =>
    obtain ⟨b, hb, hr⟩ := discrete_built "naive_bayes.ComplementNBPure" hv h1 h2 h3
    exact ⟨_, _, b, by simp [classTable], hb, by simp [readSingle, hr]⟩
  | dummy h0 h1 h2 h3 =>
    obtain ⟨b, hb, hr⟩ := dummy_built "dummy.DummyClassifierPure" hv h0 h1 h2 h3
    exact ⟨_, _, b, by simp [classTable], hb, by simp [readSingle, hr]⟩
  | xgb => exact absurd rfl hc
  | imputer h1 h2 h3 h4 h5 =>
    obtain ⟨b, hb, hr⟩ := imputer_built "impute._base.SimpleImputerPure" hv h1 h2 h3 h4 h5
    exact ⟨_, _, b, by simp [classTable], hb, by simp [readSingle, hr]⟩
  | indicator h =>
    obtain ⟨b, hb, hr⟩ := indicator_built "impute._base.MissingIndicatorPure" hv h
    exact ⟨_, _, b, by simp [classTable], hb, by simp [readSingle, hr]⟩
  | standard h1 h2 h3 h4 =>
    obtain ⟨b, hb, hr⟩ := standard_built "preprocessing._data.StandardScalerPure" hv h1 h2 h3 h4
    exact ⟨_, _, b, by simp [classTable], hb, by simp [readSingle, hr]⟩
  | minMax h1 h2 h3 =>
    obtain ⟨b, hb, hr⟩ := minMax_built "preprocessing._data.MinMaxScalerPure" hv h1 h2 h3
    exact ⟨_, _, b, by simp [classTable], hb, by simp [readSingle, hr]⟩
  | maxAbs h1 h2 h3 =>
    obtain ⟨b, hb, hr⟩ := maxAbs_built "preprocessing._data.MaxAbsScalerPure" hv h1 h2 h3
    exact ⟨_, _, b, by simp [classTable], hb, by simp [readSingle, hr]⟩
  | normalizer h1 h2 h3 =>
    obtain ⟨b, hb, hr⟩ := normalizer_built "preprocessing._data.NormalizerPure" hv h1 h2 h3
    refine ⟨_, _, b, by simp [classTable], hb, ?_⟩
    obtain ⟨w, hw, hr⟩ := bind_ok_iff.1 hr
    cases hr
    simp [readSingle, hw]
  | tfidf h =>
    obtain ⟨b, hb, hr⟩ := tfidf_built "feature_extraction.text.TfidfTransformerPure" hv h
    exact ⟨_, _, b, by simp [classTable], hb, by simp [readSingle, hr]⟩
  | count h =>
    obtain ⟨b, hb, hr1, hr2⟩ := count_built trunc "feature_extraction.text.CountVectorizerPure" hv h
    exact ⟨_, _, b, by simp [classTable], hb, by simp [readSingle, hr1, hr2]⟩
  | tfidfVec h h1 h2 h3 =>
    obtain ⟨b, hb, hr1, hr2, b', hb', hr3⟩ :=
      tfidfVec_built trunc "feature_extraction.text.TfidfVectorizerPure" hv h h1 h2 h3
    exact ⟨_, _, b, by simp [classTable], hb, by simp [readSingle, hr1, hr2, hb', hr3]⟩
  | hashing h =>
    obtain ⟨b, hb, hr1, hr2⟩ := hashing_built "feature_extraction.text.HashingVectorizerPure" hv h
    exact ⟨_, _, b, by simp [classTable], hb, by simp [readSingle, hr1, hr2]⟩
  | dictVec h =>
    obtain ⟨b, hb, hr⟩ := dictVec_built "feature_extraction._dict_vectorizer.DictVectorizerPure" hv h
    exact ⟨_, _, b, by simp [classTable], hb, by simp [readSingle, hr]⟩
  | ordinal h h1 h2 =>
    obtain ⟨b, hb, hr⟩ := ordinal_built "preprocessing._encoders.OrdinalEncoderPure" hv h h1 h2
    exact ⟨_, _, b, by simp [classTable], hb, by simp [readSingle, hr]⟩
  | oneHot h h1 h2 =>
    obtain ⟨b, hb, hr⟩ := oneHot_built "preprocessing._encoders.OneHotEncoderPure" hv h h1 h2
    exact ⟨_, _, b, by simp [classTable], hb, by simp [readSingle, hr]⟩

theorem xgb_name : ∀ c ∈ singleNames, ((c ++ "Pure").toList == ("XGBClassifier" ++ "Pure").toList) = false := by
  decide +kernel

theorem xgb_apart : ((constructors trunc).find? fun p => p.1.toList == ("XGBClassifier" ++ "Pure").toList) = none := by
  rw [List.find?_eq_none]
  intro p hp
  obtain ⟨q, hq, hR⟩ := forall₂_right (constructors_agree trunc).flip hp
  have hc : q.1 ∈ singleNames := by
    rw [← classTable_names trunc]; exact List.mem_map_of_mem (f := fun q => q.1) hq
  rw [hR.1, xgb_name _ hc]
  simp

/-- Conversion of a single estimator, XGBClassifier included. -/
theorem learned_converted {c : String} {e : Attrs F} {m : Single F} (h : Learned c e m) {v : Option (List Char)}
    (hv : ReadableVersion v) : ∃ b, convert (singles trunc initXgb) (.leaf c v e : SkObj (Attrs F) (PVal F) F) =
      .ok (.leaf (c ++ "Pure").toList b) ∧ readSingle (c ++ "Pure").toList b = .ok m := by
  by_cases hc : c = "XGBClassifier"
  · cases h with
    | xgb h1 h2 h3 h4 h5 h6 h7 =>
      obtain ⟨b, hb, hp, hr⟩ := xgb_built (v := v) h1 h2 h3 h4 h5 h6 h7
      refine ⟨b, (convert_leaf _ _ _ _ _).2 ⟨_, b, rfl, rfl, "pure_sklearn.xgboost", ⟨["XGBClassifier"], by simp [exports], by simp⟩, ?_⟩, ?_⟩
      · unfold singles
        simp only
        rw [xgb_apart trunc]
        simp only [hb, py_ok_bind, plain_check hp]
        rfl
      · simp [readSingle, hr]
    | linear hk => simp [linearClasses, hc] at hk
    | treeClassifier hk => simp [hc] at hk
    | treeRegressor hk => simp [hc] at hk
    | _ => simp at hc
  · obtain ⟨d, fs, b, ht, hb, hr⟩ := learned_built trunc h hc hv
    exact ⟨b, (C84_single trunc initXgb ht _ _ _).2 ⟨b, rfl, hb⟩, hr⟩

theorem methodsAll_eq (lib : String → TextLib) (encode : Str → List Nat) (es : List (PureEst (PVal F) (PVal F) F)) :
    methodsAll lib encode es = es.map (PureEst.methods lib encode) := by
  induction es with
  | nil => rfl
  | cons e es ih => rw [methodsAll, ih]; rfl

theorem methodsSteps_eq (lib : String → TextLib) (encode : Str → List Nat)
    (es : List (String × PureEst (PVal F) (PVal F) F)) :
    methodsSteps lib encode es = (es.map Prod.fst).zip ((es.map Prod.snd).map (PureEst.methods lib encode)) := by
  induction es with
  | nil => rfl
  | cons e es ih => rw [methodsSteps, ih, methodsStep]; rfl

theorem methodsStages_eq (lib : String → TextLib) (encode : Str → List Nat)
    (es : List (List (PureEst (PVal F) (PVal F) F))) :
    methodsStages lib encode es = es.map fun st => st.map (PureEst.methods lib encode) := by
  induction es with
  | nil => rfl
  | cons e es ih => rw [methodsStages, ih, methodsAll_eq]; rfl

/-- results of converting the parts, with their methods -/
theorem parts_converted {lib : String → TextLib} {encode : Str → List Nat} {os : List (SkObj (Attrs F) (PVal F) F)}
    {es : List (Methods F)} (h : List.Forall₂ (fun o f => ∃ r, convert (singles trunc initXgb) o = .ok r ∧
      r.methods lib encode = f) os es) :
    ∃ rs, List.Forall₂ (fun o r => convert (singles trunc initXgb) o = .ok r) os rs ∧
      rs.map (PureEst.methods lib encode) = es := by
  induction h with
  | nil => exact ⟨[], .nil, rfl⟩
  | cons h _ ih =>
    obtain ⟨r, hr, rfl⟩ := h
    obtain ⟨rs, hrs, rfl⟩ := ih
    exact ⟨r :: rs, .cons hr hrs, rfl⟩

theorem stages_converted {lib : String → TextLib} {encode : Str → List Nat}
    {os : List (List (SkObj (Attrs F) (PVal F) F))} {es : List (List (Methods F))}
    (h : List.Forall₂ (List.Forall₂ (fun o f => ∃ r, convert (singles trunc initXgb) o = .ok r ∧
      r.methods lib encode = f)) os es) :
    ∃ rs, List.Forall₂ (List.Forall₂ (fun o r => convert (singles trunc initXgb) o = .ok r)) os rs ∧
      (rs.map fun st => st.map (PureEst.methods lib encode)) = es := by
  induction h with
  | nil => exact ⟨[], .nil, rfl⟩
  | cons h _ ih =>
    obtain ⟨r, hr, rfl⟩ := parts_converted trunc h
    obtain ⟨rs, hrs, rfl⟩ := ih
    exact ⟨r :: rs, .cons hr hrs, rfl⟩

theorem converted_check {os : List (SkObj (Attrs F) (PVal F) F)} {rs : List (PureEst (PVal F) (PVal F) F)}
    (h : List.Forall₂ (fun o r => convert (singles trunc initXgb) o = .ok r) os rs) :
    ∀ r ∈ rs, checkTypes (r.view (singles trunc initXgb).view (singles trunc initXgb).val) = .ok () := by
  intro r hr
  obtain ⟨o, -, ho⟩ := forall₂_right h hr
  exact convert_checks _ (C84_checks trunc initXgb) o r ho

theorem steps_converted {steps : List (String × SkObj (Attrs F) (PVal F) F)}
    {rs : List (PureEst (PVal F) (PVal F) F)}
    (h : List.Forall₂ (fun o r => convert (singles trunc initXgb) o = .ok r) (steps.map Prod.snd) rs) :
    ∃ ss, convertSteps (singles trunc initXgb) steps = .ok ss ∧ ss.map Prod.fst = steps.map Prod.fst ∧
      ss.map Prod.snd = rs := by
  have hl : (steps.map Prod.fst).length = rs.length := by rw [List.length_map, ← h.length_eq, List.length_map]
  have h1 : ((steps.map Prod.fst).zip rs).map Prod.fst = steps.map Prod.fst := List.map_fst_zip (by omega)
  have h2 : ((steps.map Prod.fst).zip rs).map Prod.snd = rs := List.map_snd_zip (by omega)
  exact ⟨(steps.map Prod.fst).zip rs, (convertSteps_ok_iff _ _ _).2 ⟨h1, by rw [h2]; exact h⟩, h1, h2⟩

/-- **C89**: every fitted object put together from supported estimators converts, and the methods of the
result are those of the parts, computed from the parameters that were learned: nothing is lost, exchanged
or changed on the way from the fitted object to the predictions. -/
theorem C89_converted_behaves (lib : String → TextLib) (encode : Str → List Nat)
    (o : SkObj (Attrs F) (PVal F) F) (f : Methods F) (h : Behaves lib encode o f) :
    ∃ r, convert (singles trunc initXgb) o = .ok r ∧ r.methods lib encode = f := by
  induction o using SkObj.induct generalizing f with
  | _ o ih =>
    cases h with
    | single hv hl =>
      obtain ⟨b, hb, hr⟩ := learned_converted trunc hl hv
      refine ⟨_, hb, ?_⟩
      rw [PureEst.methods, hr]
    | @pipeline v steps es hv hs =>
      obtain ⟨w, hw⟩ := hv
      obtain ⟨rs, h1, h2⟩ := parts_converted trunc
        (forall₂_imp_mem hs fun a ha b hb => ih a (by simpa [parts] using ha) b hb)
      obtain ⟨ss, h3, h4, h5⟩ := steps_converted trunc h1
      refine ⟨.pipeline ss, ?_, ?_⟩
      · rw [convert_pipeline, hw, py_ok_bind, h3, py_ok_bind, checked_ok_iff]
        exact ⟨view_pipeline_ok _ _ _ (by rw [h5]; exact converted_check trunc h1), rfl⟩
      · rw [PureEst.methods, methodsSteps_eq, h4, h5, h2]
    | @union v steps ws es hv hs =>
      obtain ⟨w, hw⟩ := hv
      obtain ⟨rs, h1, h2⟩ := parts_converted trunc
        (forall₂_imp_mem hs fun a ha b hb => ih a (by simpa [parts] using ha) b hb)
      obtain ⟨ss, h3, h4, h5⟩ := steps_converted trunc h1
      refine ⟨.union ss ws, ?_, ?_⟩
      · rw [convert_union, hw, py_ok_bind, h3, py_ok_bind, checked_ok_iff]
        exact ⟨view_union_ok _ _ _ _ (by rw [h5]; exact converted_check trunc h1), rfl⟩
      · rw [PureEst.methods, methodsSteps_eq, h4, h5, h2]
    | @ensemble k v fs cs ms es hv hc hs =>
      obtain ⟨w, hw⟩ := hv
      obtain ⟨rs, h1, h2⟩ := parts_converted trunc
        (forall₂_imp_mem hs fun a ha b hb => ih a (by simpa [parts] using ha) b hb)
      refine ⟨.ensemble k fs cs rs, ?_, ?_⟩
      · rw [convert_ensemble, hw, py_ok_bind, (convertAll_ok_iff _ _ _).2 h1, py_ok_bind, checked_ok_iff]
        exact ⟨(view_ensemble_ok _ _ _ _ _ _ (converted_check trunc h1)).2
          (checkTypesAll_map _ _ fun x hx => plain_check (hc x hx)), rfl⟩
      · rw [PureEst.methods, methodsAll_eq, h2]
    | @boosting v cs stages init loss lr nf l es e hv hc hs hi hl =>
      obtain ⟨w, hw⟩ := hv
      obtain ⟨rs, h1, h2⟩ := stages_converted trunc (os := stages) (es := es) (lib := lib) (encode := encode) (by
        refine forall₂_imp_mem hs fun st hst es' hes => forall₂_imp_mem hes fun a ha b hb => ih a ?_ b hb
        simp only [parts, List.mem_append, List.mem_flatten]
        exact .inl ⟨st, hst, ha⟩)
      obtain ⟨ri, h3, h4⟩ := ih init (by simp [parts]) e hi
      refine ⟨.boosting cs rs ri l [.float lr, .int nf], ?_, ?_⟩
      · rw [convert_boosting, hw, py_ok_bind, (convertStages_ok_iff _ _ _).2 h1, py_ok_bind, h3, py_ok_bind,
          C69_gb_loss, hl]
        show checked _ _ = _
        rw [checked_ok_iff]
        refine ⟨(view_boosting_ok _ _ _ _ _ _ _ ?_ (convert_checks _ (C84_checks trunc initXgb) _ _ h3)).2
          ⟨checkTypesAll_map _ _ fun x hx => plain_check (hc x hx), checkTypesAll_map _ _ fun x hx => plain_check ?_⟩, rfl⟩
        · intro r hr
          obtain ⟨st, hst, hr⟩ := List.mem_flatten.1 hr
          obtain ⟨os, -, ho⟩ := forall₂_right h1 hst
          exact converted_check trunc ho r hr
        · simp only [List.mem_cons, List.not_mem_nil, or_false] at hx
          rcases hx with rfl | rfl
          · exact .float _
          · exact .int _
      · rw [PureEst.methods]
        simp only [PVal.num, PVal.nat, PVal.int', py_ok_bind]
        show boostingEst cs (methodsStages lib encode rs) (ri.methods lib encode) l lr (nf : Int).toNat = _
        rw [methodsStages_eq, h2, h4, Int.toNat_natCast]

/-- What a fitted object should do is determined: two readings of the same object agree. -/
theorem C89_behaviour_unique {lib : String → TextLib} {encode : Str → List Nat} {o : SkObj (Attrs F) (PVal F) F}
    {f g : Methods F} (hf : Behaves lib encode o f) (hg : Behaves lib encode o g) : f = g := by
  obtain ⟨r, h1, h2⟩ := C89_converted_behaves (fun _ => .ok 0) lib encode o f hf
  obtain ⟨r', h3, h4⟩ := C89_converted_behaves (fun _ => .ok 0) lib encode o g hg
  rw [h1] at h3
  cases h3
  exact h2.symm.trans h4

/-! ### Non-vacuity -/

/-- A pipeline of two fitted objects: a scaler of two columns and a ridge classifier. -/
def demoScalerOf (a b c d : F) : Attrs F :=
  [("copy", .bool true), ("with_mean", .bool true), ("with_std", .bool true), ("scale_", .ndarray (vnums [a, b])),
   ("mean_", .ndarray (vnums [c, d]))]

def demoRidge (a b c : F) : Attrs F :=
  [("alpha", .float a), ("coef_", .ndarray (vmat [[a, b]])), ("intercept_", .ndarray (vnums [c])),
   ("classes_", .ndarray (.list [.str "no", .str "yes"]))]

example (lib : String → TextLib) (encode : Str → List Nat) (a b c d : F) : Behaves lib encode
    (.pipeline (some "0.22".toList) [("scale", .leaf "StandardScaler" (some "0.22".toList) (demoScalerOf a b c d)),
      ("clf", .leaf "RidgeClassifier" (some "0.22".toList) (demoRidge a b c))])
    (pipelineEst [("scale", (Single.standard ⟨true, true, some [a, b], some [c, d]⟩).est lib encode),
      ("clf", (Single.linear .plain
        (Linear.ofFitted [[a, b]] [.str "no", .str "yes"] (some (.vector [c])) none none none)).est lib encode)]) := by
  have hv : ReadableVersion (some "0.22".toList) := ⟨_, rfl⟩
  have h1 : Behaves lib encode (.leaf "StandardScaler" (some "0.22".toList) (demoScalerOf a b c d))
      ((Single.standard ⟨true, true, some [a, b], some [c, d]⟩).est lib encode) :=
    .single hv (.standard rfl rfl rfl rfl)
  refine .pipeline (steps := [("scale", _), ("clf", _)]) (es := [_, _]) hv (.cons h1 (.cons (.single hv ?_) .nil))
  exact .linear (by simp [linearClasses]) rfl ⟨rfl, by
    intro c hc
    simp only [List.mem_cons, List.not_mem_nil, or_false] at hc
    rcases hc with rfl | rfl <;> exact .str _⟩ rfl rfl rfl rfl

end PurePredict
