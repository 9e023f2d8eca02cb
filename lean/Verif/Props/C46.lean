import Verif.Model.Linear
import Verif.Model.Ensemble
import Verif.Model.NaiveBayes
import Verif.Model.Encoders
import Verif.Model.Impute
import Verif.Model.Hash
import Verif.Model.Metrics
import Verif.Lemmas.XR
/-
C46: empty and malformed input.
-/
namespace PurePredict
variable {F C : Type}

/-- **C46**: an object that is neither a list nor a `sparse_list` raises `TypeError`. -/
theorem C46_not_a_list (h : HandleSparse) : checkArray (.other : Arr F) h = .error .typeError := rfl

/-- **C46**: a `sparse_list` raises `ValueError` unless sparse input is allowed, in which case it is
returned unchanged. -/
theorem C46_sparse (ds : List (Dict Int F)) (n : Option Nat) (dt : DType) (h : HandleSparse) :
    checkArray (.sparse ds n dt) h =
      if h = .allow then .ok (.sparse ds n dt) else .error .valueError := by
  cases h <;> rfl

/-- **C46**: a non-empty list is returned unchanged. -/
theorem C46_list (r : Row F) (rs : List (Row F)) (h : HandleSparse) :
    checkArray (.list (r :: rs)) h = .ok (.list (r :: rs)) := by simp [checkArray]

/-- **C46 is false** for the empty list: `check_array` *returns* a `ValueError` instance instead of
raising it, whatever `handle_sparse` is. -/
theorem C46_false (h : HandleSparse) : checkArray (.list ([] : List (Row F))) h ≠ .error .valueError := by
  simp [checkArray]

theorem checkArray_nil (h : HandleSparse) : checkArray (.list ([] : List (Row F))) h = .ok .errObj := by
  simp [checkArray]

@[simp] theorem shape_errObj : (.errObj : Arr F).shape = .error .typeError := rfl
@[simp] theorem width_errObj : (.errObj : Arr F).width = .error .typeError := rfl
@[simp] theorem rows_errObj : (.errObj : Arr F).rows = .error .typeError := rfl
@[simp] theorem len_errObj : (.errObj : Arr F).len = .error .typeError := rfl

section
variable [Arith F]

/-- **C46**, empty input, what the estimators do instead of raising `ValueError`: using the returned
exception object as data raises `TypeError`.  Missing: the claim as stated (`ValueError`), which is
false of all of them. -/
theorem C46_empty_linear_partial (m : Linear F C) (hm : m.coef ≠ []) :
    m.predict (.list []) = .error .typeError ∧ m.decisionFunction (.list []) = .error .typeError := by
  have h : m.decisionFunction (.list []) = .error .typeError := by
    obtain ⟨r, M, hr⟩ := List.exists_cons_of_ne_nil hm
    simp [Linear.decisionFunction, checkArray_nil, Linear.checkWidth, hr, width_ofMat_cons]
  exact ⟨by simp [Linear.predict, h], h⟩

theorem C46_empty_tree_partial (t : Tree F C) :
    t.predict (.list []) = .error .typeError ∧ t.predictProba (.list []) = .error .typeError ∧
    t.predictReg (.list []) = .error .typeError := by
  refine ⟨?_, ?_, ?_⟩ <;> simp [Tree.predict, Tree.predictProba, Tree.predictReg, checkArray_nil]

theorem C46_empty_gb_partial (g : GB F C) :
    g.predict (.list []) = .error .typeError ∧ g.predictProba (.list []) = .error .typeError := by
  have h : g.predictProba (.list []) = .error .typeError := by
    simp [GB.predictProba, GB.rawPredict, GB.rawPredictInit, checkArray_nil]
  exact ⟨by simp [GB.predict, h], h⟩

theorem C46_empty_xgb_partial (m : Xgb F C) (hn : 0 < m.nClasses) :
    m.predict (.list []) = .error .typeError ∧ m.predictProba (.list []) = .error .typeError := by
  have h : m.predictProba (.list []) = .error .typeError := by
    obtain ⟨k, hk⟩ := Nat.exists_eq_succ_of_ne_zero (Nat.pos_iff_ne_zero.1 hn)
    simp only [Xgb.predictProba, checkArray_nil, py_ok_bind]
    cases m.objective with
    | multiSoftprob =>
      simp [Xgb.predict_, hk, List.range_succ_eq_map]
    | binaryLogistic => simp [Xgb.predictBinary]
  exact ⟨by simp [Xgb.predict, h], h⟩

theorem C46_empty_nb_partial (m : DiscreteNB F C) :
    nbPredict m.jllMultinomial m.classes (.list []) = .error .typeError ∧
    nbPredict m.jllComplement m.classes (.list []) = .error .typeError ∧
    nbPredictProba m.jllMultinomial (.list []) = .error .typeError ∧
    nbPredictProba m.jllComplement (.list []) = .error .typeError := by
  refine ⟨?_, ?_, ?_, ?_⟩ <;>
    simp [nbPredict, nbPredictProba, nbPredictLogProba, checkArray_nil, DiscreteNB.jllMultinomial,
      DiscreteNB.jllComplement]

theorem C46_empty_gaussian_partial (m : GaussianNB F C) (hc : m.classes ≠ []) :
    nbPredict m.jll m.classes (.list []) = .error .typeError ∧
    nbPredictProba m.jll (.list []) = .error .typeError := by
  have h : m.jll .errObj = .error .typeError := by
    obtain ⟨c, cs, h⟩ := List.exists_cons_of_ne_nil hc
    simp [GaussianNB.jll, h, List.range_succ_eq_map]
  constructor
  · simp [nbPredict, checkArray_nil, h]
  · simp [nbPredictProba, nbPredictLogProba, checkArray_nil, h]

theorem C46_empty_scalers_partial (s : StandardScaler F) (hs : s.withMean = true ∨ s.withStd = true) (mm : MinMaxScaler F) (ma : MaxAbsScaler F)
    (n : Norm) (hn : n ≠ .bad) :
    s.transform (.list []) = .error .typeError ∧ mm.transform (.list []) = .error .typeError ∧
    ma.transform (.list []) = .error .typeError ∧ normalizerTransform n (.list ([] : List (Row F))) = .error .typeError := by
  refine ⟨?_, ?_, ?_, ?_⟩
  · rcases hs with hs | hs <;> simp [StandardScaler.transform, checkArray_nil, hs]
  · simp [MinMaxScaler.transform, checkArray_nil, Arr.issparse]
  · simp only [MaxAbsScaler.transform, checkArray_nil, py_ok_bind]
    cases ma.scale <;> simp [notNone]
  · simp [normalizerTransform, checkArray_nil, normalizePure, normalizePure', hn, checkArray]

/-- A StandardScaler with neither mean nor scale returns the exception object as its result. -/
theorem C46_empty_scaler_returned (s : StandardScaler F) (hm : s.withMean = false) (hs : s.withStd = false) :
    s.transform (.list []) = .ok .errObj := by
  simp [StandardScaler.transform, checkArray_nil, hm, hs]

theorem C46_empty_encoders_partial [DecidableEq C] (e : Encoder C) :
    (e.ordinal (.list []) : Py (List (List F))) = .error .typeError ∧
    (e.oneHot (.list []) : Py (Arr F)) = .error .typeError := by
  constructor <;>
    simp [Encoder.ordinal, Encoder.oneHot, Encoder.transform_, Encoder.checkX, checkArray_nil]

theorem C46_empty_impute_partial (m : MissingIndicator F) (s : SimpleImputer F) (hs : s.addIndicator = false) :
    m.transform (.list []) = .error .typeError ∧ s.transform (.list []) = .error .typeError := by
  constructor
  · simp [MissingIndicator.transform, checkArray_nil]
  · simp [SimpleImputer.transform, SimpleImputer.transformIndicator, checkArray_nil, hs]

/-- The vectorizers raise `IndexError` for an empty list of documents or mappings. -/
theorem C46_empty_vectorizers_partial (lib : TextLib) (v : CountVectorizer) (hb : v.binary = false)
    {an : Str → List Str} (han : buildAnalyzer lib v.opts = .ok an) (d : DictVectorizer) (t : Tfidf F) :
    (v.transform lib (some []) : Py (Arr F)) = .error .indexError ∧
    (d.transform (.many []) : Py (Arr F)) = .error .indexError ∧
    t.transform (.list []) = .error .typeError := by
  refine ⟨?_, ?_, ?_⟩
  · simp [CountVectorizer.transform, CountVectorizer.countVocab, han, hb, sparseList_dicts_nil]
  · simp [DictVectorizer.transform, sparseList_dicts_nil]
  · simp [Tfidf.transform, checkArray_nil]

/-- `DummyClassifier` does not check its input at all: it accepts the empty list. -/
theorem C46_empty_dummy_accepted (d : Dummy F) (hd : d.classPrior ≠ []) :
    d.predictProba (.list []) = .ok [] ∧ d.predict (.list []) = .ok [] := by
  constructor
  · simp [Dummy.predictProba, Arr.len, Arr.rows]
  · obtain ⟨x, xs, h⟩ := List.exists_cons_of_ne_nil hd
    obtain ⟨i, hi⟩ : ∃ i, argmax d.classPrior = .ok i := by
      rw [h]
      simp only [argmax, pyMaxPos, py_ok_bind]
      split <;> exact ⟨_, rfl⟩
    simp [Dummy.predict, hi, Arr.len, Arr.rows]

/-- `cosine_similarity_pure([])` raises `IndexError`. -/
theorem C46_empty_cosine (Y : YArg F) : cosineSimilarity (.list ([] : List (Row F))) Y = .error .indexError := by
  simp [cosineSimilarity, checkPairwise, Arr.ndim, Arr.first, Arr.rows]

/-- **C46**: the estimators that do not support sparse input reject it with `ValueError` — gradient
boosting, XGBoost, naive Bayes, imputers, encoders … -/
theorem C46_sparse_unsupported [DecidableEq C] (ds : List (Dict Int F)) (n : Option Nat) (dt : DType)
    (g : GB F C) (x : Xgb F C) (jll : Arr F → Py (List (List F))) (cs : List C)
    (m : MissingIndicator F) (s : SimpleImputer F) :
    g.predict (.sparse ds n dt) = .error .valueError ∧
    g.predictProba (.sparse ds n dt) = .error .valueError ∧
    x.predict (.sparse ds n dt) = .error .valueError ∧
    x.predictProba (.sparse ds n dt) = .error .valueError ∧
    nbPredict jll cs (.sparse ds n dt) = .error .valueError ∧
    nbPredictProba jll (.sparse ds n dt) = .error .valueError ∧
    m.transform (.sparse ds n dt) = .error .valueError ∧
    s.transform (.sparse ds n dt) = .error .valueError := by
  refine ⟨?_, ?_, ?_, ?_, ?_, ?_, ?_, ?_⟩
  · simp [GB.predict, GB.predictProba, GB.rawPredict, GB.rawPredictInit, checkArray]
  · simp [GB.predictProba, GB.rawPredict, GB.rawPredictInit, checkArray]
  · simp [Xgb.predict, Xgb.predictProba, checkArray]
  · simp [Xgb.predictProba, checkArray]
  · simp [nbPredict, checkArray]
  · simp [nbPredictProba, nbPredictLogProba, checkArray]
  · simp [MissingIndicator.transform, checkArray]
  · simp [SimpleImputer.transform, checkArray]

/-- … the encoders too; `MinMaxScaler` raises `TypeError`, as scikit-learn does. -/
theorem C46_sparse_unsupported_encoders [DecidableEq C] (ds : List (Dict Int C)) (ds' : List (Dict Int F))
    (n : Option Nat) (dt : DType) (e : Encoder C) (mm : MinMaxScaler F) :
    (e.ordinal (.sparse ds n dt) : Py (List (List F))) = .error .valueError ∧
    (e.oneHot (.sparse ds n dt) : Py (Arr F)) = .error .valueError ∧
    mm.transform (.sparse ds' n dt) = .error .typeError := by
  refine ⟨?_, ?_, ?_⟩
  · simp [Encoder.ordinal, Encoder.transform_, Encoder.checkX, checkArray]
  · simp [Encoder.oneHot, Encoder.transform_, Encoder.checkX, checkArray]
  · simp [MinMaxScaler.transform, Arr.issparse]

/-- **C46**: an object that is not a list is rejected with `TypeError` by every estimator. -/
theorem C46_not_a_list_estimators (m : Linear F C) (t : Tree F C) (g : GB F C) (x : Xgb F C)
    (jll : Arr F → Py (List (List F))) (cs : List C) (s : StandardScaler F) (mm : MinMaxScaler F)
    (ma : MaxAbsScaler F) (n : Norm) (mi : MissingIndicator F) (si : SimpleImputer F) (tf : Tfidf F) :
    m.predict .other = .error .typeError ∧ t.predict .other = .error .typeError ∧
    g.predict .other = .error .typeError ∧ x.predict .other = .error .typeError ∧
    nbPredict jll cs .other = .error .typeError ∧ s.transform .other = .error .typeError ∧
    mm.transform .other = .error .typeError ∧ ma.transform .other = .error .typeError ∧
    normalizerTransform n (.other : Arr F) = .error .typeError ∧ mi.transform .other = .error .typeError ∧
    si.transform .other = .error .typeError ∧ tf.transform .other = .error .typeError :=
  ⟨rfl, rfl, rfl, rfl, rfl, rfl, rfl, rfl, rfl, rfl, rfl, rfl⟩
end

/-- Non-vacuity of the partial theorems: a linear model with one coefficient row. -/
example : (⟨[[ofInt 1]], [0, 1], none, none, none, none⟩ : Linear Ex Nat).predict (.list []) =
    .error .typeError := (C46_empty_linear_partial _ (by simp)).1

end PurePredict
