import Verif.Model.Construct
/-
Which attributes of a fitted estimator matter to its conversion, and fitted objects that agree in them.
-/
namespace PurePredict.Spec
variable {F : Type}

/-- the options of the three vectorizers -/
def textReads : List String :=
  ["analyzer", "preprocessor", "tokenizer", "stop_words", "token_pattern", "ngram_range", "strip_accents", "decode_error", "encoding", "lowercase", "input"]

/-- the attributes that matter of the linear classifiers -/
def linearReads : List String := ["coef_", "classes_", "intercept_", "multi_class", "solver", "loss"]
/-- of trees -/
def treeReads : List String := ["tree_", "classes_"]
/-- of the two discrete naive Bayes classifiers -/
def discreteReads : List String := ["class_log_prior_", "classes_", "feature_log_prob_"]
/-- of the encoders -/
def encoderReads : List String := ["dtype", "categories_", "sparse", "drop", "handle_unknown"]
/-- of MissingIndicator -/
def indicatorReads : List String := ["features", "features_", "_n_features", "missing_values", "error_on_new"]
/-- of TfidfTransformer -/
def tfidfReads : List String := ["norm", "use_idf", "smooth_idf", "sublinear_tf", "idf_", "_idf_diag"]
/-- of XGBClassifier -/
def xgbReads : List String := ["objective", "booster", "classes_", "n_classes_", "n_estimators", "get_booster"]

/-- For each class of scikit-learn: the attributes that matter. -/
def readsTable : List (String × List String) := [
  ("LogisticRegression", linearReads), ("RidgeClassifier", linearReads), ("SGDClassifier", linearReads), ("Perceptron", linearReads),
  ("PassiveAggressiveClassifier", linearReads), ("LinearSVC", linearReads),
  ("DecisionTreeClassifier", treeReads), ("DecisionTreeRegressor", treeReads), ("ExtraTreeClassifier", treeReads), ("ExtraTreeRegressor", treeReads),
  ("GaussianNB", ["class_prior_", "classes_", "sigma_", "theta_"]), ("MultinomialNB", discreteReads), ("ComplementNB", discreteReads),
  ("SimpleImputer", ["statistics_", "strategy", "add_indicator", "missing_values", "indicator_"]), ("MissingIndicator", indicatorReads),
  ("DummyClassifier", ["_strategy", "strategy", "class_prior_", "n_classes_", "n_outputs_"]),
  ("OneHotEncoder", encoderReads), ("OrdinalEncoder", encoderReads),
  ("StandardScaler", ["with_mean", "with_std", "scale_", "mean_"]), ("MinMaxScaler", ["feature_range", "scale_", "min_"]),
  ("MaxAbsScaler", ["copy", "scale_", "max_abs_"]), ("Normalizer", ["norm", "copy"]),
  ("DictVectorizer", ["vocabulary_", "feature_names_", "sparse", "dtype", "separator"]),
  ("TfidfVectorizer", ["_tfidf", "dtype", "binary", "vocabulary_"] ++ textReads), ("CountVectorizer", ["dtype", "binary", "vocabulary_"] ++ textReads),
  ("TfidfTransformer", tfidfReads), ("HashingVectorizer", ["dtype", "norm", "binary", "n_features", "alternate_sign"] ++ textReads)]

/-- The attributes that matter for a class; the only class not in the table is the one of xgboost. -/
def readsOf (c : String) : List String :=
  match readsTable.find? fun p => p.1 == c with
  | some p => p.2
  | none => xgbReads

/-- The attributes that hold objects, and which attributes of those matter. -/
def partReads : List (String × List String) :=
  [("tree_", ["children_left", "children_right", "feature", "threshold", "value"]), ("indicator_", indicatorReads), ("_tfidf", tfidfReads)]

/-- Two attributes, present or not, that do not differ in anything that matters: they are the same, or hold objects that agree in the attributes that matter, or
boosters whose tables of trees agree in the columns that matter. -/
inductive SameRead : String → Option (PVal F) → Option (PVal F) → Prop
  | same (n x) : SameRead n x x
  | part {n names c v ns vs ns' vs'} : (n, names) ∈ partReads → (∀ m ∈ names, Dict.get? (ns.zip vs) m = Dict.get? (ns'.zip vs') m) →
      SameRead n (some (.obj c v ns vs)) (some (.obj c v ns' vs'))
  | booster {c v ns vs c' v' ns' vs' d w cs xs d' w' cs' xs'} :
      Dict.get? (ns.zip vs) "trees_to_dataframe" = some (.obj d w cs xs) → Dict.get? (ns'.zip vs') "trees_to_dataframe" = some (.obj d' w' cs' xs') →
      (∀ m ∈ ["Tree", "Split", "Gain", "Yes", "No", "Feature"], Dict.get? (cs.zip xs) m = Dict.get? (cs'.zip xs') m) →
      SameRead "get_booster" (some (.obj c v ns vs)) (some (.obj c' v' ns' vs'))

/-- The attributes of two fitted estimators of class `c` agree in what matters. -/
def AgreeRead (c : String) (a a' : Attrs F) : Prop := ∀ n ∈ readsOf c, SameRead n (Dict.get? a n) (Dict.get? a' n)

/-- Fitted objects of the same build whose single estimators agree in what matters. -/
inductive Equipped : SkObj (Attrs F) (PVal F) F → SkObj (Attrs F) (PVal F) F → Prop
  | same (o) : Equipped o o
  | leaf {c v a a'} : AgreeRead c a a' → Equipped (.leaf c v a) (.leaf c v a')
  | pipeline {v s s'} : s.map Prod.fst = s'.map Prod.fst → s.length = s'.length → (∀ p ∈ (s.map Prod.snd).zip (s'.map Prod.snd), Equipped p.1 p.2) →
      Equipped (.pipeline v s) (.pipeline v s')
  | union {v s s' w} : s.map Prod.fst = s'.map Prod.fst → s.length = s'.length → (∀ p ∈ (s.map Prod.snd).zip (s'.map Prod.snd), Equipped p.1 p.2) →
      Equipped (.union v s w) (.union v s' w)
  | ensemble {k v fs cs ms ms'} : ms.length = ms'.length → (∀ p ∈ ms.zip ms', Equipped p.1 p.2) → Equipped (.ensemble k v fs cs ms) (.ensemble k v fs cs ms')
  | boosting {v cs st st' i i' l h} : st.length = st'.length → (∀ p ∈ st.zip st', p.1.length = p.2.length) → (∀ p ∈ st.zip st', ∀ q ∈ p.1.zip p.2, Equipped q.1 q.2) → Equipped i i' →
      Equipped (.boosting v cs st i l h) (.boosting v cs st' i' l h)

end PurePredict.Spec
