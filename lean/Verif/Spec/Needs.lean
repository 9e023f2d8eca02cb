import Verif.Spec.Reads
/-
Which attributes a fitted estimator must have for its conversion, and fitted objects from which one of these has been taken away.
-/
namespace PurePredict.Spec
variable {F : Type}

/-- For each class of scikit-learn: the attributes that must be present. -/
def needsTable : List (String × List String) := [
  ("LogisticRegression", ["coef_", "classes_"]), ("RidgeClassifier", ["coef_", "classes_"]), ("SGDClassifier", ["coef_", "classes_"]), ("Perceptron", ["coef_", "classes_"]),
  ("PassiveAggressiveClassifier", ["coef_", "classes_"]), ("LinearSVC", ["coef_", "classes_"]),
  ("DecisionTreeClassifier", ["tree_"]), ("DecisionTreeRegressor", ["tree_"]), ("ExtraTreeClassifier", ["tree_"]), ("ExtraTreeRegressor", ["tree_"]),
  ("GaussianNB", ["class_prior_", "classes_", "sigma_", "theta_"]), ("MultinomialNB", discreteReads), ("ComplementNB", discreteReads),
  ("SimpleImputer", ["statistics_", "strategy", "missing_values"]), ("MissingIndicator", indicatorReads),
  ("DummyClassifier", ["class_prior_", "n_classes_", "n_outputs_"]),
  ("OneHotEncoder", ["dtype", "categories_"]), ("OrdinalEncoder", ["dtype", "categories_"]),
  ("StandardScaler", ["with_mean", "with_std", "scale_", "mean_"]), ("MinMaxScaler", ["feature_range", "scale_", "min_"]),
  ("MaxAbsScaler", ["copy", "scale_", "max_abs_"]), ("Normalizer", ["norm", "copy"]),
  ("DictVectorizer", ["vocabulary_", "feature_names_", "sparse", "dtype", "separator"]),
  ("TfidfVectorizer", ["_tfidf", "dtype", "binary", "vocabulary_"] ++ textReads), ("CountVectorizer", ["dtype", "binary", "vocabulary_"] ++ textReads),
  ("TfidfTransformer", tfidfReads), ("HashingVectorizer", ["dtype", "norm", "binary", "n_features", "alternate_sign"] ++ textReads)]

/-- The attributes that must be present for a class; the only class not in the table is the one of xgboost. -/
def needsOf (c : String) : List String :=
  match needsTable.find? fun p => p.1 == c with
  | some p => p.2
  | none => xgbReads

/-- The attributes `a'` are `a` without `n`. -/
structure Lacks (n : String) (a a' : Attrs F) : Prop where
  gone : Dict.get? a' n = none
  rest : ∀ m, m ≠ n → Dict.get? a' m = Dict.get? a m

/-- `o'` is `o` with one needed attribute of one of its single estimators taken away. -/
inductive Robbed : SkObj (Attrs F) (PVal F) F → SkObj (Attrs F) (PVal F) F → Prop
  | leaf {c v a a' n} : n ∈ needsOf c → Lacks n a a' → Robbed (.leaf c v a) (.leaf c v a')
  | pipeline {v s t name o o'} : Robbed o o' → Robbed (.pipeline v (s ++ (name, o) :: t)) (.pipeline v (s ++ (name, o') :: t))
  | union {v s t name o o' w} : Robbed o o' → Robbed (.union v (s ++ (name, o) :: t) w) (.union v (s ++ (name, o') :: t) w)
  | ensemble {k v fs cs ms ns o o'} : Robbed o o' → Robbed (.ensemble k v fs cs (ms ++ o :: ns)) (.ensemble k v fs cs (ms ++ o' :: ns))
  | stage {v cs st tt ms ns i l h o o'} : Robbed o o' → Robbed (.boosting v cs (st ++ (ms ++ o :: ns) :: tt) i l h) (.boosting v cs (st ++ (ms ++ o' :: ns) :: tt) i l h)
  | init {v cs st i i' l h} : Robbed i i' → Robbed (.boosting v cs st i l h) (.boosting v cs st i' l h)

/-- A single estimator (its class and its attributes) occurs somewhere in a fitted object. -/
inductive Houses (c : String) (v : Option (List Char)) (a : Attrs F) : SkObj (Attrs F) (PVal F) F → Prop
  | leaf : Houses c v a (.leaf c v a)
  | pipeline {w s name o} : (name, o) ∈ s → Houses c v a o → Houses c v a (.pipeline w s)
  | union {w s name o x} : (name, o) ∈ s → Houses c v a o → Houses c v a (.union w s x)
  | ensemble {k w fs cs ms o} : o ∈ ms → Houses c v a o → Houses c v a (.ensemble k w fs cs ms)
  | stage {w cs st ms i l h o} : ms ∈ st → o ∈ ms → Houses c v a o → Houses c v a (.boosting w cs st i l h)
  | init {w cs st i l h} : Houses c v a i → Houses c v a (.boosting w cs st i l h)

end PurePredict.Spec
