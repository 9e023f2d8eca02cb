import Mathlib.Data.List.Forall2
import Verif.Model.Construct
/-
Independent description of what conversion of a single estimator produces: for each class, which
attributes of the fitted object end up in the converted one and in which form.  Only the type of
values (`PVal`) is taken from the model.
-/
namespace PurePredict.Spec
variable {F : Type}

/-- Data that may be part of a converted model: built-in values, containers of them, converted
objects.  `numpy.float64` and `numpy.str_` are subclasses of `float` and `str`. -/
inductive Plain : PVal F → Prop
  | none : Plain .none
  | bool (b) : Plain (.bool b)
  | int (i) : Plain (.int i)
  | float (x) : Plain (.float x)
  | str (s) : Plain (.str s)
  | npFloat (x) : Plain (.npFloat x)
  | npStr (s) : Plain (.npStr s)
  | cls (d) (h : d ≠ .uncallable) : Plain (.cls d)
  | list (l) (h : ∀ v ∈ l, Plain v) : Plain (.list l)
  | tuple (l) (h : ∀ v ∈ l, Plain v) : Plain (.tuple l)
  | dict (ks vs) (h1 : ∀ v ∈ ks, Plain v) (h2 : ∀ v ∈ vs, Plain v) : Plain (.dict ks vs)
  | pure (c ns vs) (h : ∀ v ∈ vs, Plain v) : Plain (.pure c ns vs)

/-- `v` is a numpy value holding the Python data `d`. -/
inductive Holds : PVal F → PVal F → Prop
  | array (d) : Holds (.ndarray d) d
  | float (x) : Holds (.npFloat x) (.float x)
  | str (s) : Holds (.npStr s) (.str s)
  | scalar (i) : Holds (.npScalar i) i

/-- The elements of an iterable value. -/
inductive Elements : PVal F → List (PVal F) → Prop
  | list (l) : Elements (.list l) l
  | tuple (l) : Elements (.tuple l) l
  | set (l) : Elements (.set l) l
  | dict (ks vs) : Elements (.dict ks vs) ks
  | array (l) : Elements (.ndarray (.list l)) (l.map fun v => match v with
      | .list l => .ndarray (.list l)
      | v => .npScalar v)
  | str (s) : Elements (.str s) (s.toList.map fun c => .str (String.singleton c))
  | npStr (s) : Elements (.npStr s) (s.toList.map fun c => .str (String.singleton c))

/-- The fitted object has attribute `n` with value `v`. -/
def HasAttr (e : Attrs F) (n : String) (v : PVal F) : Prop := List.lookup n e = some v
/-- The fitted object has no attribute `n`. -/
def NoAttr (e : Attrs F) (n : String) : Prop := List.lookup n e = none

/-- One field of a class: from the attributes of the fitted object, the attributes set in the
converted one (none or one). -/
abbrev FieldSpec (F : Type) := Attrs F → Attrs F → Prop

/-- The same value under the same name. -/
def Copied (n : String) : FieldSpec F := fun e l => ∃ v, HasAttr e n v ∧ l = [(n, v)]
/-- The contents of a numpy array, as lists. -/
def Listed (n : String) : FieldSpec F := fun e l => ∃ v d, HasAttr e n v ∧ Holds v d ∧ l = [(n, d)]
/-- The same, or None when the fitted attribute is None. -/
def ListedOrNone (n : String) : FieldSpec F := fun e l =>
  (HasAttr e n .none ∧ l = [(n, .none)]) ∨ Listed n e l
/-- Copied if the fitted object has it. -/
def IfPresent (n : String) : FieldSpec F := fun e l => (NoAttr e n ∧ l = []) ∨ Copied n e l
/-- Copied if the fitted object has it, otherwise a default. -/
def OrDefault (n : String) (d : PVal F) : FieldSpec F := fun e l => (NoAttr e n ∧ l = [(n, d)]) ∨ Copied n e l
/-- Copied, a `numpy.float64` as a built-in float. -/
def Number (n : String) : FieldSpec F := fun e l =>
  (∃ x, HasAttr e n (.npFloat x) ∧ l = [(n, .float x)]) ∨
    (∃ v, HasAttr e n v ∧ (∀ x, v ≠ .npFloat x) ∧ l = [(n, v)])
/-- A type: numpy's scalar types become the built-in ones. -/
def DTyped : FieldSpec F := fun e l => ∃ d d', HasAttr e "dtype" (.cls d) ∧ l = [("dtype", .cls d')] ∧
  match d with
  | .plain n => d' = .plain n
  | .numpy n i => d' = if i = n then .numpy n i else .plain i
  | .uncallable => False

/-- linear models: a scalar intercept once per class, an array as it is -/
def Intercept : FieldSpec F := fun e l =>
  (NoAttr e "intercept_" ∧ l = []) ∨
  (∃ b cs k, HasAttr e "intercept_" b ∧ ((∃ x, b = .float x) ∨ ∃ x, b = .npFloat x) ∧
    Listed "classes_" e [("classes_", cs)] ∧
    ((∃ ls, cs = .list ls ∧ k = ls.length) ∨ ∃ s, cs = .str s ∧ k = s.length) ∧
    l = [("intercept_", .list (List.replicate k b))]) ∨
  ((∀ x, ¬ HasAttr e "intercept_" (.npFloat x)) ∧ Listed "intercept_" e l)

/-- the strategy of a dummy classifier, which must be "prior" -/
def Strategy : FieldSpec F := fun e l => ∃ v, (v = .str "prior" ∨ v = .npStr "prior") ∧
  (HasAttr e "_strategy" v ∨ (NoAttr e "_strategy" ∧ HasAttr e "strategy" v)) ∧ l = [("_strategy", v)]

/-- a list of arrays -/
def ListedEach (n : String) : FieldSpec F := fun e l => ∃ v vs ds, HasAttr e n v ∧ Elements v vs ∧
  List.Forall₂ Holds vs ds ∧ l = [(n, .list ds)]

/-- encoders: nothing is dropped (and nothing is copied) -/
def NothingDropped : FieldSpec F := fun e l => (NoAttr e "drop" ∨ HasAttr e "drop" .none) ∧ l = []

/-- `k` is the index `v` as a built-in integer. -/
inductive IndexOf (trunc : F → Py Int) : PVal F → PVal F → Prop
  | int (i) : IndexOf trunc (.int i) (.int i)
  | bool (b) : IndexOf trunc (.bool b) (.int (if b then 1 else 0))
  | float (x i) (h : trunc x = .ok i) : IndexOf trunc (.float x) (.int i)
  | npFloat (x i) (h : trunc x = .ok i) : IndexOf trunc (.npFloat x) (.int i)
  | npInt (i) : IndexOf trunc (.npScalar (.int i)) (.int i)
  | npBool (b) : IndexOf trunc (.npScalar (.bool b)) (.int (if b then 1 else 0))
  | npOther (x i) (h : trunc x = .ok i) : IndexOf trunc (.npScalar (.float x)) (.int i)

/-- a vocabulary: the same terms in the same order, the indices as built-in integers -/
def Vocabulary (trunc : F → Py Int) : FieldSpec F := fun e l => ∃ ks vs is,
  HasAttr e "vocabulary_" (.dict ks vs) ∧ List.Forall₂ (IndexOf trunc) vs is ∧
  l = [("vocabulary_", .dict ks is)]

/-- the number of rows of `_idf_diag` -/
def IdfSize : FieldSpec F := fun e l => ∃ v k, HasAttr e "_idf_diag" v ∧
  ((∃ s, v = .spmatrix (k :: s)) ∨ ∃ xs, v = .ndarray (.list xs) ∧ k = (xs.length : Int)) ∧
  l = [("expected_n_features_", .int k)]

/-- an array of the fitted tree -/
def TreeListed (n out : String) : FieldSpec F := fun e l => ∃ c v ns vs a d, HasAttr e "tree_" (.obj c v ns vs) ∧
  HasAttr (ns.zip vs) n a ∧ Holds a d ∧ l = [(out, d)]
/-- the values of the first output at each node of the fitted tree -/
def TreeValues : FieldSpec F := fun e l => ∃ c v ns vs a d rows outs, HasAttr e "tree_" (.obj c v ns vs) ∧
  HasAttr (ns.zip vs) "value" a ∧ Holds a d ∧ Elements d rows ∧
  List.Forall₂ (fun r o => ∃ rest, r = .list (o :: rest)) rows outs ∧ l = [("value_", .list outs)]
/-- the labels, or 0 and 1 when there are none (regression trees) -/
def TreeClasses : FieldSpec F := fun e l =>
  ((NoAttr e "classes_" ∨ HasAttr e "classes_" .none) ∧ l = [("classes_", .list [.int 0, .int 1])]) ∨
    Listed "classes_" e l

/-- All the fields of a class, in order. -/
def Rows : List (FieldSpec F) → FieldSpec F
  | [], _, l => l = []
  | f :: fs, e, l => ∃ l1 l2, f e l1 ∧ Rows fs e l2 ∧ l = l1 ++ l2

/-- The version check does not raise. -/
def ReadableVersion (v : Option (List Char)) : Prop := ∃ w, checkVersion v none = .ok w

/-- `r` is the counterpart, of class `dotted` with fields `fs`, of an object saved by version `v` with
attributes `e`: its attributes are those the fields say, and all of them are plain data. -/
def Built (dotted : String) (fs : List (FieldSpec F)) (v : Option (List Char)) (e : Attrs F) (r : PVal F) : Prop :=
  ReadableVersion v ∧ ∃ l, Rows fs e l ∧ (∀ p ∈ l, Plain p.2) ∧
    r = .pure dotted (l.map (·.1)) (l.map (·.2))

def linearFields : List (FieldSpec F) :=
  [Listed "coef_", Listed "classes_", Intercept, IfPresent "multi_class", IfPresent "solver", IfPresent "loss"]

def treeFields : List (FieldSpec F) :=
  [TreeListed "children_left" "children_left_", TreeListed "children_right" "children_right_",
   TreeListed "feature" "feature_", TreeListed "threshold" "threshold_", TreeValues, TreeClasses]

def discreteNBFields : List (FieldSpec F) := [Listed "class_log_prior_", Listed "classes_", Listed "feature_log_prob_"]

def encoderFields : List (FieldSpec F) :=
  [DTyped, ListedEach "categories_", IfPresent "sparse", NothingDropped, IfPresent "handle_unknown"]

def indicatorFields : List (FieldSpec F) :=
  [Copied "features", Listed "features_", Copied "_n_features", Number "missing_values"]

/-- the indicator of an imputer: converted, except that it tolerates new missing features -/
def Indicator : FieldSpec F := fun e l =>
  ((NoAttr e "indicator_" ∨ HasAttr e "indicator_" .none) ∧ l = []) ∨
  (∃ c v ns vs ls w, HasAttr e "indicator_" (.obj c v ns vs) ∧ ReadableVersion v ∧
    Rows indicatorFields (ns.zip vs) ls ∧ (∀ p ∈ ls, Plain p.2) ∧
    HasAttr (ns.zip vs) "error_on_new" w ∧ Plain w ∧
    l = [("indicator_", .pure "impute._base.MissingIndicatorPure" (ls.map (·.1) ++ ["error_on_new"])
      (ls.map (·.2) ++ [.bool false]))])

def textFields : List (FieldSpec F) :=
  [Copied "analyzer", Copied "preprocessor", Copied "tokenizer", Copied "stop_words", Copied "token_pattern",
   Copied "ngram_range", Copied "strip_accents", Copied "decode_error", Copied "encoding",
   Copied "lowercase", Copied "input"]

def countFields (trunc : F → Py Int) : List (FieldSpec F) :=
  [DTyped, Copied "binary", Vocabulary trunc] ++ textFields

def tfidfFields : List (FieldSpec F) :=
  [Copied "norm", Copied "use_idf", Copied "smooth_idf", Copied "sublinear_tf", Listed "idf_", IdfSize]

/-- the converted tf-idf transformer of a vectorizer -/
def TfidfPart : FieldSpec F := fun e l => ∃ v ns vs r, HasAttr e "_tfidf" (.obj "TfidfTransformer" v ns vs) ∧
  Built "feature_extraction.text.TfidfTransformerPure" tfidfFields v (ns.zip vs) r ∧ l = [("_tfidf", r)]

/-- The classes of single estimators: scikit-learn class, class of the counterpart, its fields. -/
def classTable (trunc : F → Py Int) : List (String × String × List (FieldSpec F)) := [
  ("LogisticRegression", "linear_model._logistic.LogisticRegressionPure", linearFields),
  ("RidgeClassifier", "linear_model._ridge.RidgeClassifierPure", linearFields),
  ("SGDClassifier", "linear_model._stochastic_gradient.SGDClassifierPure", linearFields),
  ("Perceptron", "linear_model._perceptron.PerceptronPure", linearFields),
  ("PassiveAggressiveClassifier", "linear_model._passive_aggressive.PassiveAggressiveClassifierPure",
    linearFields),
  ("LinearSVC", "svm._classes.LinearSVCPure", linearFields),
  ("DecisionTreeClassifier", "tree._classes.DecisionTreeClassifierPure", treeFields),
  ("DecisionTreeRegressor", "tree._classes.DecisionTreeRegressorPure", treeFields),
  ("ExtraTreeClassifier", "tree._classes.ExtraTreeClassifierPure", treeFields),
  ("ExtraTreeRegressor", "tree._classes.ExtraTreeRegressorPure", treeFields),
  ("GaussianNB", "naive_bayes.GaussianNBPure",
    [Listed "class_prior_", Listed "classes_", Listed "sigma_", Listed "theta_"]),
  ("MultinomialNB", "naive_bayes.MultinomialNBPure", discreteNBFields),
  ("ComplementNB", "naive_bayes.ComplementNBPure", discreteNBFields),
  ("SimpleImputer", "impute._base.SimpleImputerPure",
    [Listed "statistics_", Copied "strategy", OrDefault "add_indicator" (.bool false),
     Number "missing_values", Indicator]),
  ("MissingIndicator", "impute._base.MissingIndicatorPure", indicatorFields ++ [Copied "error_on_new"]),
  ("DummyClassifier", "dummy.DummyClassifierPure",
    [Strategy, Listed "class_prior_", Copied "n_classes_", Copied "n_outputs_"]),
  ("OneHotEncoder", "preprocessing._encoders.OneHotEncoderPure", encoderFields),
  ("OrdinalEncoder", "preprocessing._encoders.OrdinalEncoderPure", encoderFields),
  ("StandardScaler", "preprocessing._data.StandardScalerPure",
    [Copied "with_mean", Copied "with_std", ListedOrNone "scale_", ListedOrNone "mean_"]),
  ("MinMaxScaler", "preprocessing._data.MinMaxScalerPure",
    [Copied "feature_range", ListedOrNone "scale_", ListedOrNone "min_"]),
  ("MaxAbsScaler", "preprocessing._data.MaxAbsScalerPure",
    [Copied "copy", ListedOrNone "scale_", ListedOrNone "max_abs_"]),
  ("Normalizer", "preprocessing._data.NormalizerPure", [Copied "norm", Copied "copy"]),
  ("DictVectorizer", "feature_extraction._dict_vectorizer.DictVectorizerPure",
    [Copied "vocabulary_", Copied "feature_names_", Copied "sparse", DTyped, Copied "separator"]),
  ("TfidfVectorizer", "feature_extraction.text.TfidfVectorizerPure", TfidfPart :: countFields trunc),
  ("CountVectorizer", "feature_extraction.text.CountVectorizerPure", countFields trunc),
  ("TfidfTransformer", "feature_extraction.text.TfidfTransformerPure", tfidfFields),
  ("HashingVectorizer", "feature_extraction.text.HashingVectorizerPure",
    [DTyped, Copied "norm", Copied "binary"] ++ textFields ++ [Copied "n_features", Copied "alternate_sign"])]

end PurePredict.Spec
