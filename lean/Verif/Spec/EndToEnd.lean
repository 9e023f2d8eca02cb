import Verif.Model.Object
import Verif.Spec.Construct
import Verif.Spec.ConvertTree
/-
What a fitted scikit-learn object says about its model: `Learned c e m` reads "an object of class `c` with
attributes `e` has learned the parameters in `m`", `Behaves o f` reads "the fitted object `o`, simple or
compound, should behave as the methods `f`".  Attributes not mentioned are arbitrary.  The attributes are
those scikit-learn 0.20 to 0.22 sets (numpy arrays, numpy scalars, Python values).
-/
namespace PurePredict.Spec
variable {F : Type} [Arith F]

/-- a list of floats -/
def vnums (xs : List F) : PVal F := .list (xs.map .float)
/-- a list of lists of floats -/
def vmat (M : List (List F)) : PVal F := .list (M.map vnums)
/-- a list of integers -/
def vints (l : List Int) : PVal F := .list (l.map .int)
/-- a list of strings -/
def vstrs (l : List Str) : PVal F := .list (l.map fun s => .str (String.ofList s))

/-- attribute `n` is an array of numbers -/
def HasVec (e : Attrs F) (n : String) (xs : List F) : Prop := HasAttr e n (.ndarray (vnums xs))
/-- attribute `n` is a matrix -/
def HasMat (e : Attrs F) (n : String) (M : List (List F)) : Prop := HasAttr e n (.ndarray (vmat M))
/-- attribute `n` is an array of integers -/
def HasInts (e : Attrs F) (n : String) (l : List Int) : Prop := HasAttr e n (.ndarray (vints l))
/-- attribute `n` is an array of numbers, or None -/
def HasVecOrNone (e : Attrs F) (n : String) : Option (List F) → Prop
  | none => HasAttr e n .none
  | some xs => HasVec e n xs
/-- attribute `n` is a string, or absent -/
def HasStrOrNot (e : Attrs F) (n : String) : Option String → Prop
  | none => NoAttr e n
  | some s => HasAttr e n (.str s)
/-- attribute `n` is a float, a `numpy.float64` or an integer standing for the number `x` -/
def HasNum (e : Attrs F) (n : String) (x : F) : Prop :=
  HasAttr e n (.float x) ∨ HasAttr e n (.npFloat x) ∨ ∃ i, HasAttr e n (.int i) ∧ x = ofInt i
/-- attribute `n` exists and is plain data -/
def HasPlain (e : Attrs F) (n : String) : Prop := ∃ v, HasAttr e n v ∧ Plain v
/-- the class labels: an array of plain values (integers, strings, …) -/
def HasLabels (e : Attrs F) (cs : List (PVal F)) : Prop :=
  HasAttr e "classes_" (.ndarray (.list cs)) ∧ ∀ c ∈ cs, Plain c

/-- the intercept of a linear model: none, one number, or an array -/
def HasIntercept (e : Attrs F) : Option (FittedIntercept F) → Prop
  | none => NoAttr e "intercept_"
  | some (.scalar x) => HasAttr e "intercept_" (.float x) ∨ HasAttr e "intercept_" (.npFloat x)
  | some (.vector xs) => HasVec e "intercept_" xs

/-- the fitted arrays of a tree -/
def HasTree (e : Attrs F) (l r f : List Int) (th : List F) (value : List (List (List F))) : Prop :=
  ∃ c v ns vs, HasAttr e "tree_" (.obj c v ns vs) ∧ HasInts (ns.zip vs) "children_left" l ∧
    HasInts (ns.zip vs) "children_right" r ∧ HasInts (ns.zip vs) "feature" f ∧
    HasVec (ns.zip vs) "threshold" th ∧ HasAttr (ns.zip vs) "value" (.ndarray (.list (value.map vmat)))

/-- the labels of a tree, absent (or None) for regression -/
def HasLabelsOrNot (e : Attrs F) : Option (List (PVal F)) → Prop
  | none => NoAttr e "classes_" ∨ HasAttr e "classes_" .none
  | some cs => HasLabels e cs

/-- the norms by name -/
def norms : List (String × Norm) := [("l1", .l1), ("l2", .l2), ("max", .max)]
/-- the norm of tf-idf and hashing, possibly None -/
def HasNorm (e : Attrs F) : Option Norm → Prop
  | none => HasAttr e "norm" .none
  | some n => ∃ s, HasAttr e "norm" (.str s) ∧ (s, n) ∈ norms

/-- the types by name -/
def dtypes : List (String × DType) := [("int", .int), ("float", .float), ("bool", .bool)]
/-- the dtype: a builtin class, or a numpy class whose values turn into it -/
def HasDType (e : Attrs F) (t : DType) : Prop := ∃ nm, (nm, t) ∈ dtypes ∧
  (HasAttr e "dtype" (.cls (.plain nm)) ∨ ∃ n, n ≠ nm ∧ HasAttr e "dtype" (.cls (.numpy n nm)))

/-- a fitted MissingIndicator -/
def HasIndicator (e : Attrs F) (m : MissingIndicator F) : Prop :=
  (∃ s, HasAttr e "features" (.str s) ∧ (m.missingOnly = true ↔ s = "missing-only")) ∧
  HasInts e "features_" (m.features.map fun (i : Nat) => (i : Int)) ∧
  HasAttr e "_n_features" (.int m.nFeatures) ∧ HasNum e "missing_values" m.missing ∧
  HasAttr e "error_on_new" (.bool m.errorOnNew)

/-- the indicator inside a SimpleImputer -/
def HasIndicatorOrNot (e : Attrs F) : Option (MissingIndicator F) → Prop
  | none => NoAttr e "indicator_" ∨ HasAttr e "indicator_" .none
  | some m => ∃ c v ns vs, HasAttr e "indicator_" (.obj c v ns vs) ∧ ReadableVersion v ∧
      HasIndicator (ns.zip vs) m

/-- a fitted TfidfTransformer -/
def HasTfidf (e : Attrs F) (t : Tfidf F) : Prop :=
  HasNorm e t.norm ∧ HasAttr e "use_idf" (.bool t.useIdf) ∧ HasPlain e "smooth_idf" ∧
  HasAttr e "sublinear_tf" (.bool t.sublinearTf) ∧ HasVec e "idf_" t.idf ∧
  ∃ s, HasAttr e "_idf_diag" (.spmatrix ((t.expectedNFeatures : Int) :: s))

/-- analyzers by name -/
def analyzers : List (String × AnalyzerKind) := [("word", .word), ("char", .char), ("char_wb", .charWb)]
/-- ways of stripping accents -/
def accents : List (PVal F × StripAccents) := [(.none, .none), (.str "ascii", .ascii), (.str "unicode", .unicode)]
/-- stop words: None, the name of a list, or a list -/
def stops : StopWords → PVal F
  | .none => .none
  | .str s => .str s
  | .list ws => vstrs ws

/-- the options of a text vectorizer with its token pattern; no callables -/
def HasOpts (e : Attrs F) (pattern : String) (o : VectorizerOpts) : Prop :=
  (∃ s, HasAttr e "analyzer" (.str s) ∧ (s, o.analyzer) ∈ analyzers) ∧
  HasAttr e "ngram_range" (.tuple [.int o.minN, .int o.maxN]) ∧
  HasAttr e "stop_words" (stops o.stopWords) ∧
  (∃ v, HasAttr e "strip_accents" v ∧ (v, o.stripAccents) ∈ accents) ∧
  HasAttr e "lowercase" (.bool o.lowercase) ∧ HasAttr e "token_pattern" (.str pattern) ∧
  HasAttr e "preprocessor" .none ∧ HasAttr e "tokenizer" .none ∧
  HasPlain e "decode_error" ∧ HasPlain e "encoding" ∧ HasPlain e "input"

/-- `v` is the integer `i`, of Python or numpy -/
def IsInt (v : PVal F) (i : Int) : Prop := v = .int i ∨ v = .npScalar (.int i)

/-- a fitted CountVectorizer -/
def HasCount (e : Attrs F) (pattern : String) (v : CountVectorizer) : Prop :=
  HasOpts e pattern v.opts ∧ HasDType e v.dtype ∧ HasAttr e "binary" (.bool v.binary) ∧
  ∃ is, HasAttr e "vocabulary_" (.dict (v.vocabulary.map fun p => .str (String.ofList p.1)) is) ∧
    List.Forall₂ IsInt is (v.vocabulary.map (·.2))

/-- a fitted HashingVectorizer -/
def HasHashing (e : Attrs F) (pattern : String) (v : HashingVectorizer) : Prop :=
  HasOpts e pattern v.opts ∧ HasDType e v.dtype ∧ HasAttr e "binary" (.bool v.binary) ∧
  HasNorm e v.norm ∧ HasAttr e "n_features" (.int v.nFeatures) ∧
  HasAttr e "alternate_sign" (.bool v.alternateSign)

/-- a fitted DictVectorizer -/
def HasDictVec (e : Attrs F) (v : DictVectorizer) : Prop :=
  HasAttr e "vocabulary_" (.dict (v.vocabulary.map fun p => .str (String.ofList p.1))
    (v.vocabulary.map fun p => .int p.2)) ∧
  HasPlain e "feature_names_" ∧ HasAttr e "sparse" (.bool v.sparse) ∧ HasDType e v.dtype ∧
  HasAttr e "separator" (.str (String.ofList v.separator))

/-- the categories (strings) and type of a fitted encoder, with nothing dropped -/
def HasCategories (e : Attrs F) (cats : List (List Str)) (t : DType) : Prop :=
  HasAttr e "categories_" (.list (cats.map fun c => .ndarray (vstrs c))) ∧ HasDType e t ∧
  (NoAttr e "drop" ∨ HasAttr e "drop" .none)

/-- the kinds of linear classes -/
def linearClasses : List (String × LinKind) := [("LogisticRegression", .logistic), ("SGDClassifier", .sgd),
  ("Perceptron", .sgd), ("PassiveAggressiveClassifier", .sgd), ("RidgeClassifier", .plain), ("LinearSVC", .plain)]

/-- One row of the table of a booster's trees (`trees_to_dataframe`): a node. -/
structure FrameRow (F : Type) where
  tree : Nat
  feature : Str
  split : F
  yes : Option Str
  no : Option Str
  gain : F

/-- The rows of one tree, as columns. -/
def treeFrame (rows : List (FrameRow F)) (idx : Nat) : XgbFrame F :=
  let rs := rows.filter fun r => r.tree == idx
  { split := rs.map (·.split), gain := rs.map (·.gain), yes := rs.map (·.yes), no := rs.map (·.no)
    feature := rs.map (·.feature) }

/-- an entry of the columns Yes and No: the name of a node, or a number (NaN) at leaves -/
def IsChild (v : PVal F) : Option Str → Prop
  | some s => v = .str (String.ofList s)
  | none => ∃ x, v = .float x

/-- the columns of the table -/
def HasFrame (df : Attrs F) (rows : List (FrameRow F)) : Prop :=
  HasAttr df "Tree" (.list (rows.map fun r => .int r.tree)) ∧ HasAttr df "Feature" (vstrs (rows.map (·.feature))) ∧
  HasAttr df "Split" (vnums (rows.map (·.split))) ∧ HasAttr df "Gain" (vnums (rows.map (·.gain))) ∧
  (∃ ys, HasAttr df "Yes" (.list ys) ∧ List.Forall₂ (fun v r => IsChild v r.yes) ys rows) ∧
  ∃ ns, HasAttr df "No" (.list ns) ∧ List.Forall₂ (fun v r => IsChild v r.no) ns rows

/-- the booster of a fitted XGBClassifier, with its table of trees -/
def HasBooster (e : Attrs F) (rows : List (FrameRow F)) : Prop :=
  ∃ c v ns vs c' v' cs ds, HasAttr e "get_booster" (.obj c v ns vs) ∧
    HasAttr (ns.zip vs) "trees_to_dataframe" (.obj c' v' cs ds) ∧ HasFrame (cs.zip ds) rows

/-- An object of class `c` with attributes `e` has learned `m`. -/
inductive Learned : String → Attrs F → Single F → Prop
  | linear {c k e coef cs b mc so lo} : (c, k) ∈ linearClasses → HasMat e "coef_" coef → HasLabels e cs →
      HasIntercept e b → HasStrOrNot e "multi_class" mc → HasStrOrNot e "solver" so →
      HasStrOrNot e "loss" lo → Learned c e (.linear k (Linear.ofFitted coef cs b mc so lo))
  | treeClassifier {c e l r f th value cs t} : c = "DecisionTreeClassifier" ∨ c = "ExtraTreeClassifier" →
      HasTree e l r f th value → HasLabelsOrNot e cs →
      Tree.ofSklearn l r f th value cs [.int 0, .int 1] = .ok t → Learned c e (.treeClassifier t)
  | treeRegressor {c e l r f th value cs t} : c = "DecisionTreeRegressor" ∨ c = "ExtraTreeRegressor" →
      HasTree e l r f th value → HasLabelsOrNot e cs →
      Tree.ofSklearn l r f th value cs [.int 0, .int 1] = .ok t → Learned c e (.treeRegressor t)
  | gaussianNB {e m} : HasVec e "class_prior_" m.classPrior → HasLabels e m.classes →
      HasMat e "sigma_" m.sigma → HasMat e "theta_" m.theta → Learned "GaussianNB" e (.gaussianNB m)
  | multinomialNB {e m} : HasVec e "class_log_prior_" m.classLogPrior → HasLabels e m.classes →
      HasMat e "feature_log_prob_" m.featureLogProb → Learned "MultinomialNB" e (.multinomialNB m)
  | complementNB {e m} : HasVec e "class_log_prior_" m.classLogPrior → HasLabels e m.classes →
      HasMat e "feature_log_prob_" m.featureLogProb → Learned "ComplementNB" e (.complementNB m)
  | dummy {e d} : (HasAttr e "_strategy" (.str "prior") ∨
        NoAttr e "_strategy" ∧ HasAttr e "strategy" (.str "prior")) →
      HasVec e "class_prior_" d.classPrior → HasPlain e "n_classes_" → HasPlain e "n_outputs_" →
      Learned "DummyClassifier" e (.dummy d)
  | xgb {e ob cs rows m} {K n : Nat} : HasAttr e "objective" (.str ob) → HasAttr e "booster" (.str "gbtree") →
      HasLabels e cs → HasAttr e "n_classes_" (.int K) → HasAttr e "n_estimators" (.int n) → HasBooster e rows →
      Xgb.ofBooster ob "gbtree" cs K n (treeFrame rows) = .ok m → Learned "XGBClassifier" e (.xgb m)
  | imputer {e stats strategy add missing ind} : HasVec e "statistics_" stats →
      HasAttr e "strategy" (.str strategy) →
      (HasAttr e "add_indicator" (.bool add) ∨ NoAttr e "add_indicator" ∧ add = false) →
      HasNum e "missing_values" missing → HasIndicatorOrNot e ind →
      Learned "SimpleImputer" e (.imputer (.ofFitted stats (strategy = "constant") add missing ind))
  | indicator {e m} : HasIndicator e m → Learned "MissingIndicator" e (.indicator m)
  | standard {e s} : HasAttr e "with_mean" (.bool s.withMean) → HasAttr e "with_std" (.bool s.withStd) →
      HasVecOrNone e "scale_" s.scale → HasVecOrNone e "mean_" s.mean → Learned "StandardScaler" e (.standard s)
  | minMax {e s} : HasPlain e "feature_range" → HasVecOrNone e "scale_" s.scale →
      HasVecOrNone e "min_" s.min → Learned "MinMaxScaler" e (.minMax s)
  | maxAbs {e s} : HasPlain e "copy" → HasVecOrNone e "scale_" s.scale →
      HasVecOrNone e "max_abs_" s.maxAbs → Learned "MaxAbsScaler" e (.maxAbs s)
  | normalizer {e n s} : HasPlain e "copy" → HasAttr e "norm" (.str s) → (s, n) ∈ norms →
      Learned "Normalizer" e (.normalizer n)
  | tfidf {e t} : HasTfidf e t → Learned "TfidfTransformer" e (.tfidf t)
  | count {e p v} : HasCount e p v → Learned "CountVectorizer" e (.count p v)
  | tfidfVec {e p v t w ns vs} : HasCount e p v → HasAttr e "_tfidf" (.obj "TfidfTransformer" w ns vs) →
      ReadableVersion w → HasTfidf (ns.zip vs) t → Learned "TfidfVectorizer" e (.tfidfVec p v t)
  | hashing {e p v} : HasHashing e p v → Learned "HashingVectorizer" e (.hashing p v)
  | dictVec {e v} : HasDictVec e v → Learned "DictVectorizer" e (.dictVec v)
  | ordinal {e cats t} : HasCategories e cats t → NoAttr e "sparse" → NoAttr e "handle_unknown" →
      Learned "OrdinalEncoder" e (.ordinal ⟨cats, t, true, true⟩)
  | oneHot {e cats t sparse s} : HasCategories e cats t → HasAttr e "sparse" (.bool sparse) →
      HasAttr e "handle_unknown" (.str s) → Learned "OneHotEncoder" e (.oneHot ⟨cats, t, sparse, s = "error"⟩)

/-- The fitted object `o` should behave as `f`: single estimators as their class does with what was
learned, compound ones as their parts put together. -/
inductive Behaves (lib : String → TextLib) (encode : Str → List Nat) :
    SkObj (Attrs F) (PVal F) F → Methods F → Prop
  | single {c v e m} : ReadableVersion v → Learned c e m → Behaves lib encode (.leaf c v e) (m.est lib encode)
  | pipeline {v steps es} : ReadableVersion v →
      List.Forall₂ (Behaves lib encode) (steps.map Prod.snd) es →
      Behaves lib encode (.pipeline v steps) (pipelineEst ((steps.map Prod.fst).zip es))
  | union {v steps ws es} : ReadableVersion v →
      List.Forall₂ (Behaves lib encode) (steps.map Prod.snd) es →
      Behaves lib encode (.union v steps ws) (unionEst ((steps.map Prod.fst).zip es) ws)
  | ensemble {k v fs cs ms es} : ReadableVersion v → (∀ c ∈ cs, Plain c) →
      List.Forall₂ (Behaves lib encode) ms es →
      Behaves lib encode (.ensemble k v fs cs ms) (ensembleEst fs cs es)
  | boosting {v cs stages init loss} {lr : F} {nf : Nat} {l es e} :
      (∃ w, checkVersion v (some "0.21.0".toList) = .ok w) → (∀ c ∈ cs, Plain c) →
      List.Forall₂ (List.Forall₂ (Behaves lib encode)) stages es → Behaves lib encode init e →
      lossOf loss cs.length = some l →
      Behaves lib encode (.boosting v cs stages init loss [.float lr, .int nf]) (boostingEst cs es e l lr nf)

end PurePredict.Spec
