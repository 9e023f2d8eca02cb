import Verif.Model.Convert
/-
Model of the constructors (`__init__`) of the single estimators: they read attributes of the fitted
scikit-learn object, turn numpy arrays into lists, and end with `check_types(self)`.  The objects are
modelled as finite trees of values with named attributes.
(The constructors of the compound estimators are in `Model/Convert.lean`.)
-/
namespace PurePredict

/-- Values found in the attributes of fitted and of converted estimators. -/
inductive PVal (F : Type)
  | none
  | bool (b : Bool)
  | int (i : Int)
  | float (x : F)
  | str (s : String)
  | list (l : List (PVal F))
  | tuple (l : List (PVal F))
  /-- a dict with distinct keys, in order -/
  | dict (keys vals : List (PVal F))
  /-- a class, or something else used as a `dtype` -/
  | cls (d : DTypeObj)
  /-- a `numpy.float64`, which is also a `float` -/
  | npFloat (x : F)
  /-- a `numpy.str_`, which is also a `str` -/
  | npStr (s : String)
  /-- any other numpy scalar; `item` is the Python value it holds -/
  | npScalar (item : PVal F)
  /-- a numpy array; `data` is what its method `tolist` returns -/
  | ndarray (data : PVal F)
  /-- a scipy sparse matrix (only its shape is ever read) -/
  | spmatrix (shape : List Int)
  | set (l : List (PVal F))
  /-- a function or lambda -/
  | func
  /-- a fitted scikit-learn object, or its `tree_`, with its attributes -/
  | obj (className : String) (version : Option (List Char)) (names : List String) (vals : List (PVal F))
  /-- a converted object with its attributes -/
  | pure (dotted : String) (names : List String) (vals : List (PVal F))

variable {F : Type}

/-- Attributes by name. -/
abbrev Attrs (F : Type) := Dict String (PVal F)

namespace PVal

mutual
/-- A value as `check_types` (utils.py:16-40) sees it.  For foreign objects only the fact that their
class is not a plain type and does not name the package matters. -/
def view : PVal F → PyObj
  | .none => .none
  | .bool _ => .inst ⟨"<class 'bool'>".toList, ["bool", "int", "object"]⟩ []
  | .int _ => intObj
  | .float _ => floatObj
  | .str _ => strObj
  | .list l => .seq listCls (views l)
  | .tuple l => .seq tupleCls (views l)
  | .dict ks vs => .map dictCls (views ks) (views vs)
  | .cls .uncallable => .inst ⟨"<class 'numpy.dtype'>".toList, ["object"]⟩ []
  | .cls _ => .inst ⟨"<class 'type'>".toList, ["type", "object"]⟩ []
  | .npFloat _ => .inst ⟨"<class 'numpy.float64'>".toList, ["float", "object"]⟩ []
  | .npStr _ => .inst ⟨"<class 'numpy.str_'>".toList, ["str", "object"]⟩ []
  | .npScalar _ => .inst ⟨"<class 'numpy.int64'>".toList, ["object"]⟩ []
  | .ndarray _ => .inst ⟨"<class 'numpy.ndarray'>".toList, ["object"]⟩ []
  | .spmatrix _ => .inst ⟨"<class 'scipy.sparse.csr.csr_matrix'>".toList, ["object"]⟩ []
  | .set _ => .inst ⟨"<class 'set'>".toList, ["set", "object"]⟩ []
  | .func => .inst ⟨"<class 'function'>".toList, ["object"]⟩ []
  | .obj .. => .inst ⟨"<class 'sklearn.base.BaseEstimator'>".toList, ["object"]⟩ []
  | .pure c _ vs => .inst (pureCls c) (views vs)
/-- the elements of a container or the attributes of an object -/
def views : List (PVal F) → List PyObj
  | [] => []
  | v :: vs => v.view :: views vs
end

/-- `v.tolist()`: arrays and numpy scalars have the method, nothing else here does -/
def tolist : PVal F → Py (PVal F)
  | .ndarray d => .ok d
  | .npFloat x => .ok (.float x)
  | .npStr s => .ok (.str s)
  | .npScalar i => .ok i
  | _ => .error .attributeError

/-- an element met when iterating over a numpy array (a sub-array or a numpy scalar) -/
def arrayItem : PVal F → PVal F
  | .list l => .ndarray (.list l)
  | v => .npScalar v

/-- `for a in v`: the elements, TypeError when `v` is not iterable -/
def iter : PVal F → Py (List (PVal F))
  | .list l => .ok l
  | .tuple l => .ok l
  | .set l => .ok l
  | .dict ks _ => .ok ks
  | .ndarray (.list l) => .ok (l.map arrayItem)
  | .str s => .ok (s.toList.map fun c => .str (String.singleton c))
  | .npStr s => .ok (s.toList.map fun c => .str (String.singleton c))
  | _ => .error .typeError

/-- `a[0]` for the entries of `tree_.value.tolist()`, which are lists (tree/_classes.py:48); other
entries are not subscriptable.  (Tuples, strings and dicts do not occur there.) -/
def first : PVal F → Py (PVal F)
  | .list l => pyGet l 0
  | _ => .error .typeError

/-- `v.shape[0]` (text.py:418, `_idf_diag` is a sparse matrix) -/
def shape0 : PVal F → Py (PVal F)
  | .spmatrix s => do return .int (← pyGet s 0)
  | .ndarray (.list l) => .ok (.int l.length)
  | .ndarray _ => .error .indexError
  | _ => .error .attributeError

/-- `isinstance(v, float)` -/
def isFloat : PVal F → Bool
  | .float _ => true
  | .npFloat _ => true
  | _ => false

/-- `float(v)` of a float (impute/_base.py:32, 94) -/
def toFloat : PVal F → PVal F
  | .npFloat x => .float x
  | v => v

/-- `v is None` -/
def isNone : PVal F → Bool
  | .none => true
  | _ => false

/-- `v == "..."` for a string literal -/
def eqStr (v : PVal F) (s : String) : Bool :=
  match v with
  | .str t => t == s
  | .npStr t => t == s
  | _ => false

/-- `len(v)` of a list (linear_model/_base.py:19, `self.classes_`); TypeError for numbers -/
def len : PVal F → Py Nat
  | .list l => .ok l.length
  | .str s => .ok s.length
  | _ => .error .typeError

/-- `convert_type(v)` (utils.py:67-73) of an attribute `dtype`: calling anything but a class with 0
raises TypeError -/
def convertDType : PVal F → Py (PVal F)
  | .cls d => do return .cls (← convertType d)
  | _ => .error .typeError

/-- `int(v)` for the indices of a vocabulary (text.py:337); `trunc` is `int` on floats.  Strings are
simplified to ValueError (a fitted vocabulary maps to numbers). -/
def toInt (trunc : F → Py Int) : PVal F → Py (PVal F)
  | .int i => .ok (.int i)
  | .bool b => .ok (.int (if b then 1 else 0))
  | .float x => do return .int (← trunc x)
  | .npFloat x => do return .int (← trunc x)
  | .npScalar (.int i) => .ok (.int i)
  | .npScalar (.bool b) => .ok (.int (if b then 1 else 0))
  | .npScalar (.float x) => do return .int (← trunc x)
  | .str _ => .error .valueError
  | .npStr _ => .error .valueError
  | _ => .error .typeError

/-- `{k: int(v) for k, v in v.items()}` (text.py:337) -/
def intItems (trunc : F → Py Int) : PVal F → Py (PVal F)
  | .dict ks vs => do return .dict ks (← vs.mapM (toInt trunc))
  | _ => .error .attributeError

end PVal

/-- What the constructors receive: a fitted estimator with its attributes. -/
abbrev SkFitted (F : Type) := Fitted (Attrs F)

namespace Fitted

/-- `estimator.name` -/
def get (e : SkFitted F) (name : String) : Py (PVal F) :=
  match Dict.get? e.state name with
  | some v => .ok v
  | none => .error .attributeError

/-- `hasattr(estimator, name)` -/
def has (e : SkFitted F) (name : String) : Bool := Dict.contains e.state name

/-- `estimator.name.tolist()` -/
def array (e : SkFitted F) (name : String) : Py (PVal F) := do (← e.get name).tolist

/-- `None if estimator.name is None else estimator.name.tolist()` (preprocessing/_data.py:122-129) -/
def arrayOrNone (e : SkFitted F) (name : String) : Py (PVal F) := do
  let v ← e.get name
  if v.isNone then return .none else v.tolist

/-- `if hasattr(estimator, name): self.name = estimator.name` -/
def optional (e : SkFitted F) (name : String) : Py (Attrs F) :=
  if e.has name then do return [(name, ← e.get name)] else return []

/-- `hasattr(estimator, name) and (estimator.name is not None)` -/
def hasNotNone (e : SkFitted F) (name : String) : Bool :=
  match Dict.get? e.state name with
  | some v => !v.isNone
  | none => false

/-- `estimator.name if hasattr(estimator, name) else other` -/
def getOr (e : SkFitted F) (name : String) (other : Py (PVal F)) : Py (PVal F) :=
  if e.has name then e.get name else other

/-- `float(estimator.name) if isinstance(estimator.name, float) else estimator.name`
(impute/_base.py:31-35, 93-97) -/
def number (e : SkFitted F) (name : String) : Py (PVal F) := do
  let v ← e.get name
  return if v.isFloat then v.toFloat else v

end Fitted

/-- The object under construction, once all attributes are set, and `check_types(self)`. -/
def finish (dotted : String) (attrs : Attrs F) : Py (PVal F) := do
  let o : PVal F := .pure dotted (attrs.map (·.1)) (attrs.map (·.2))
  checkTypes o.view
  return o

/-! ### Linear models -/

/-- linear_model/_base.py:17-21 -/
def interceptAttr (e : SkFitted F) (classes : PVal F) : Py (Attrs F) :=
  if e.has "intercept_" then do
    let b ← e.get "intercept_"
    if b.isFloat then return [("intercept_", .list (List.replicate (← classes.len) b))]
    else return [("intercept_", ← b.tolist)]
  else return []

/-- linear_model/_base.py:14-28 `LinearClassifierMixinPure.__init__`, called by the constructors of
the six classes after `check_version` (_logistic.py:18-20, _ridge.py:17-19,
_stochastic_gradient.py:18-20, _perceptron.py:17-19, _passive_aggressive.py:17-19,
svm/_classes.py:17-19; Perceptron and PassiveAggressive call it through SGDClassifierPure, which
checks the version once more). -/
def initLinear (dotted : String) (e : SkFitted F) : Py (PVal F) := do
  let _ ← checkVersion e.version none
  let coef ← e.array "coef_"
  let classes ← e.array "classes_"
  let b ← interceptAttr e classes
  let mc ← e.optional "multi_class"
  let so ← e.optional "solver"
  let lo ← e.optional "loss"
  finish dotted ([("coef_", coef), ("classes_", classes)] ++ b ++ mc ++ so ++ lo)

/-! ### Naive Bayes, dummy -/

/-- naive_bayes.py:57-63 -/
def initGaussianNB (e : SkFitted F) : Py (PVal F) := do
  let _ ← checkVersion e.version none
  let cp ← e.array "class_prior_"
  let cl ← e.array "classes_"
  let si ← e.array "sigma_"
  let th ← e.array "theta_"
  finish "naive_bayes.GaussianNBPure" [("class_prior_", cp), ("classes_", cl), ("sigma_", si), ("theta_", th)]

/-- naive_bayes.py:96-101 and 124-129 (MultinomialNBPure, ComplementNBPure) -/
def initDiscreteNB (dotted : String) (e : SkFitted F) : Py (PVal F) := do
  let _ ← checkVersion e.version none
  let cp ← e.array "class_log_prior_"
  let cl ← e.array "classes_"
  let fp ← e.array "feature_log_prob_"
  finish dotted [("class_log_prior_", cp), ("classes_", cl), ("feature_log_prob_", fp)]

/-- dummy.py:20-31 -/
def initDummy (e : SkFitted F) : Py (PVal F) := do
  let _ ← checkVersion e.version none
  let st ← e.getOr "_strategy" (e.get "strategy")
  if !st.eqStr "prior" then .error .valueError
  else
    let cp ← e.array "class_prior_"
    let nc ← e.get "n_classes_"
    let no ← e.get "n_outputs_"
    finish "dummy.DummyClassifierPure"
      [("_strategy", st), ("class_prior_", cp), ("n_classes_", nc), ("n_outputs_", no)]

/-! ### Preprocessing -/

/-- preprocessing/_data.py:97-101 -/
def initNormalizer (e : SkFitted F) : Py (PVal F) := do
  let _ ← checkVersion e.version none
  let n ← e.get "norm"
  let c ← e.get "copy"
  finish "preprocessing._data.NormalizerPure" [("norm", n), ("copy", c)]

/-- preprocessing/_data.py:118-130 -/
def initStandardScaler (e : SkFitted F) : Py (PVal F) := do
  let _ ← checkVersion e.version none
  let wm ← e.get "with_mean"
  let ws ← e.get "with_std"
  let sc ← e.arrayOrNone "scale_"
  let me ← e.arrayOrNone "mean_"
  finish "preprocessing._data.StandardScalerPure"
    [("with_mean", wm), ("with_std", ws), ("scale_", sc), ("mean_", me)]

/-- preprocessing/_data.py:163-174 -/
def initMinMaxScaler (e : SkFitted F) : Py (PVal F) := do
  let _ ← checkVersion e.version none
  let fr ← e.get "feature_range"
  let sc ← e.arrayOrNone "scale_"
  let mi ← e.arrayOrNone "min_"
  finish "preprocessing._data.MinMaxScalerPure" [("feature_range", fr), ("scale_", sc), ("min_", mi)]

/-- preprocessing/_data.py:198-209 -/
def initMaxAbsScaler (e : SkFitted F) : Py (PVal F) := do
  let _ ← checkVersion e.version none
  let cp ← e.get "copy"
  let sc ← e.arrayOrNone "scale_"
  let ma ← e.arrayOrNone "max_abs_"
  finish "preprocessing._data.MaxAbsScalerPure" [("copy", cp), ("scale_", sc), ("max_abs_", ma)]

/-- preprocessing/_encoders.py:23-34 (OneHotEncoderPure, OrdinalEncoderPure) -/
def initEncoder (dotted : String) (e : SkFitted F) : Py (PVal F) := do
  let _ ← checkVersion e.version none
  let dt ← (← e.get "dtype").convertDType
  let cats ← (← (← e.get "categories_").iter).mapM PVal.tolist
  let sp ← e.optional "sparse"
  if e.hasNotNone "drop" then .error .valueError
  else
    let hu ← e.optional "handle_unknown"
    finish dotted ([("dtype", dt), ("categories_", .list cats)] ++ sp ++ hu)

/-! ### Imputation -/

/-- impute/_base.py:26-37: the attributes of MissingIndicatorPure -/
def missingIndicatorAttrs (e : SkFitted F) : Py (Attrs F) := do
  let _ ← checkVersion e.version none
  let fe ← e.get "features"
  let fs ← e.array "features_"
  let nf ← e.get "_n_features"
  let mv ← e.number "missing_values"
  let eo ← e.get "error_on_new"
  return [("features", fe), ("features_", fs), ("_n_features", nf), ("missing_values", mv), ("error_on_new", eo)]

/-- impute/_base.py:26-37 -/
def initMissingIndicator (e : SkFitted F) : Py (PVal F) := do
  finish "impute._base.MissingIndicatorPure" (← missingIndicatorAttrs e)

/-- impute/_base.py:100: `self.indicator_.error_on_new = False` -/
def tolerant : PVal F → PVal F
  | .pure d ns vs =>
    let attrs := Dict.set (ns.zip vs) "error_on_new" (.bool false)
    .pure d (attrs.map (·.1)) (attrs.map (·.2))
  | v => v

/-- impute/_base.py:98-100: convert the indicator and set its `error_on_new` to False.
`MissingIndicatorPure(v)` of something that is not a fitted object fails at its first attribute. -/
def indicatorAttr (e : SkFitted F) : Py (Attrs F) :=
  match Dict.get? e.state "indicator_" with
  | none => return []
  | some .none => return []
  | some (.obj c v ns vs) => do return [("indicator_", tolerant (← initMissingIndicator ⟨c, v, ns.zip vs⟩))]
  | some _ => .error .attributeError

/-- impute/_base.py:85-101 -/
def initSimpleImputer (e : SkFitted F) : Py (PVal F) := do
  let _ ← checkVersion e.version none
  let st ← e.array "statistics_"
  let sy ← e.get "strategy"
  let ai ← e.getOr "add_indicator" (.ok (.bool false))
  let mv ← e.number "missing_values"
  let ind ← indicatorAttr e
  finish "impute._base.SimpleImputerPure"
    ([("statistics_", st), ("strategy", sy), ("add_indicator", ai), ("missing_values", mv)] ++ ind)

/-! ### Feature extraction -/

/-- feature_extraction/_dict_vectorizer.py:18-25 -/
def initDictVectorizer (e : SkFitted F) : Py (PVal F) := do
  let _ ← checkVersion e.version none
  let vo ← e.get "vocabulary_"
  let fn ← e.get "feature_names_"
  let sp ← e.get "sparse"
  let dt ← (← e.get "dtype").convertDType
  let se ← e.get "separator"
  finish "feature_extraction._dict_vectorizer.DictVectorizerPure"
    [("vocabulary_", vo), ("feature_names_", fn), ("sparse", sp), ("dtype", dt), ("separator", se)]

/-- text.py:338-348 and 459-469: the options shared by the three vectorizers, copied as they are -/
def textOptions (e : SkFitted F) : Py (Attrs F) := do
  let an ← e.get "analyzer"
  let pp ← e.get "preprocessor"
  let tk ← e.get "tokenizer"
  let sw ← e.get "stop_words"
  let tp ← e.get "token_pattern"
  let nr ← e.get "ngram_range"
  let sa ← e.get "strip_accents"
  let de ← e.get "decode_error"
  let en ← e.get "encoding"
  let lc ← e.get "lowercase"
  let inp ← e.get "input"
  return [("analyzer", an), ("preprocessor", pp), ("tokenizer", tk), ("stop_words", sw),
    ("token_pattern", tp), ("ngram_range", nr), ("strip_accents", sa), ("decode_error", de),
    ("encoding", en), ("lowercase", lc), ("input", inp)]

variable (trunc : F → Py Int)

/-- text.py:333-349, `before` being the attributes already set (TfidfVectorizerPure calls it through
`super()`) -/
def initCountWith (dotted : String) (before : Attrs F) (e : SkFitted F) : Py (PVal F) := do
  let _ ← checkVersion e.version none
  let dt ← (← e.get "dtype").convertDType
  let bi ← e.get "binary"
  let vo ← (← e.get "vocabulary_").intItems trunc
  let op ← textOptions e
  finish dotted (before ++ [("dtype", dt), ("binary", bi), ("vocabulary_", vo)] ++ op)

/-- text.py:333-349 -/
def initCountVectorizer (e : SkFitted F) : Py (PVal F) :=
  initCountWith trunc "feature_extraction.text.CountVectorizerPure" [] e

/-- text.py:411-419.  `idf_` is a property of the fitted object; it exists when `_idf_diag` does. -/
def initTfidfTransformer (e : SkFitted F) : Py (PVal F) := do
  let _ ← checkVersion e.version none
  let no ← e.get "norm"
  let ui ← e.get "use_idf"
  let si ← e.get "smooth_idf"
  let st ← e.get "sublinear_tf"
  let idf ← e.array "idf_"
  let n ← (← e.get "_idf_diag").shape0
  finish "feature_extraction.text.TfidfTransformerPure"
    [("norm", no), ("use_idf", ui), ("smooth_idf", si), ("sublinear_tf", st), ("idf_", idf),
     ("expected_n_features_", n)]

/-- text.py:394 `convert_estimator(estimator._tfidf)`: the attribute is a TfidfTransformer in every
fitted TfidfVectorizer; other objects are simplified to the ValueError of an unsupported class
(map.py:48-55). -/
def convertTfidf : PVal F → Py (PVal F)
  | .obj c v ns vs =>
    if c = "TfidfTransformer" then initTfidfTransformer ⟨c, v, ns.zip vs⟩ else .error .valueError
  | _ => .error .valueError

/-- text.py:392-395 -/
def initTfidfVectorizer (e : SkFitted F) : Py (PVal F) := do
  let _ ← checkVersion e.version none
  let t ← convertTfidf (← e.get "_tfidf")
  initCountWith trunc "feature_extraction.text.TfidfVectorizerPure" [("_tfidf", t)] e

/-- text.py:454-472 -/
def initHashingVectorizer (e : SkFitted F) : Py (PVal F) := do
  let _ ← checkVersion e.version none
  let dt ← (← e.get "dtype").convertDType
  let no ← e.get "norm"
  let bi ← e.get "binary"
  let op ← textOptions e
  let nf ← e.get "n_features"
  let al ← e.get "alternate_sign"
  finish "feature_extraction.text.HashingVectorizerPure"
    ([("dtype", dt), ("norm", no), ("binary", bi)] ++ op ++ [("n_features", nf), ("alternate_sign", al)])

/-! ### Trees -/

/-- `estimator.tree_` as an object with attributes; AttributeErrors of other values come with the
first attribute read (tree/_classes.py:44) -/
def treeOf : PVal F → SkFitted F
  | .obj c v ns vs => ⟨c, v, ns.zip vs⟩
  | _ => ⟨"", none, []⟩

/-- tree/_classes.py:51-54 -/
def treeClasses (e : SkFitted F) : Py (PVal F) :=
  if e.hasNotNone "classes_" then e.array "classes_" else .ok (.list [.int 0, .int 1])

/-- tree/_classes.py:16, 41-55: `_DecisionTreeBase.__init__` of a fitted scikit-learn tree -/
def initTree (dotted : String) (e : SkFitted F) : Py (PVal F) := do
  let _ ← checkVersion e.version none
  let t := treeOf (← e.get "tree_")
  let l ← t.array "children_left"
  let r ← t.array "children_right"
  let f ← t.array "feature"
  let th ← t.array "threshold"
  let v ← (← (← t.array "value").iter).mapM PVal.first
  let cl ← treeClasses e
  finish dotted [("children_left_", l), ("children_right_", r), ("feature_", f), ("threshold_", th),
    ("value_", .list v), ("classes_", cl)]

/-! ### XGBClassifier -/

namespace PVal
variable [Arith F]

/-- the string when `isinstance(v, str)` -/
def str? : PVal F → Option (List Char)
  | .str s => some s.toList
  | .npStr s => some s.toList
  | _ => Option.none

/-- `-2 if isnan(x) else x` (tree/_classes.py:20); `isnan` of anything but a number raises TypeError -/
def splitValue : PVal F → Py (PVal F)
  | .float x => .ok (if Arith.isnan x then .int (-2) else .float x)
  | .npFloat x => .ok (if Arith.isnan x then .int (-2) else .npFloat x)
  | .int i => .ok (.int i)
  | .bool b => .ok (.bool b)
  | .npScalar (.int i) => .ok (.npScalar (.int i))
  | _ => .error .typeError

/-- `-1 if not isinstance(x, str) else int(x.split("-")[-1])` (tree/_classes.py:25, 31) -/
def childId (v : PVal F) : Py (PVal F) := do return .int (← parseChild v.str?)

/-- `-2 if x == "Leaf" else int(x.replace("f", "")[-1])` (tree/_classes.py:37); only strings have `replace` -/
def featureId (v : PVal F) : Py (PVal F) :=
  match v.str? with
  | some cs => do return .int (← parseFeature cs)
  | Option.none => .error .attributeError

/-- `range(v)` (xgboost/_classes.py:57, 64) -/
def index : PVal F → Py Int
  | .int i => .ok i
  | .bool b => .ok (if b then 1 else 0)
  | .npScalar (.int i) => .ok i
  | _ => .error .typeError

/-- `df["Tree"] == idx` of one row (xgboost/_classes.py:59, 65); the tree numbers are integers -/
def isIndex (v : PVal F) (idx : Nat) : Bool :=
  match v with
  | .int i => i == idx
  | .npScalar (.int i) => i == idx
  | _ => false

/-- the entries of a column -/
def entries : PVal F → Py (List (PVal F))
  | .list l => .ok l
  | _ => .error .typeError
end PVal

section Xgb
variable [Arith F]

/-- `df[name]`: KeyError when there is no such column -/
def frameColumn (df : Attrs F) (name : String) : Py (List (PVal F)) :=
  match Dict.get? df name with
  | some v => v.entries
  | none => .error .keyError

/-- `tree_df[tree_df["Tree"] == idx].to_dict(orient="list")[name]` (xgboost/_classes.py:59, 65 and
tree/_classes.py:20-38).  Simplification: only the columns that are read are selected. -/
def treeColumn (df : Attrs F) (idx : Nat) (name : String) : Py (List (PVal F)) := do
  let ids ← frameColumn df "Tree"
  let col ← frameColumn df name
  return ((ids.zip col).filter fun p => p.1.isIndex idx).map Prod.snd

/-- tree/_classes.py:16-40, 55: `DecisionTreeRegressorPure(tree)` of the columns of one tree -/
def initXgbTree (df : Attrs F) (idx : Nat) : Py (PVal F) := do
  let th ← (← treeColumn df idx "Split").mapM PVal.splitValue
  let v ← treeColumn df idx "Gain"
  let l ← (← treeColumn df idx "Yes").mapM PVal.childId
  let r ← (← treeColumn df idx "No").mapM PVal.childId
  let f ← (← treeColumn df idx "Feature").mapM PVal.featureId
  finish "tree._classes.DecisionTreeRegressorPure" [("threshold_", .list th),
    ("value_", .list (v.map fun a => .list [a])), ("children_left_", .list l), ("children_right_", .list r),
    ("feature_", .list f)]

/-- xgboost/_classes.py:58-61 (all rounds) and 63-66 (one round): trees `idx`, `idx + 1`, … -/
def initXgbTrees (df : Attrs F) (idx : Nat) : Nat → Py (List (PVal F))
  | 0 => .ok []
  | k + 1 => do
    let t ← initXgbTree df idx
    return t :: (← initXgbTrees df (idx + 1) k)

/-- xgboost/_classes.py:57, 62-67: the rounds of a multi-class booster -/
def initXgbRounds (df : Attrs F) (nClasses idx : Nat) : Nat → Py (List (PVal F))
  | 0 => .ok []
  | k + 1 => do
    let r ← initXgbTrees df idx nClasses
    return .list r :: (← initXgbRounds df nClasses (idx + nClasses) k)

/-- `estimator.get_booster().trees_to_dataframe()` (xgboost/_classes.py:48-53).  The two methods have no
arguments and are modelled as attributes holding what they return; a data frame is an object whose attributes
are its columns. -/
def boosterFrame (b : PVal F) : Py (Attrs F) :=
  match b with
  | .obj _ _ ns vs => match Dict.get? (ns.zip vs) "trees_to_dataframe" with
    | none => .error .exception
    | some (.obj _ _ cs ds) => .ok (cs.zip ds)
    | some _ => .error .typeError
  | _ => .error .exception

/-- xgboost/_classes.py:25-68 `XGBClassifierPure.__init__`; there is no `check_version`.  Simplification:
`n_classes_` must be an integer also when there are no trees. -/
def initXgb (e : SkFitted F) : Py (PVal F) := do
  let ob ← e.get "objective"
  if !(ob.eqStr "binary:logistic" || ob.eqStr "multi:softprob") then .error .valueError
  else
    let bo ← e.get "booster"
    if !bo.eqStr "gbtree" then .error .valueError
    else
      let cl ← e.array "classes_"
      let nc ← e.get "n_classes_"
      let ne ← e.get "n_estimators"
      let df ← boosterFrame (← e.get "get_booster")
      let n ← ne.index
      let k ← nc.index
      let es ← if k == 2 then initXgbTrees df 0 n.toNat else initXgbRounds df k.toNat 0 n.toNat
      finish "xgboost._classes.XGBClassifierPure" [("objective", ob), ("booster", bo), ("classes_", cl),
        ("n_classes_", nc), ("n_estimators", ne), ("estimators_", .list es)]
end Xgb

/-! ### All of them -/

/-- The constructors by class name (`getattr(module, name)`, map.py:57), with the dotted class names
as `str(type(obj))` prints them. -/
def constructors : List (String × (SkFitted F → Py (PVal F))) := [
  ("LogisticRegressionPure", initLinear "linear_model._logistic.LogisticRegressionPure"),
  ("RidgeClassifierPure", initLinear "linear_model._ridge.RidgeClassifierPure"),
  ("SGDClassifierPure", initLinear "linear_model._stochastic_gradient.SGDClassifierPure"),
  ("PerceptronPure", initLinear "linear_model._perceptron.PerceptronPure"),
  ("PassiveAggressiveClassifierPure",
    initLinear "linear_model._passive_aggressive.PassiveAggressiveClassifierPure"),
  ("LinearSVCPure", initLinear "svm._classes.LinearSVCPure"),
  ("DecisionTreeClassifierPure", initTree "tree._classes.DecisionTreeClassifierPure"),
  ("DecisionTreeRegressorPure", initTree "tree._classes.DecisionTreeRegressorPure"),
  ("ExtraTreeClassifierPure", initTree "tree._classes.ExtraTreeClassifierPure"),
  ("ExtraTreeRegressorPure", initTree "tree._classes.ExtraTreeRegressorPure"),
  ("GaussianNBPure", initGaussianNB),
  ("MultinomialNBPure", initDiscreteNB "naive_bayes.MultinomialNBPure"),
  ("ComplementNBPure", initDiscreteNB "naive_bayes.ComplementNBPure"),
  ("SimpleImputerPure", initSimpleImputer),
  ("MissingIndicatorPure", initMissingIndicator),
  ("DummyClassifierPure", initDummy),
  ("OneHotEncoderPure", initEncoder "preprocessing._encoders.OneHotEncoderPure"),
  ("OrdinalEncoderPure", initEncoder "preprocessing._encoders.OrdinalEncoderPure"),
  ("StandardScalerPure", initStandardScaler),
  ("MinMaxScalerPure", initMinMaxScaler),
  ("MaxAbsScalerPure", initMaxAbsScaler),
  ("NormalizerPure", initNormalizer),
  ("DictVectorizerPure", initDictVectorizer),
  ("TfidfVectorizerPure", initTfidfVectorizer trunc),
  ("CountVectorizerPure", initCountVectorizer trunc),
  ("TfidfTransformerPure", initTfidfTransformer),
  ("HashingVectorizerPure", initHashingVectorizer)]

/-- The constructors of the single estimators, for `convert` (map.py:43-58); `xgb` is the constructor
of XGBClassifierPure (`initXgb`). -/
def singles (xgb : SkFitted F → Py (PVal F)) : Leaves (Attrs F) (PVal F) (PVal F) where
  construct _ name e :=
    match (constructors trunc).find? fun p => p.1.toList == name with
    | some p => p.2 e
    | none => do
      let r ← xgb e
      checkTypes r.view
      return r
  view := PVal.view
  val := PVal.view

end PurePredict
