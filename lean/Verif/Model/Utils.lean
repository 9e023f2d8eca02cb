import Verif.Py.Core
/-
Model of `check_types`, `check_version`, `convert_type` (`pure_sklearn/utils.py`) and of
`pure_sklearn/map.py`.
-/
namespace PurePredict

/-! ### check_types -/

/-- A Python class: its printed form `str(type(obj))` and the names of the built-in classes among
its ancestors (itself included), which is what `isinstance` looks at. -/
structure Cls where
  repr : List Char
  mro : List String
  deriving DecidableEq, Repr

/-- Python objects as `check_types` sees them (finite trees; cyclic objects make `check_types`
recurse without end and are not modelled). -/
inductive PyObj
  | none
  /-- an instance of `list` or `tuple` (or a subclass) -/
  | seq (cls : Cls) (items : List PyObj)
  /-- an instance of `dict` (or a subclass) -/
  | map (cls : Cls) (keys vals : List PyObj)
  /-- any other object, with its instance attributes -/
  | inst (cls : Cls) (attrs : List PyObj)

/-- `isinstance(obj, types)` with `types = (int, float, str, bool, type)`; utils.py:12 -/
def Cls.isPlain (c : Cls) : Bool :=
  ["int", "float", "str", "bool", "type"].any fun t => c.mro.contains t

/-- `sub in s` for strings -/
def isInfix (sub : List Char) : List Char → Bool
  | [] => sub.isEmpty
  | c :: cs => sub.isPrefixOf (c :: cs) || isInfix sub cs

/-- utils.py:34: `"pure_sklearn" in str(type(obj))` -/
def Cls.isPure (c : Cls) : Bool := isInfix "pure_sklearn".toList c.repr

mutual
/-- utils.py:16-40 `check_types` with the default arguments (the recursive calls always use the
defaults) -/
def checkTypes : PyObj → Py Unit
  | .seq _ items => checkTypesAll items
  | .map _ ks vs => do checkTypesAll ks; checkTypesAll vs
  | .none => .ok ()
  | .inst c attrs =>
    if c.isPlain then .ok ()
    else if c.isPure then checkTypesAll attrs
    else .error .valueError
/-- the `for` loops of utils.py:26-31, 35-36 (for a dict the keys are visited before the values
instead of alternating; both orders raise ValueError for the same objects) -/
def checkTypesAll : List PyObj → Py Unit
  | [] => .ok ()
  | o :: os => do checkTypes o; checkTypesAll os
end

/-! ### check_version -/

/-- One component of a `LooseVersion`. -/
inductive VComp
  | num (n : Nat)
  | str (s : List Char)
  deriving DecidableEq, Repr

/-- Character classes of `LooseVersion.component_re = (\d+ | [a-z]+ | \.)`. -/
inductive VKind | digit | lower | dot | other
  deriving DecidableEq

/-- Character class of one character (standard library `distutils.version`, used at
utils.py:56, 63). -/
def vKind (c : Char) : VKind :=
  if c.isDigit then .digit
  else if 'a' ≤ c ∧ c ≤ 'z' then .lower
  else if c = '.' then .dot
  else .other

/-- `int(digits)` -/
def digitsVal (cs : List Char) : Nat :=
  cs.foldl (fun n c => 10 * n + (c.toNat - '0'.toNat)) 0

/-- A finished run of characters of one kind as a component (dots are dropped). -/
def vEmit (k : VKind) (run : List Char) : List VComp :=
  match k with
  | .digit => [.num (digitsVal run)]
  | .lower => [.str run]
  | .other => [.str run]
  | .dot => []

/-- `distutils.version.LooseVersion.parse`: split into runs of digits, of lower-case letters, of
anything else; digits become integers.  `cur` is the current run (reversed) and its kind.
(Python standard library, called from utils.py:56, 63.) -/
def vParseGo : List Char → VKind → List Char → List VComp
  | [], k, cur => if cur.isEmpty then [] else vEmit k cur.reverse
  | c :: cs, k, cur =>
    if cur.isEmpty then vParseGo cs (vKind c) [c]
    else if vKind c = k then vParseGo cs k (c :: cur)
    else vEmit k cur.reverse ++ vParseGo cs (vKind c) [c]

/-- `LooseVersion(s).version` (standard library, used at utils.py:56, 63). -/
def vParse (s : List Char) : List VComp := vParseGo s .other []

/-- `a < b` on components: TypeError between int and str -/
def vCompLt : VComp → VComp → Py Bool
  | .num a, .num b => .ok (a < b)
  | .str a, .str b => .ok (a < b)
  | _, _ => .error .typeError

/-- Python list comparison `a < b`: the first differing position decides -/
def vLt : List VComp → List VComp → Py Bool
  | [], [] => .ok false
  | [], _ :: _ => .ok true
  | _ :: _, [] => .ok false
  | a :: as, b :: bs => if a = b then vLt as bs else vCompLt a b

/-- `MIN_VERSION`; utils.py:13 -/
def minVersion : List Char := "0.20".toList

/-- utils.py:43-64 `check_version`; `version = none` when `__getstate__()["_sklearn_version"]`
raises.  Returns whether a warning was issued. -/
def checkVersion (version : Option (List Char)) (min : Option (List Char)) : Py Bool :=
  match version with
  | none => .ok true
  | some v => do
    let low ← match min with
      | some m => vLt (vParse v) (vParse m)
      | none => pure false
    if low then .error .exception
    else vLt (vParse v) (vParse minVersion)

/-! ### map.py -/

/-- map.py:5-40 `MAPPING` -/
def mapping : List (String × String) := [
  ("LogisticRegression", "pure_sklearn.linear_model.LogisticRegressionPure"),
  ("RidgeClassifier", "pure_sklearn.linear_model.RidgeClassifierPure"),
  ("SGDClassifier", "pure_sklearn.linear_model.SGDClassifierPure"),
  ("Perceptron", "pure_sklearn.linear_model.PerceptronPure"),
  ("PassiveAggressiveClassifier", "pure_sklearn.linear_model.PassiveAggressiveClassifierPure"),
  ("LinearSVC", "pure_sklearn.svm.LinearSVCPure"),
  ("DecisionTreeClassifier", "pure_sklearn.tree.DecisionTreeClassifierPure"),
  ("DecisionTreeRegressor", "pure_sklearn.tree.DecisionTreeRegressorPure"),
  ("ExtraTreeClassifier", "pure_sklearn.tree.ExtraTreeClassifierPure"),
  ("ExtraTreeRegressor", "pure_sklearn.tree.ExtraTreeRegressorPure"),
  ("RandomForestClassifier", "pure_sklearn.ensemble.RandomForestClassifierPure"),
  ("BaggingClassifier", "pure_sklearn.ensemble.BaggingClassifierPure"),
  ("GradientBoostingClassifier", "pure_sklearn.ensemble.GradientBoostingClassifierPure"),
  ("XGBClassifier", "pure_sklearn.xgboost.XGBClassifierPure"),
  ("ExtraTreesClassifier", "pure_sklearn.ensemble.ExtraTreesClassifierPure"),
  ("GaussianNB", "pure_sklearn.naive_bayes.GaussianNBPure"),
  ("MultinomialNB", "pure_sklearn.naive_bayes.MultinomialNBPure"),
  ("ComplementNB", "pure_sklearn.naive_bayes.ComplementNBPure"),
  ("SimpleImputer", "pure_sklearn.impute.SimpleImputerPure"),
  ("MissingIndicator", "pure_sklearn.impute.MissingIndicatorPure"),
  ("DummyClassifier", "pure_sklearn.dummy.DummyClassifierPure"),
  ("Pipeline", "pure_sklearn.pipeline.PipelinePure"),
  ("FeatureUnion", "pure_sklearn.pipeline.FeatureUnionPure"),
  ("OneHotEncoder", "pure_sklearn.preprocessing.OneHotEncoderPure"),
  ("OrdinalEncoder", "pure_sklearn.preprocessing.OrdinalEncoderPure"),
  ("StandardScaler", "pure_sklearn.preprocessing.StandardScalerPure"),
  ("MinMaxScaler", "pure_sklearn.preprocessing.MinMaxScalerPure"),
  ("MaxAbsScaler", "pure_sklearn.preprocessing.MaxAbsScalerPure"),
  ("Normalizer", "pure_sklearn.preprocessing.NormalizerPure"),
  ("DictVectorizer", "pure_sklearn.feature_extraction.DictVectorizerPure"),
  ("TfidfVectorizer", "pure_sklearn.feature_extraction.text.TfidfVectorizerPure"),
  ("CountVectorizer", "pure_sklearn.feature_extraction.text.CountVectorizerPure"),
  ("TfidfTransformer", "pure_sklearn.feature_extraction.text.TfidfTransformerPure"),
  ("HashingVectorizer", "pure_sklearn.feature_extraction.text.HashingVectorizerPure")]

/-- map.py:56-57: everything before the last dot, and everything after it -/
def splitLastDot (s : List Char) : List Char × List Char :=
  let last := (s.reverse.takeWhile (· != '.')).reverse
  (s.take (s.length - last.length - 1), last)

/-- What `convert_estimator` needs to know of a fitted estimator. -/
structure Fitted (α : Type) where
  className : String
  version : Option (List Char)
  state : α

/-- map.py:43-58 `convert_estimator`; `construct module name est` imports the class and calls it.
`min_version` is accepted and ignored. -/
def convertEstimator {α β : Type} (construct : List Char → List Char → Fitted α → Py β)
    (est : Fitted α) (_minVersion : Option (List Char) := none) : Py β :=
  match Dict.get? (mapping : Dict String String) est.className with
  | none => .error .valueError
  | some pureName =>
    let (module_, name) := splitLastDot pureName.toList
    construct module_ name est

/-- The `check_version` call with which every constructor begins; only gradient boosting passes
a minimum (ensemble/_gb.py:27), the xgboost class calls nothing (xgboost/_classes.py:25). -/
def ctorMinVersion (name : List Char) : Option (List Char) :=
  if name = "GradientBoostingClassifierPure".toList then some "0.21.0".toList else none

end PurePredict
