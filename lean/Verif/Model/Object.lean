import Verif.Model.Construct
import Verif.Model.Pipeline
import Verif.Model.Linear
import Verif.Model.NaiveBayes
import Verif.Model.Impute
import Verif.Model.Encoders
import Verif.Model.Hash
/-
The methods of converted objects.  `Model/Construct.lean` and `Model/Convert.lean` build objects with
named attributes; the other model files describe the methods on typed records.  Here the attributes
(`self.coef_`, …) are read and the methods of the class are run on what was read.

Simplifications: all attributes are read before a method runs, and an object with attributes of another
form than its class writes has no methods (conversion never makes one of the objects considered here
without error); a request of another kind than the estimator takes (documents given to a scaler, …)
raises TypeError.
-/
namespace PurePredict
variable {F : Type} [Arith F]

/-- What is passed to `transform` and `predict`: numeric rows, documents, mappings, rows of strings. -/
inductive Data (F : Type)
  | arr (X : Arr F)
  | docs (ds : List Str)
  | records (X : DictInput F)
  | table (X : Arr Str)

/-- A converted estimator through its methods. -/
abbrev Methods (F : Type) := Est (Data F) (List (PVal F)) (List (List F))

namespace Data
/-- a method for numeric rows -/
def onArr {R : Type} (f : Arr F → Py R) : Data F → Py R
  | arr X => f X
  | _ => .error .typeError
/-- a method for documents -/
def onDocs {R : Type} (f : List Str → Py R) : Data F → Py R
  | docs ds => f ds
  | _ => .error .typeError
/-- a method for mappings -/
def onRecords {R : Type} (f : DictInput F → Py R) : Data F → Py R
  | records X => f X
  | _ => .error .typeError
/-- a method for rows of strings -/
def onTable {R : Type} (f : Arr Str → Py R) : Data F → Py R
  | table X => f X
  | _ => .error .typeError

/-- utils.py:76-98 `check_array(X, handle_sparse="allow")` of a request.  For an empty list of documents
or mappings the exception object it returns is simplified to a TypeError, as in `TextUnion.transform`. -/
def check : Data F → Py (Data F)
  | arr X => do return .arr (← checkArray X .allow)
  | docs ds => if ds.isEmpty then .error .typeError else .ok (.docs ds)
  | records (.one _) => .error .typeError
  | records (.many xs) => if xs.isEmpty then .error .typeError else .ok (.records (.many xs))
  | table X => do return .table (← checkArray X .allow)

/-- `len(X)` -/
def len : Data F → Py Nat
  | arr X => X.len
  | docs ds => .ok ds.length
  | records (.one x) => .ok x.length
  | records (.many xs) => .ok xs.length
  | table X => X.len

/-- utils.py:101-113 `shape`: a document is not a list or dict, a mapping is a dict -/
def shape : Data F → Py Shape
  | arr X => X.shape
  | docs ds => .ok (.d1 ds.length)
  | records (.one _) => .error .keyError
  | records (.many []) => .error .indexError
  | records (.many (x :: xs)) => .ok (.d2 (xs.length + 1) (some x.length))
  | table X => X.shape

/-- what the transformers of this package return: numeric rows -/
def asArr : Data F → Py (Arr F)
  | arr X => .ok X
  | _ => .error .typeError
end Data

/-! ### Method tables -/

/-- a class with `transform` only -/
def transformer (f : Data F → Py (Arr F)) : Methods F where
  transform := some fun X => do return .arr (← f X)
  predict := none
  predictProba := none
  predictLogProba := none

/-- a class with the three methods of a probabilistic classifier -/
def classifier (p : Arr F → Py (List (PVal F))) (pp pl : Arr F → Py (List (List F))) : Methods F where
  transform := none
  predict := some (Data.onArr p)
  predictProba := some (Data.onArr pp)
  predictLogProba := some (Data.onArr pl)

/-- a class with `predict` only -/
def predictor (p : Arr F → Py (List (PVal F))) : Methods F where
  transform := none
  predict := some (Data.onArr p)
  predictProba := none
  predictLogProba := none

/-- a class with `predict` and `predict_proba` (XGBClassifierPure) -/
def probabilist (p : Arr F → Py (List (PVal F))) (pp : Arr F → Py (List (List F))) : Methods F where
  transform := none
  predict := some (Data.onArr p)
  predictProba := some (Data.onArr pp)
  predictLogProba := none

/-- the six linear classes: LogisticRegressionPure; SGDClassifierPure and its subclasses PerceptronPure
and PassiveAggressiveClassifierPure; RidgeClassifierPure and LinearSVCPure -/
inductive LinKind | logistic | sgd | plain
  deriving DecidableEq

/-- A single converted estimator, its attributes read. -/
inductive Single (F : Type)
  | linear (kind : LinKind) (m : Linear F (PVal F))
  | treeClassifier (t : Tree F (PVal F))
  | treeRegressor (t : Tree F (PVal F))
  | gaussianNB (m : GaussianNB F (PVal F))
  | multinomialNB (m : DiscreteNB F (PVal F))
  | complementNB (m : DiscreteNB F (PVal F))
  | dummy (d : Dummy F)
  | xgb (m : Xgb F (PVal F))
  | imputer (s : SimpleImputer F)
  | indicator (m : MissingIndicator F)
  | standard (s : StandardScaler F)
  | minMax (s : MinMaxScaler F)
  | maxAbs (s : MaxAbsScaler F)
  | normalizer (n : Norm)
  | tfidf (t : Tfidf F)
  | count (pattern : String) (v : CountVectorizer)
  | tfidfVec (pattern : String) (v : CountVectorizer) (t : Tfidf F)
  | hashing (pattern : String) (v : HashingVectorizer)
  | dictVec (v : DictVectorizer)
  | ordinal (e : Encoder Str)
  | oneHot (e : Encoder Str)

/-- The methods of a linear classifier.  `predict_proba` of SGDClassifierPure is a property that raises
AttributeError unless the loss allows it (_stochastic_gradient.py:29-31, 50-52): then `hasattr` is
False. -/
def LinKind.est (k : LinKind) (m : Linear F (PVal F)) : Methods F :=
  match k with
  | .logistic => classifier m.predict m.predictProba m.predictLogProba
  | .sgd => match m.checkProba with
    | .ok _ => classifier m.predict m.sgdPredictProba m.sgdPredictLogProba
    | .error _ => predictor m.predict
  | .plain => predictor m.predict

/-- The methods of a single estimator; `lib` gives the text library functions for a token pattern and
`encode` the UTF-8 encoding of a text. -/
def Single.est (lib : String → TextLib) (encode : Str → List Nat) : Single F → Methods F
  | linear k m => k.est m
  | treeClassifier t => classifier t.predict t.predictProba t.predictLogProba
  | treeRegressor t => predictor fun X => do return (← t.predictReg X).map .float
  | gaussianNB m => classifier (nbPredict m.jll m.classes) (nbPredictProba m.jll) (nbPredictLogProba m.jll)
  | multinomialNB m => classifier (nbPredict m.jllMultinomial m.classes) (nbPredictProba m.jllMultinomial)
      (nbPredictLogProba m.jllMultinomial)
  | complementNB m => classifier (nbPredict m.jllComplement m.classes) (nbPredictProba m.jllComplement)
      (nbPredictLogProba m.jllComplement)
  | dummy d => classifier (fun X => do return (← d.predict X).map fun (i : Nat) => .int i) d.predictProba d.predictLogProba
  | xgb m => probabilist m.predict m.predictProba
  | imputer s => transformer (Data.onArr s.transform)
  | indicator m => transformer (Data.onArr fun X => do return .ofMat (← m.transform X))
  | standard s => transformer (Data.onArr s.transform)
  | minMax s => transformer (Data.onArr s.transform)
  | maxAbs s => transformer (Data.onArr s.transform)
  | normalizer n => transformer (Data.onArr (normalizerTransform n))
  | tfidf t => transformer (Data.onArr fun X => do return (← t.transform X).1)
  | count p v => transformer (Data.onDocs fun ds => v.transform (lib p) (some ds))
  | tfidfVec p v t => transformer (Data.onDocs fun ds => tfidfVectorizerTransform (lib p) v t (some ds))
  | hashing p v => transformer (Data.onDocs fun ds => v.transform (lib p) encode (some ds))
  | dictVec v => transformer (Data.onRecords v.transform)
  | ordinal e => transformer (Data.onTable fun X => do return .ofMat (← e.ordinal X))
  | oneHot e => transformer (Data.onTable e.oneHot)

/-! ### Compound estimators -/

/-- `trans.transform(X)` (pipeline.py:60) -/
def Est.runTransform (e : Methods F) (X : Data F) : Py (Arr F) :=
  match e.transform with
  | none => .error .attributeError
  | some f => do (← f X).asArr

/-- `est.predict_proba(X)` (_bagging.py:36, 39; _gb_losses.py:51, 83, 122) -/
def Est.runProba (e : Methods F) (X : Arr F) : Py (List (List F)) :=
  match e.predictProba with
  | none => .error .attributeError
  | some f => f (.arr X)

/-- a number, as arithmetic on a value sees it -/
def PVal.num : PVal F → Py F
  | .float x => .ok x
  | .npFloat x => .ok x
  | .int i => .ok (ofInt i)
  | .bool b => .ok (ofBool b)
  | _ => .error .typeError

/-- `est.predict(X)` used as numbers (_gb.py:75-77) -/
def Est.runNumbers (e : Methods F) (X : Arr F) : Py (List F) :=
  match e.predict with
  | none => .error .attributeError
  | some f => do (← f (.arr X)).mapM PVal.num

/-- pipeline.py:75-142: a pipeline of converted estimators -/
def pipelineEst (steps : List (String × Methods F)) : Methods F :=
  Pipeline.asEst ⟨steps.map fun s => (s.1, some s.2)⟩

/-- pipeline.py:179: `(self.transformer_weights or {}).get(name)` -/
def weightOf (ws : Option (List (String × F))) (name : String) : Option F :=
  match ws with
  | none => none
  | some ws => Dict.get? ws name

/-- pipeline.py:186-218: a union of converted estimators -/
def unionEst (steps : List (String × Methods F)) (ws : Option (List (String × F))) : Methods F :=
  transformer fun X => do
    let X ← X.check
    let Xs ← steps.mapM fun s => transformOne s.2.runTransform X (weightOf ws s.1)
    unionOf X.len X.shape Xs

/-- _bagging.py:35-55: an ensemble of converted estimators -/
def ensembleEst (fs : Option (List (List Int))) (cs : List (PVal F)) (ms : List (Methods F)) : Methods F :=
  let b : Bagging F (PVal F) := ⟨fs, cs, ms.map fun m => ⟨m.runProba⟩⟩
  classifier b.predict b.predictProba b.predictLogProba

/-- _gb.py:53-92: a boosting model of converted estimators -/
def boostingEst (cs : List (PVal F)) (stages : List (List (Methods F))) (init : Methods F) (l : Loss)
    (learningRate : F) (nFeatures : Nat) : Methods F :=
  let g : GB F (PVal F) := ⟨cs, stages.map fun st => st.map fun m => m.runNumbers, init.runProba,
    learningRate, nFeatures, l⟩
  classifier g.predict g.predictProba g.predictLogProba

/-! ### Reading attributes -/

namespace PVal
/-- `self.name` of a converted object -/
def attr (o : PVal F) (name : String) : Py (PVal F) :=
  match o with
  | .pure _ ns vs => match Dict.get? (ns.zip vs) name with
    | some v => .ok v
    | Option.none => .error .attributeError
  | _ => .error .attributeError

/-- `hasattr(self, name)` with its value -/
def attr? (o : PVal F) (name : String) : Option (PVal F) :=
  match o with
  | .pure _ ns vs => Dict.get? (ns.zip vs) name
  | _ => Option.none

/-- the elements of a list -/
def items : PVal F → Py (List (PVal F))
  | .list l => .ok l
  | _ => .error .typeError

/-- a list of numbers -/
def nums (v : PVal F) : Py (List F) := do (← v.items).mapM num
/-- a list of lists of numbers -/
def mat (v : PVal F) : Py (List (List F)) := do (← v.items).mapM nums
/-- a list of numbers or None -/
def nums? : PVal F → Py (Option (List F))
  | .none => .ok Option.none
  | v => do return some (← v.nums)
/-- an integer -/
def int' : PVal F → Py Int
  | .int i => .ok i
  | .bool b => .ok (if b then 1 else 0)
  | _ => .error .typeError
/-- a size or index -/
def nat (v : PVal F) : Py Nat := do return (← v.int').toNat
/-- a list of integers -/
def ints (v : PVal F) : Py (List Int) := do (← v.items).mapM int'
/-- a list of indices -/
def nats (v : PVal F) : Py (List Nat) := do (← v.items).mapM nat
/-- `bool(v)` of a bool or int -/
def truth : PVal F → Py Bool
  | .bool b => .ok b
  | .int i => .ok (i != 0)
  | _ => .error .typeError
/-- a string -/
def text : PVal F → Py String
  | .str s => .ok s
  | .npStr s => .ok s
  | _ => .error .typeError
/-- the value of an option that is a string or something else -/
def text? : PVal F → Option String
  | .str s => some s
  | .npStr s => some s
  | _ => Option.none
/-- a list of strings -/
def texts (v : PVal F) : Py (List Str) := do (← v.items).mapM fun s => do return (← s.text).toList

/-- `self.dtype`: the class found by `convert_type` -/
def dtype : PVal F → Py DType
  | .cls (.plain n) =>
    if n = "float" then .ok .float else if n = "int" then .ok .int
    else if n = "bool" then .ok .bool else .error .typeError
  | _ => .error .typeError

/-- `self.norm` (_data.py:55-73): every other string is refused when used -/
def norm (v : PVal F) : Norm :=
  if v.eqStr "l1" then .l1 else if v.eqStr "l2" then .l2 else if v.eqStr "max" then .max else .bad

/-- a norm or None (text.py:440, 493: `if self.norm`) -/
def norm? (v : PVal F) : Option Norm := if v.isNone then Option.none else some v.norm

/-- `self.vocabulary_` -/
def vocabulary : PVal F → Py (Dict Str Int)
  | .dict ks vs => do
    return ((← ks.mapM fun k => do return (← k.text).toList).zip (← vs.mapM int'))
  | _ => .error .typeError

/-- `self.stop_words` (text.py:100-110) -/
def stopWords (v : PVal F) : Py StopWords :=
  match v with
  | .none => .ok .none
  | .str s => .ok (.str s)
  | .npStr s => .ok (.str s)
  | .list _ => do return .list (← v.texts)
  | _ => .error .typeError

/-- `self.strip_accents` (text.py:224-231) -/
def stripAccents (v : PVal F) : StripAccents :=
  if v.isNone then .none else if v.eqStr "ascii" then .ascii
  else if v.eqStr "unicode" then .unicode else .bad

/-- `self.analyzer` (text.py:291-322) -/
def analyzer (v : PVal F) : AnalyzerKind :=
  if v.eqStr "word" then .word else if v.eqStr "char" then .char
  else if v.eqStr "char_wb" then .charWb else .bad

/-- `min_n, max_n = self.ngram_range` (text.py:144, 172, 195) -/
def ngrams : PVal F → Py (Nat × Nat)
  | .tuple [a, b] => do return (← a.nat, ← b.nat)
  | .list [a, b] => do return (← a.nat, ← b.nat)
  | _ => .error .valueError
end PVal

/-- linear_model/_base.py:14-28, _logistic.py:24-27, _stochastic_gradient.py:24 -/
def readLinear (o : PVal F) : Py (Linear F (PVal F)) := do
  return { coef := ← (← o.attr "coef_").mat
           classes := ← (← o.attr "classes_").items
           intercept := ← (o.attr? "intercept_").mapM PVal.nums
           multiClass := (o.attr? "multi_class").bind PVal.text?
           solver := (o.attr? "solver").bind PVal.text?
           loss := (o.attr? "loss").bind PVal.text? }

/-- tree/_classes.py:57-118 -/
def readTree (o : PVal F) : Py (Tree F (PVal F)) := do
  return { childrenLeft := ← (← o.attr "children_left_").ints
           childrenRight := ← (← o.attr "children_right_").ints
           feature := ← (← o.attr "feature_").ints
           threshold := ← (← o.attr "threshold_").nums
           value := ← (← o.attr "value_").mat
           classes := ← (← o.attr "classes_").items }

/-- naive_bayes.py:65-85 -/
def readGaussianNB (o : PVal F) : Py (GaussianNB F (PVal F)) := do
  return { classPrior := ← (← o.attr "class_prior_").nums
           classes := ← (← o.attr "classes_").items
           sigma := ← (← o.attr "sigma_").mat
           theta := ← (← o.attr "theta_").mat }

/-- naive_bayes.py:103-113, 131-136 -/
def readDiscreteNB (o : PVal F) : Py (DiscreteNB F (PVal F)) := do
  return { classLogPrior := ← (← o.attr "class_log_prior_").nums
           classes := ← (← o.attr "classes_").items
           featureLogProb := ← (← o.attr "feature_log_prob_").mat }

/-- dummy.py:33-40 -/
def readDummy (o : PVal F) : Py (Dummy F) := do return ⟨← (← o.attr "class_prior_").nums⟩

/-- tree/_classes.py:57-72, 112-118: a tree made of a booster has no `classes_` -/
def readXgbTree (o : PVal F) : Py (Tree F (PVal F)) := do
  return { childrenLeft := ← (← o.attr "children_left_").ints
           childrenRight := ← (← o.attr "children_right_").ints
           feature := ← (← o.attr "feature_").ints
           threshold := ← (← o.attr "threshold_").nums
           value := ← (← o.attr "value_").mat
           classes := [] }

/-- xgboost/_classes.py:73-75, 84: the trees of a booster, one per round or one per class and round -/
def readXgbTrees (nClasses : Nat) (es : List (PVal F)) : Py (XgbTrees F (PVal F)) :=
  if nClasses == 2 then do return .binary (← es.mapM readXgbTree)
  else do return .multi (← es.mapM fun r => do (← r.items).mapM readXgbTree)

/-- xgboost/_classes.py:70-109 -/
def readXgb (o : PVal F) : Py (Xgb F (PVal F)) := do
  let ob ← xgbCheck (← (← o.attr "objective").text) (← (← o.attr "booster").text)
  let k ← (← o.attr "n_classes_").nat
  return { objective := ob
           classes := ← (← o.attr "classes_").items
           nClasses := k
           nEstimators := ← (← o.attr "n_estimators").nat
           trees := ← readXgbTrees k (← (← o.attr "estimators_").items) }

/-- impute/_base.py:39-74 -/
def readIndicator (o : PVal F) : Py (MissingIndicator F) := do
  return { missingOnly := (← o.attr "features").eqStr "missing-only"
           features := ← (← o.attr "features_").nats
           nFeatures := ← (← o.attr "_n_features").nat
           missing := ← (← o.attr "missing_values").num
           errorOnNew := ← (← o.attr "error_on_new").truth }

/-- impute/_base.py:118-167 -/
def readImputer (o : PVal F) : Py (SimpleImputer F) := do
  return { statistics := ← (← o.attr "statistics_").nums
           constant := (← o.attr "strategy").eqStr "constant"
           addIndicator := ← (← o.attr "add_indicator").truth
           missing := ← (← o.attr "missing_values").num
           indicator := ← (o.attr? "indicator_").mapM readIndicator }

/-- preprocessing/_data.py:132-152 -/
def readStandard (o : PVal F) : Py (StandardScaler F) := do
  return { withMean := ← (← o.attr "with_mean").truth
           withStd := ← (← o.attr "with_std").truth
           scale := ← (← o.attr "scale_").nums?
           mean := ← (← o.attr "mean_").nums? }

/-- preprocessing/_data.py:176-187 -/
def readMinMax (o : PVal F) : Py (MinMaxScaler F) := do
  return { scale := ← (← o.attr "scale_").nums?, min := ← (← o.attr "min_").nums? }

/-- preprocessing/_data.py:211-219 -/
def readMaxAbs (o : PVal F) : Py (MaxAbsScaler F) := do
  return { scale := ← (← o.attr "scale_").nums?, maxAbs := ← (← o.attr "max_abs_").nums? }

/-- text.py:421-443 -/
def readTfidf (o : PVal F) : Py (Tfidf F) := do
  return { norm := (← o.attr "norm").norm?
           useIdf := ← (← o.attr "use_idf").truth
           sublinearTf := ← (← o.attr "sublinear_tf").truth
           idf := ← (← o.attr "idf_").nums
           expectedNFeatures := ← (← o.attr "expected_n_features_").nat }

/-- text.py:137-322: the options of a vectorizer -/
def readOpts (o : PVal F) : Py VectorizerOpts := do
  let (lo, hi) ← (← o.attr "ngram_range").ngrams
  return { analyzer := (← o.attr "analyzer").analyzer, minN := lo, maxN := hi
           stopWords := ← (← o.attr "stop_words").stopWords
           stripAccents := (← o.attr "strip_accents").stripAccents
           lowercase := ← (← o.attr "lowercase").truth }

/-- text.py:351-381 -/
def readCount (o : PVal F) : Py CountVectorizer := do
  return { opts := ← readOpts o
           vocabulary := ← (← o.attr "vocabulary_").vocabulary
           binary := ← (← o.attr "binary").truth
           dtype := ← (← o.attr "dtype").dtype }

/-- text.py:474-497 -/
def readHashing (o : PVal F) : Py HashingVectorizer := do
  return { opts := ← readOpts o
           nFeatures := ← (← o.attr "n_features").int'
           binary := ← (← o.attr "binary").truth
           norm := (← o.attr "norm").norm?
           alternateSign := ← (← o.attr "alternate_sign").truth
           dtype := ← (← o.attr "dtype").dtype }

/-- text.py:235-244: the pattern that `build_tokenizer` compiles -/
def readPattern (o : PVal F) : Py String := do (← o.attr "token_pattern").text

/-- feature_extraction/_dict_vectorizer.py:27-46 -/
def readDictVec (o : PVal F) : Py DictVectorizer := do
  return { vocabulary := ← (← o.attr "vocabulary_").vocabulary
           sparse := ← (← o.attr "sparse").truth
           dtype := ← (← o.attr "dtype").dtype
           separator := (← (← o.attr "separator").text).toList }

/-- preprocessing/_encoders.py:35-144, for categories that are strings -/
def readEncoder (o : PVal F) : Py (Encoder Str) := do
  return { categories := ← (← (← o.attr "categories_").items).mapM PVal.texts
           dtype := ← (← o.attr "dtype").dtype
           sparse := ← ((o.attr? "sparse").getD (.bool true)).truth
           handleUnknownError := ((o.attr? "handle_unknown").getD (.str "error")).eqStr "error" }

/-- The readers by class name (the classes of map.py:12-40 that are not compound). -/
def readSingle (name : List Char) (o : PVal F) : Py (Single F) :=
  let n := String.ofList name
  if n = "LogisticRegressionPure" then do return .linear .logistic (← readLinear o)
  else if n = "SGDClassifierPure" ∨ n = "PerceptronPure" ∨ n = "PassiveAggressiveClassifierPure" then do
    return .linear .sgd (← readLinear o)
  else if n = "RidgeClassifierPure" ∨ n = "LinearSVCPure" then do return .linear .plain (← readLinear o)
  else if n = "DecisionTreeClassifierPure" ∨ n = "ExtraTreeClassifierPure" then do
    return .treeClassifier (← readTree o)
  else if n = "DecisionTreeRegressorPure" ∨ n = "ExtraTreeRegressorPure" then do
    return .treeRegressor (← readTree o)
  else if n = "GaussianNBPure" then do return .gaussianNB (← readGaussianNB o)
  else if n = "MultinomialNBPure" then do return .multinomialNB (← readDiscreteNB o)
  else if n = "ComplementNBPure" then do return .complementNB (← readDiscreteNB o)
  else if n = "DummyClassifierPure" then do return .dummy (← readDummy o)
  else if n = "XGBClassifierPure" then do return .xgb (← readXgb o)
  else if n = "SimpleImputerPure" then do return .imputer (← readImputer o)
  else if n = "MissingIndicatorPure" then do return .indicator (← readIndicator o)
  else if n = "StandardScalerPure" then do return .standard (← readStandard o)
  else if n = "MinMaxScalerPure" then do return .minMax (← readMinMax o)
  else if n = "MaxAbsScalerPure" then do return .maxAbs (← readMaxAbs o)
  else if n = "NormalizerPure" then do return .normalizer (← o.attr "norm").norm
  else if n = "TfidfTransformerPure" then do return .tfidf (← readTfidf o)
  else if n = "CountVectorizerPure" then do return .count (← readPattern o) (← readCount o)
  else if n = "TfidfVectorizerPure" then do
    return .tfidfVec (← readPattern o) (← readCount o) (← readTfidf (← o.attr "_tfidf"))
  else if n = "HashingVectorizerPure" then do return .hashing (← readPattern o) (← readHashing o)
  else if n = "DictVectorizerPure" then do return .dictVec (← readDictVec o)
  else if n = "OrdinalEncoderPure" then do return .ordinal (← readEncoder o)
  else if n = "OneHotEncoderPure" then do return .oneHot (← readEncoder o)
  else .error .attributeError

/-- an object without methods -/
def noMethods : Methods F := ⟨none, none, none, none⟩

section
variable (lib : String → TextLib) (encode : Str → List Nat)
mutual
/-- The methods of a converted estimator. -/
def PureEst.methods : PureEst (PVal F) (PVal F) F → Methods F
  | .leaf n b => match readSingle n b with
    | .ok s => s.est lib encode
    | .error _ => noMethods
  | .pipeline ss => pipelineEst (methodsSteps ss)
  | .union ss ws => unionEst (methodsSteps ss) ws
  | .ensemble _ fs cs ms => ensembleEst fs cs (methodsAll ms)
  | .boosting cs stages init l hyper =>
    match hyper with
    | [lr, nf] => match lr.num, nf.nat with
      | .ok lr, .ok nf => boostingEst cs (methodsStages stages) init.methods l lr nf
      | _, _ => noMethods
    | _ => noMethods
/-- of the steps of a pipeline or union (pipeline.py:77-80, 164-167) -/
def methodsSteps : List (String × PureEst (PVal F) (PVal F) F) → List (String × Methods F)
  | [] => []
  | s :: ss => methodsStep s :: methodsSteps ss
/-- of one step -/
def methodsStep : String × PureEst (PVal F) (PVal F) F → String × Methods F
  | (n, e) => (n, e.methods)
/-- of the members of an ensemble (_bagging.py:29-32) -/
def methodsAll : List (PureEst (PVal F) (PVal F) F) → List (Methods F)
  | [] => []
  | e :: es => e.methods :: methodsAll es
/-- of the stages of a boosting model (_gb.py:29-35) -/
def methodsStages : List (List (PureEst (PVal F) (PVal F) F)) → List (List (Methods F))
  | [] => []
  | es :: ess => methodsAll es :: methodsStages ess
end
end

mutual
/-- `self.classes_`: an attribute of the single classifiers and of ensembles (_bagging.py:27, _gb.py:31);
a property of pipelines (pipeline.py:144-146), `self.steps[-1][-1].classes_`; unions have none. -/
def PureEst.classes : PureEst (PVal F) (PVal F) F → Py (PVal F)
  | .leaf _ b => b.attr "classes_"
  | .pipeline ss => classesLast ss
  | .union _ _ => .error .attributeError
  | .ensemble _ _ cs _ => .ok (.list cs)
  | .boosting cs _ _ _ _ => .ok (.list cs)
/-- of the last step -/
def classesLast : List (String × PureEst (PVal F) (PVal F) F) → Py (PVal F)
  | [] => .error .indexError
  | [s] => classesStep s
  | _ :: s :: ss => classesLast (s :: ss)
/-- of one step -/
def classesStep : String × PureEst (PVal F) (PVal F) F → Py (PVal F)
  | (_, e) => e.classes
end

end PurePredict
