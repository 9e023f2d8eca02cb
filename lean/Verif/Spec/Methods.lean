import Verif.Spec.EndToEnd
/-
Which methods a fitted object should have after conversion, and which labels, from the classes of its
parts.
-/
namespace PurePredict.Spec
variable {F : Type} [Arith F]

inductive Method | transform | predict | proba | logProba
  deriving DecidableEq

/-- the object `f` has the method -/
def HasMethod (f : Methods F) : Method → Prop
  | .transform => f.transform.isSome
  | .predict => f.predict.isSome
  | .proba => f.predictProba.isSome
  | .logProba => f.predictLogProba.isSome

/-- classes that transform -/
def transforming : List String := ["StandardScaler", "MinMaxScaler", "MaxAbsScaler", "Normalizer", "SimpleImputer",
  "MissingIndicator", "OrdinalEncoder", "OneHotEncoder", "DictVectorizer", "CountVectorizer", "TfidfTransformer",
  "TfidfVectorizer", "HashingVectorizer"]
/-- classes that predict labels (or numbers) -/
def predicting : List String := ["LogisticRegression", "SGDClassifier", "Perceptron", "PassiveAggressiveClassifier",
  "RidgeClassifier", "LinearSVC", "DecisionTreeClassifier", "ExtraTreeClassifier", "DecisionTreeRegressor",
  "ExtraTreeRegressor", "GaussianNB", "MultinomialNB", "ComplementNB", "DummyClassifier", "XGBClassifier"]
/-- classes that always give probabilities and their logarithms -/
def probabilistic : List String := ["LogisticRegression", "DecisionTreeClassifier", "ExtraTreeClassifier",
  "GaussianNB", "MultinomialNB", "ComplementNB", "DummyClassifier"]
/-- classes whose probabilities depend on the loss -/
def byLoss : List String := ["SGDClassifier", "Perceptron", "PassiveAggressiveClassifier"]
/-- losses with probabilities: the code asks for a substring of "log" (C06) -/
def logLosses : List String := ["", "l", "o", "g", "lo", "og", "log"]

/-- The fitted object should have the method. -/
inductive Offers : SkObj (Attrs F) (PVal F) F → Method → Prop
  | transform {c v e} : c ∈ transforming → Offers (.leaf c v e) .transform
  | predict {c v e} : c ∈ predicting → Offers (.leaf c v e) .predict
  | proba {c v e m} : c ∈ probabilistic → m = .proba ∨ m = .logProba → Offers (.leaf c v e) m
  | booster {c v e} : c = "XGBClassifier" → Offers (.leaf c v e) .proba
  | loss {c v e l m} : c ∈ byLoss → HasAttr e "loss" (.str l) → l ∈ logLosses → m = .proba ∨ m = .logProba →
      Offers (.leaf c v e) m
  | pipeline {v steps n o m} : steps.getLast? = some (n, o) → Offers o m → Offers (.pipeline v steps) m
  | union {v steps ws} : Offers (.union v steps ws) .transform
  | ensemble {k v fs cs ms m} : m ≠ .transform → Offers (.ensemble k v fs cs ms) m
  | boosting {v cs stages init loss hyper m} : m ≠ .transform → Offers (.boosting v cs stages init loss hyper) m

/-- The labels of a fitted classifier: its own, or those of the last step. -/
inductive LabelsOf : SkObj (Attrs F) (PVal F) F → List (PVal F) → Prop
  | leaf {c v e cs} : c ∈ predicting → HasLabels e cs → c ≠ "DummyClassifier" → LabelsOf (.leaf c v e) cs
  | pipeline {v steps n o cs} : steps.getLast? = some (n, o) → LabelsOf o cs → LabelsOf (.pipeline v steps) cs
  | ensemble {k v fs cs ms} : LabelsOf (.ensemble k v fs cs ms) cs
  | boosting {v cs stages init loss hyper} : LabelsOf (.boosting v cs stages init loss hyper) cs

/-- The last estimator is a naive Bayes classifier. -/
inductive EndsInBayes : SkObj (Attrs F) (PVal F) F → Prop
  | leaf {c v e} : c ∈ ["GaussianNB", "MultinomialNB", "ComplementNB"] → EndsInBayes (.leaf c v e)
  | pipeline {v steps n o} : steps.getLast? = some (n, o) → EndsInBayes o → EndsInBayes (.pipeline v steps)

/-- The last estimator is an XGBClassifier. -/
inductive EndsInBooster : SkObj (Attrs F) (PVal F) F → Prop
  | leaf {c v e} : c = "XGBClassifier" → EndsInBooster (.leaf c v e)
  | pipeline {v steps n o} : steps.getLast? = some (n, o) → EndsInBooster o → EndsInBooster (.pipeline v steps)

end PurePredict.Spec
