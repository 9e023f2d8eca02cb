import Verif.Py.Core
/-
Independent description of the package layout: which estimator classes have a counterpart and in
which module (the `__all__` lists of the package's `__init__.py` files and modules).
-/
namespace PurePredict.Spec

/-- Module, and the scikit-learn / xgboost classes `C` for which it exports `CPure`. -/
def exports : List (String × List String) := [
  ("pure_sklearn.linear_model",
    ["LogisticRegression", "RidgeClassifier", "SGDClassifier", "Perceptron", "PassiveAggressiveClassifier"]),
  ("pure_sklearn.svm", ["LinearSVC"]),
  ("pure_sklearn.tree",
    ["DecisionTreeClassifier", "ExtraTreeClassifier", "DecisionTreeRegressor", "ExtraTreeRegressor"]),
  ("pure_sklearn.ensemble",
    ["RandomForestClassifier", "BaggingClassifier", "ExtraTreesClassifier", "GradientBoostingClassifier"]),
  ("pure_sklearn.xgboost", ["XGBClassifier"]),
  ("pure_sklearn.naive_bayes", ["GaussianNB", "MultinomialNB", "ComplementNB"]),
  ("pure_sklearn.impute", ["SimpleImputer", "MissingIndicator"]),
  ("pure_sklearn.dummy", ["DummyClassifier"]),
  ("pure_sklearn.pipeline", ["FeatureUnion", "Pipeline"]),
  ("pure_sklearn.preprocessing",
    ["OneHotEncoder", "OrdinalEncoder", "StandardScaler", "MinMaxScaler", "MaxAbsScaler", "Normalizer"]),
  ("pure_sklearn.feature_extraction", ["DictVectorizer"]),
  ("pure_sklearn.feature_extraction.text",
    ["CountVectorizer", "HashingVectorizer", "TfidfTransformer", "TfidfVectorizer"])]

/-- Class `c` has its counterpart in module `m`. -/
def Counterpart (m c : String) : Prop := ∃ cs, (m, cs) ∈ exports ∧ c ∈ cs

end PurePredict.Spec
