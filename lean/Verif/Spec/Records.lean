import Verif.Spec.Methods
/-
How many records a request has, and which labels a classifier may answer with.
-/
namespace PurePredict.Spec
variable {F : Type} [Arith F]

/-- The request holds `n` records.  (What `check_array` makes of an empty list, and other objects, hold no
number of records.) -/
inductive Records : Data F → Nat → Prop
  | dense (rs : List (Row F)) : Records (.arr (.list rs)) rs.length
  | sparse (rs : List (Dict Int F)) (size dt) : Records (.arr (.sparse rs size dt)) rs.length
  | docs (ds : List Str) : Records (.docs ds) ds.length
  | mapping (x) : Records (.records (.one x)) 1
  | mappings (xs) : Records (.records (.many xs)) xs.length
  | table (rs : List (Row Str)) : Records (.table (.list rs)) rs.length
  | sparseTable (rs : List (Dict Int Str)) (size dt) : Records (.table (.sparse rs size dt)) rs.length

/-- classes of regressors: their answers are numbers -/
def regressing : List String := ["DecisionTreeRegressor", "ExtraTreeRegressor"]

/-- The labels a fitted classifier answers with: its own, or those of the last step. -/
inductive AnswersWith : SkObj (Attrs F) (PVal F) F → List (PVal F) → Prop
  | leaf {c v e cs} : c ∈ predicting → c ∉ regressing → c ≠ "DummyClassifier" → HasLabels e cs →
      AnswersWith (.leaf c v e) cs
  | pipeline {v steps n o cs} : steps.getLast? = some (n, o) → AnswersWith o cs → AnswersWith (.pipeline v steps) cs
  | ensemble {k v fs cs ms} : AnswersWith (.ensemble k v fs cs ms) cs
  | boosting {v cs stages init loss hyper} : AnswersWith (.boosting v cs stages init loss hyper) cs

/-- Every Gaussian naive Bayes classifier in the object was fitted on at least one class. -/
inductive SomeClasses : SkObj (Attrs F) (PVal F) F → Prop
  | leaf {c v e} : (c = "GaussianNB" → ¬ HasLabels e []) → SomeClasses (.leaf c v e)
  | pipeline {v steps} : (∀ s ∈ steps, SomeClasses s.2) → SomeClasses (.pipeline v steps)
  | union {v steps ws} : (∀ s ∈ steps, SomeClasses s.2) → SomeClasses (.union v steps ws)
  | ensemble {k v fs cs ms} : (∀ m ∈ ms, SomeClasses m) → SomeClasses (.ensemble k v fs cs ms)
  | boosting {v cs stages init loss hyper} : (∀ st ∈ stages, ∀ m ∈ st, SomeClasses m) → SomeClasses init →
      SomeClasses (.boosting v cs stages init loss hyper)

end PurePredict.Spec
