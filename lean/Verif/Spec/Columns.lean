import Verif.Spec.Methods
/-
For how many classes a classifier was fitted.
-/
namespace PurePredict.Spec
variable {F : Type} [Arith F]

/-- The learned parameters are those of a classifier for `k` classes: linear models have one row of
coefficients per class, or a single one for two classes, and as many intercepts; trees have `k` values in
every node; naive Bayes models and the prior strategy have `k` classes (complement naive Bayes: `k` rows of
weights); boosters with softprob have `n_classes_` classes, with the logistic objective two. -/
inductive ForClasses : Single F → Nat → Prop
  | binary {kind m b} : m.coef.length = 1 → m.intercept = some b → b.length = 1 → ForClasses (.linear kind m) 2
  | multi {kind m b k} : m.coef.length = k → k ≠ 1 → m.intercept = some b → b.length = k → ForClasses (.linear kind m) k
  | tree {t k} : (∀ v ∈ t.value, v.length = k) → ForClasses (.treeClassifier t) k
  | gaussian {m k} : m.classes.length = k → ForClasses (.gaussianNB m) k
  | multinomial {m k} : m.classes.length = k → ForClasses (.multinomialNB m) k
  | complement {m k} : m.classes.length = k → m.featureLogProb.length = k → ForClasses (.complementNB m) k
  | softprob {m} : m.objective = .multiSoftprob → ForClasses (.xgb m) m.nClasses
  | logistic {m} : m.objective = .binaryLogistic → ForClasses (.xgb m) 2
  | dummy {d k} : d.classPrior.length = k → ForClasses (.dummy d) k

/-- The fitted object classifies into `k` classes: its last estimator does, all members of an ensemble do
(there is at least one); boosting has as many as it has labels. -/
inductive Classifies : SkObj (Attrs F) (PVal F) F → Nat → Prop
  | leaf {c v e s k} : Learned c e s → ForClasses s k → Classifies (.leaf c v e) k
  | pipeline {v steps n o k} : steps.getLast? = some (n, o) → Classifies o k → Classifies (.pipeline v steps) k
  | ensemble {kd v fs cs ms k} : ms ≠ [] → (∀ m ∈ ms, Classifies m k) → Classifies (.ensemble kd v fs cs ms) k
  | boosting {v cs stages init loss hyper} : Classifies (.boosting v cs stages init loss hyper) cs.length

end PurePredict.Spec
