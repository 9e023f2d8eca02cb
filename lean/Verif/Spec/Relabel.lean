import Verif.Spec.EndToEnd
/-
Fitted objects that differ only in the names of their classes.
-/
namespace PurePredict.Spec
variable {F : Type} [Arith F]

/-- The second object has the methods of the first, with the same answers, except that `predict` answers with renamed
labels; where the first raises an exception, so does the second. -/
def Renames (σ : PVal F → PVal F) (f g : Methods F) : Prop :=
  g.transform = f.transform ∧ g.predictProba = f.predictProba ∧ g.predictLogProba = f.predictLogProba ∧
  (∀ p, f.predict = some p → ∃ p', g.predict = some p' ∧ ∀ X, p' X = (p X).map (List.map σ)) ∧ (f.predict = none → g.predict = none)

/-- Two objects with the same attributes, except that the classes of the second have other names. -/
def OtherNames (σ : PVal F → PVal F) (e e' : Attrs F) : Prop :=
  (∀ n, n ≠ "classes_" → (∀ v, HasAttr e n v → HasAttr e' n v) ∧ (NoAttr e n → NoAttr e' n)) ∧
  ∃ cs, HasLabels e cs ∧ HasLabels e' (cs.map σ)

/-- The single classifiers that answer with labels.  DummyClassifier is missing: it answers with positions. -/
def labelled : List String := ["LogisticRegression", "SGDClassifier", "Perceptron", "PassiveAggressiveClassifier", "RidgeClassifier", "LinearSVC",
  "DecisionTreeClassifier", "ExtraTreeClassifier", "GaussianNB", "MultinomialNB", "ComplementNB", "XGBClassifier"]

/-- Fitted objects that differ in the names of their classes.  The members of an ensemble and the initial estimator of a
boosting model may have been given other names of their own. -/
inductive Relabel : (PVal F → PVal F) → SkObj (Attrs F) (PVal F) F → SkObj (Attrs F) (PVal F) F → Prop
  | same {o} : Relabel id o o
  | single {σ c v e e'} : c ∈ labelled → OtherNames σ e e' → Relabel σ (.leaf c v e) (.leaf c v e')
  | pipeline {σ v steps n o o'} : Relabel σ o o' → Relabel σ (.pipeline v (steps ++ [(n, o)])) (.pipeline v (steps ++ [(n, o')]))
  | ensemble {σ k v fs cs ms ms'} (τ : SkObj (Attrs F) (PVal F) F × SkObj (Attrs F) (PVal F) F → PVal F → PVal F) :
      (∀ c ∈ cs, Plain (σ c)) → ms.length = ms'.length → (∀ p ∈ ms.zip ms', Relabel (τ p) p.1 p.2) →
      Relabel σ (.ensemble k v fs cs ms) (.ensemble k v fs (cs.map σ) ms')
  | boosting {σ τ v cs stages init init' loss args} : (∀ c ∈ cs, Plain (σ c)) → Relabel τ init init' →
      Relabel σ (.boosting v cs stages init loss args) (.boosting v (cs.map σ) stages init' loss args)

end PurePredict.Spec
