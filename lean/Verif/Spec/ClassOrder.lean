import Verif.Spec.Shuffle
/-
Fitted classifiers that differ in the order of their classes.  scikit-learn sorts the labels, so that other names for
the same classes (0 for "yes" and 1 for "no", say) lead to the same model with its classes in another order: rows of
coefficients and counts in the leaves change places, and with two classes the scores change their sign.
-/
namespace PurePredict.Spec
variable {α β : Type}

/-- Both raise an exception, or both answer and the answers are in this relation. -/
inductive Alongside (R : α → β → Prop) : Py α → Py β → Prop
  | fail {e e'} : Alongside R (.error e) (.error e')
  | done {a b} : R a b → Alongside R (.ok a) (.ok b)

/-- Both have the method and answer the same requests, with rows whose entries are rearranged; or neither has it. -/
def RowsReordered (w : Nat) (π : List Nat) (p q : Option (Data Ex → Py (List (List Ex)))) : Prop :=
  (∀ t, p = some t → ∃ u, q = some u ∧ ∀ X, Alongside (List.Forall₂ (Rearranged w π)) (t X) (u X)) ∧ (p = none → q = none)

/-- Every record gets the same probabilities, in the other order of the `w` classes. -/
def SameChances (w : Nat) (π : List Nat) (f g : Methods Ex) : Prop :=
  RowsReordered w π f.predictProba g.predictProba ∧ RowsReordered w π f.predictLogProba g.predictLogProba

/-- The same tests with the opposite numbers in the leaves. -/
def OppositeTree {C : Type} (t t' : Tree Ex C) : Prop := t' = { t with value := t.value.map fun v => v.map Arith.neg }

/-- Regression trees with opposite answers. -/
inductive Opposite : SkObj (Attrs Ex) (PVal Ex) Ex → SkObj (Attrs Ex) (PVal Ex) Ex → Prop
  | mk {c v a a' t t'} : Learned c a (.treeRegressor t) → Learned c a' (.treeRegressor t') → OppositeTree t t' →
      Opposite (.leaf c v a) (.leaf c v a')

/-- Single classifiers of `w` classes, the second with the classes arranged as `π`. -/
inductive Reordered (w : Nat) (π : List Nat) : Single Ex → Single Ex → Prop
  | linear {k m coef' cs' b b' d} : 2 ≤ w → m.intercept = some b → (∀ r ∈ m.coef, r.length = d) →
      Rearranged w π m.coef coef' → Rearranged w π b b' → Rearranged w π m.classes cs' →
      Reordered w π (.linear k m) (.linear k { m with coef := coef', intercept := some b', classes := cs' })
  | linear2 {k m c b no yes} : w = 2 → π = [1, 0] → m.coef = [c] → m.intercept = some [b] → m.classes = [no, yes] →
      Reordered w π (.linear k m)
        (.linear k { m with coef := [c.map Arith.neg], intercept := some [Arith.neg b], classes := [yes, no] })
  | tree {t value' cs'} : List.Forall₂ (Rearranged w π) t.value value' → Rearranged w π t.classes cs' →
      Reordered w π (.treeClassifier t) (.treeClassifier { t with value := value', classes := cs' })
  | gaussianNB {m m'} : Rearranged w π m.classPrior m'.classPrior → Rearranged w π m.classes m'.classes →
      Rearranged w π m.theta m'.theta → Rearranged w π m.sigma m'.sigma → Reordered w π (.gaussianNB m) (.gaussianNB m')
  | multinomialNB {m m'} : Rearranged w π m.classLogPrior m'.classLogPrior → Rearranged w π m.classes m'.classes →
      Rearranged w π m.featureLogProb m'.featureLogProb → Reordered w π (.multinomialNB m) (.multinomialNB m')
  | complementNB {m m'} : 2 ≤ w → Rearranged w π m.classLogPrior m'.classLogPrior → Rearranged w π m.classes m'.classes →
      Rearranged w π m.featureLogProb m'.featureLogProb → Reordered w π (.complementNB m) (.complementNB m')
  | dummy {d d'} : Rearranged w π d.classPrior d'.classPrior → Reordered w π (.dummy d) (.dummy d')
  | xgb {m ts ts' cs'} : m.objective = .multiSoftprob → m.nClasses = w → m.trees = .multi ts →
      List.Forall₂ (Rearranged w π) ts ts' → Rearranged w π m.classes cs' →
      Reordered w π (.xgb m) (.xgb { m with trees := .multi ts', classes := cs' })
  | xgb2 {m ts ts' no yes} : w = 2 → π = [1, 0] → m.objective = .binaryLogistic → m.trees = .binary ts →
      List.Forall₂ OppositeTree ts ts' → m.classes = [no, yes] →
      Reordered w π (.xgb m) (.xgb { m with trees := .binary ts', classes := [yes, no] })

/-- The initial estimator of a boosting model for two classes: the prior `1 - p`, `p`; in the other order in the second. -/
inductive Priors : SkObj (Attrs Ex) (PVal Ex) Ex → SkObj (Attrs Ex) (PVal Ex) Ex → Prop
  | mk {c v a a'} {p : ℝ} : Learned c a (.dummy ⟨[.fin (1 - p), .fin p]⟩) → Learned c a' (.dummy ⟨[.fin p, .fin (1 - p)]⟩) →
      Priors (.leaf c v a) (.leaf c v a')

/-- `Reclass w π o o'`: the second object is the first with its `w` classes arranged as `π`. -/
inductive Reclass (w : Nat) (π : List Nat) : SkObj (Attrs Ex) (PVal Ex) Ex → SkObj (Attrs Ex) (PVal Ex) Ex → Prop
  | fit {c v a a' s s'} : Learned c a s → Learned c a' s' → Reordered w π s s' → Reclass w π (.leaf c v a) (.leaf c v a')
  | pipeline {v steps n o o'} : Reclass w π o o' → Reclass w π (.pipeline v (steps ++ [(n, o)])) (.pipeline v (steps ++ [(n, o')]))
  | ensemble {k v fs cs cs' ms ms'} : Rearranged w π cs cs' → ms.length = ms'.length → (∀ p ∈ ms.zip ms', Reclass w π p.1 p.2) →
      Reclass w π (.ensemble k v fs cs ms) (.ensemble k v fs cs' ms')
  | boosting {v cs cs' stages stages' init init' args} : 2 < w → Rearranged w π cs cs' → List.Forall₂ (Rearranged w π) stages stages' →
      Reclass w π init init' → Reclass w π (.boosting v cs stages init "deviance" args) (.boosting v cs' stages' init' "deviance" args)
  | boosting2 {v no yes stages stages' init init' args} : w = 2 → π = [1, 0] →
      List.Forall₂ (fun st st' => ∃ o o', st = [o] ∧ st' = [o'] ∧ Opposite o o') stages stages' → Priors init init' →
      Reclass w π (.boosting v [no, yes] stages init "deviance" args) (.boosting v [yes, no] stages' init' "deviance" args)

/-- No two entries of the row are the largest. -/
def OneLargest (row : List Ex) : Prop :=
  ∀ (i j : Nat) (p q : Ex), row[i]? = some p → row[j]? = some q → (∀ r ∈ row, (p <ₚ r) = false) → (∀ r ∈ row, (q <ₚ r) = false) → i = j

/-- The scores of `decision_function` decide every record: one of several scores is the largest, or the single score is not 0; none is NaN. -/
def Decided : Scores Ex → Prop
  | .flat s => ∀ x ∈ s, x ≠ .nan ∧ x ≠ .fin 0
  | .mat M => ∀ row ∈ M, XR.nan ∉ row ∧ OneLargest row

end PurePredict.Spec
