import Verif.Spec.MemberOrder
/-
Specification: fitted models that differ by an offset or factor common to all classes.
-/
namespace PurePredict.Spec

/-- the entries times `k` -/
noncomputable def timesAll (k : ℝ) (l : List Ex) : List Ex := l.map fun x => x *ₚ .fin k
/-- the entries plus `c` -/
noncomputable def plusAll (c : ℝ) (l : List Ex) : List Ex := l.map fun x => x +ₚ .fin c
/-- the entries plus those of a vector -/
noncomputable def plusVec (v : List ℝ) (l : List Ex) : List Ex := List.zipWith (fun x (c : ℝ) => x +ₚ .fin c) l v

/-- no infinity and no NaN in the record -/
def FiniteRow : Row Ex → Prop
  | .list l => ∀ x ∈ l, ∃ r : ℝ, x = .fin r
  | .dict d => ∀ p ∈ d, ∃ r : ℝ, p.2 = .fin r
  | .scalar _ => True

/-- no infinity and no NaN in the request -/
def FiniteRequest : Data Ex → Prop
  | .arr (.list rs) => ∀ x ∈ rs, FiniteRow x
  | .arr (.sparse rs _ _) => ∀ d ∈ rs, FiniteRow (.dict d)
  | _ => True

/-- Both have the method and, on these requests, the same answer or both an exception; or neither has it. -/
def SameOn {F β : Type} (P : Data F → Prop) (p q : Option (Data F → Py β)) : Prop :=
  (∀ t, p = some t → ∃ u, q = some u ∧ ∀ X, P X → Alongside Eq (t X) (u X)) ∧ (p = none → q = none)

/-- All four methods, on these requests. -/
def AgreeFor {F : Type} (P : Data F → Prop) (f g : Methods F) : Prop :=
  SameOn P f.transform g.transform ∧ SameOn P f.predict g.predict ∧ SameOn P f.predictProba g.predictProba ∧
  SameOn P f.predictLogProba g.predictLogProba

/-- A linear classifier that only gives labels: another class than LogisticRegression, and not SGDClassifier with `loss="log"`. -/
def LabelsOnly (kind : LinKind) (m : Linear Ex (PVal Ex)) : Prop :=
  kind = .plain ∨ kind = .sgd ∧ ∃ l, m.loss = some l ∧ 3 < l.length

/-- A logistic regression whose probabilities are the softmax of the scores. -/
def Multinomial (kind : LinKind) (m : Linear Ex (PVal Ex)) : Prop :=
  kind = .logistic ∧ (m.multiClass = some "multinomial" ∨
    m.multiClass = some "auto" ∧ 2 < m.classes.length ∧ ∃ s, m.solver = some s ∧ s ≠ "liblinear")

/-- the same tests, with `c` added to the numbers in all nodes -/
noncomputable def raisedTree (c : ℝ) (t : Tree Ex (PVal Ex)) : Tree Ex (PVal Ex) := { t with value := t.value.map (plusAll c) }

/-- Factors and offsets that cancel whatever the request is. -/
inductive Rescaled : Single Ex → Single Ex → Prop
  | linear {kind m b} {k : ℝ} : LabelsOnly kind m → 0 < k → m.intercept = some b →
      Rescaled (.linear kind m) (.linear kind { m with coef := m.coef.map (timesAll k), intercept := some (timesAll k b) })
  | tree {t value'} : List.Forall₂ (fun v v' => ∃ k : ℝ, 0 < k ∧ v' = timesAll k v) t.value value' →
      Rescaled (.treeClassifier t) (.treeClassifier { t with value := value' })
  | gaussianNB {m} {k : ℝ} : 0 < k → Rescaled (.gaussianNB m) (.gaussianNB { m with classPrior := timesAll k m.classPrior })
  | multinomialNB {m} {c : ℝ} : Rescaled (.multinomialNB m) (.multinomialNB { m with classLogPrior := plusAll c m.classLogPrior })
  | complementNB {m prior'} : m.classes.length ≠ 1 → Rescaled (.complementNB m) (.complementNB { m with classLogPrior := prior' })
  | xgb {m ts ts'} : m.objective = .multiSoftprob → m.trees = .multi ts →
      List.Forall₂ (fun r r' => ∃ c : ℝ, r' = r.map (raisedTree c)) ts ts' → Rescaled (.xgb m) (.xgb { m with trees := .multi ts' })

/-- Offsets that cancel for records of finite numbers: the same vector added to the coefficients of every class. -/
inductive Offset : Single Ex → Single Ex → Prop
  | linear {kind m b} {v : List ℝ} {c : ℝ} : LabelsOnly kind m ∨ Multinomial kind m → 2 ≤ m.coef.length → b.length = m.coef.length →
      (∀ r ∈ m.coef, r.length = v.length) → m.intercept = some b →
      Offset (.linear kind m) (.linear kind { m with coef := m.coef.map (plusVec v), intercept := some (plusAll c b) })
  | multinomialNB {m} {v : List ℝ} : (∀ r ∈ m.featureLogProb, r.length = v.length) →
      Offset (.multinomialNB m) (.multinomialNB { m with featureLogProb := m.featureLogProb.map (plusVec v) })
  | complementNB {m} {v : List ℝ} : (∀ r ∈ m.featureLogProb, r.length = v.length) →
      Offset (.complementNB m) (.complementNB { m with featureLogProb := m.featureLogProb.map (plusVec v) })

/-- A regression tree, and the same with `c` added to its answers. -/
inductive Raised (c : ℝ) : SkObj (Attrs Ex) (PVal Ex) Ex → SkObj (Attrs Ex) (PVal Ex) Ex → Prop
  | mk {n v a a' t} : Learned n a (.treeRegressor t) → Learned n a' (.treeRegressor (raisedTree c t)) → Raised c (.leaf n v a) (.leaf n v a')

/-- `Y` consists of these columns of `X`. -/
def TakesColumns {F : Type} [Arith F] (cols : List Int) (X Y : Arr F) : Prop :=
  ∃ rs rs', X.rows = .ok rs ∧ Y = .ofMat rs' ∧ List.Forall₂ (fun r r' => List.Forall₂ (fun i x => r.getItem i = .ok x) cols r') rs rs'

variable (lib : String → TextLib) (encode : Str → List Nat)

/-- These steps of a pipeline turn the first request into the second. -/
inductive Reaches {F : Type} [Arith F] : List (String × SkObj (Attrs F) (PVal F) F) → Data F → Data F → Prop
  | here {X} : Reaches [] X X
  | step {n o f t steps X Y Z} : Behaves lib encode o f → f.transform = some t → t X = .ok Y → Reaches steps Y Z →
      Reaches ((n, o) :: steps) X Z

/-- `Cancelled P o o'`: the second object is the first with offsets and factors that cancel on the requests in `P`. -/
inductive Cancelled : (Data Ex → Prop) → SkObj (Attrs Ex) (PVal Ex) Ex → SkObj (Attrs Ex) (PVal Ex) Ex → Prop
  | same {P o} : Cancelled P o o
  | trans {P a b c} : Cancelled P a b → Cancelled P b c → Cancelled P a c
  | fewer {P Q o o'} : Cancelled P o o' → (∀ X, Q X → P X) → Cancelled Q o o'
  | rescaled {c v a a' s s'} : Learned c a s → Learned c a' s' → Rescaled s s' → Cancelled (fun _ => True) (.leaf c v a) (.leaf c v a')
  | offset {c v a a' s s'} : Learned c a s → Learned c a' s' → Offset s s' → Cancelled FiniteRequest (.leaf c v a) (.leaf c v a')
  | stages {v cs stages stages' init nf} {rate : ℝ} : 2 < cs.length →
      List.Forall₂ (fun st st' => ∃ c : ℝ, List.Forall₂ (Raised c) st st') stages stages' →
      Cancelled (fun _ => True) (.boosting v cs stages init "deviance" [.float (.fin rate), .int nf])
        (.boosting v cs stages' init "deviance" [.float (.fin rate), .int nf])
  | inPipeline {P v steps n o o'} : Cancelled P o o' →
      Cancelled (fun X => ∀ Y, Reaches lib encode steps X Y → P Y) (.pipeline v (steps ++ [(n, o)])) (.pipeline v (steps ++ [(n, o')]))
  | inEnsemble {P k v fs cs ms ms'} : (∀ cols X Y, P (.arr X) → TakesColumns cols X Y → P (.arr Y)) → ms.length = ms'.length →
      (∀ p ∈ ms.zip ms', Cancelled P p.1 p.2) → Cancelled P (.ensemble k v fs cs ms) (.ensemble k v fs cs ms')
  | inStart {P v cs stages init init' loss args} : Cancelled P init init' →
      Cancelled P (.boosting v cs stages init loss args) (.boosting v cs stages init' loss args)

end PurePredict.Spec
