import Verif.Spec.Unread
import Verif.Spec.SkTree
/-
Fitted objects that differ in the arrangement of the columns they were fitted on: the second was fitted on some columns
of the table of the first, in another order, possibly repeated.
-/
namespace PurePredict.Spec
variable {fp : FP} {α : Type}

/-- `y` consists of the entries of `x` at these positions; `x` has `w` entries. -/
def Rearranged (w : Nat) (π : List Nat) (x y : List α) : Prop :=
  x.length = w ∧ List.Forall₂ (fun i b => x[i]? = some b) π y

/-- Dense requests, at least one record, each record of the second a rearranged record of the first. -/
inductive Shuffled (w : Nat) (π : List Nat) : Data (XR fp) → Data (XR fp) → Prop
  | mk {M N} : M ≠ [] → List.Forall₂ (Rearranged w π) M N → Shuffled w π (.arr (.ofMat M)) (.arr (.ofMat N))

/-- The order of the summands does not matter.  True of exact arithmetic, with infinities and NaN. -/
def AnyOrder (fp : FP) : Prop := ∀ a b c : XR fp, (a +ₚ b) +ₚ c = (a +ₚ c) +ₚ b

/-- A rearrangement without repetitions or omissions. -/
def Reorders (fp : FP) (w : Nat) (π : List Nat) : Prop := AnyOrder fp ∧ π.Perm (List.range w)

/-! ### Pairs of objects -/

/-- What two objects make of such requests: rows, rearranged in some way; or the same answers. -/
inductive Together
  | columns (w : Nat) (π : List Nat)
  | answers

/-- Both have the method, with the same answers to related requests, or neither has it. -/
def SameMethod {β : Type} (R : Data (XR fp) → Data (XR fp) → Prop) (p q : Option (Data (XR fp) → Py β)) : Prop :=
  (∀ t, p = some t → ∃ u, q = some u ∧ ∀ X Y, R X Y → t X = u Y) ∧ (p = none → q = none)

/-- The second object does with rearranged requests what the first does with the original ones. -/
def Concur (f g : Methods (XR fp)) (w : Nat) (π : List Nat) : Together → Prop
  | .columns w' ρ => ∃ t u, f.transform = some t ∧ g.transform = some u ∧
      ∀ X Y, Shuffled w π X Y → Par (Shuffled w' ρ) (t X) (u Y)
  | .answers => SameMethod (Shuffled w π) f.predict g.predict ∧ SameMethod (Shuffled w π) f.predictProba g.predictProba ∧
      SameMethod (Shuffled w π) f.predictLogProba g.predictLogProba

/-! ### Single estimators -/

/-- A parameter that is used is there in both, and the second is a rearrangement of the first. -/
def Parameter (w : Nat) (π : List Nat) (needed : Bool) (a b : Option (List (XR fp))) : Prop :=
  needed = true → ∃ x y, a = some x ∧ b = some y ∧ Rearranged w π x y

/-- No divisor is zero. -/
def NoZero (needed : Bool) (a : Option (List (XR fp))) : Prop := needed = true → ∀ x, a = some x → .fin 0 ∉ x

/-- Transformers with rearranged parameters. -/
inductive ShuffledStep (w : Nat) (π : List Nat) : Single (XR fp) → Single (XR fp) → Prop
  | standard {s s'} : s'.withMean = s.withMean → s'.withStd = s.withStd → Parameter w π s.withMean s.mean s'.mean →
      Parameter w π s.withStd s.scale s'.scale → NoZero s.withStd s.scale → ShuffledStep w π (.standard s) (.standard s')
  | minMax {s s'} : Parameter w π true s.scale s'.scale → Parameter w π true s.min s'.min → ShuffledStep w π (.minMax s) (.minMax s')
  | maxAbs {s s'} : Parameter w π true s.scale s'.scale → NoZero true s.scale → ShuffledStep w π (.maxAbs s) (.maxAbs s')
  | imputer {s s'} : s.addIndicator = false → s'.addIndicator = false → s'.constant = s.constant → s'.missing = s.missing →
      s.statistics ≠ [] → s'.statistics ≠ [] → (s.constant = true ∨ ∀ x ∈ s.statistics, Arith.isnan x = false) →
      Rearranged w π s.statistics s'.statistics → ShuffledStep w π (.imputer s) (.imputer s')
  | normalizer {n} : n = .l1 ∨ n = .l2 → Reorders fp w π → ShuffledStep w π (.normalizer n) (.normalizer n)

/-- The same tests, on the columns where the values are now. -/
inductive Retested (π : List Nat) : DTree (XR fp) → DTree (XR fp) → Prop
  | leaf {v} : Retested π (.leaf v) (.leaf v)
  | node {f g thr l l' r r'} : π[g]? = some f → Retested π l l' → Retested π r r' → Retested π (.node f thr l r) (.node g thr l' r')

/-- The same for trees as scikit-learn keeps them. -/
inductive Replanted (π : List Nat) : SkTree (XR fp) → SkTree (XR fp) → Prop
  | leaf {v} : Replanted π (.leaf v) (.leaf v)
  | split {v v' f g thr l l' r r'} : π[g]? = some f → Replanted π l l' → Replanted π r r' → Replanted π (.split v f thr l r) (.split v' g thr l' r')

/-- Trees with the same tests, leaves and classes. -/
def SameTree {C : Type} (π : List Nat) (t t' : Tree (XR fp) C) : Prop :=
  t'.classes = t.classes ∧ ∃ dt dt', t.Encodes 0 dt ∧ t'.Encodes 0 dt' ∧ Retested π dt dt'

/-- The trees of two boosters, pairwise. -/
inductive SameTrees {C : Type} (π : List Nat) : XgbTrees (XR fp) C → XgbTrees (XR fp) C → Prop
  | binary {ts ts'} : List.Forall₂ (SameTree π) ts ts' → SameTrees π (.binary ts) (.binary ts')
  | multi {ts ts'} : List.Forall₂ (List.Forall₂ (SameTree π)) ts ts' → SameTrees π (.multi ts) (.multi ts')

/-- Predictors with rearranged parameters.  Sums need a reordering; trees take any rearrangement. -/
inductive ShuffledFit (w : Nat) (π : List Nat) : Single (XR fp) → Single (XR fp) → Prop
  | linear {k m coef'} : Reorders fp w π → List.Forall₂ (Rearranged w π) m.coef coef' →
      ShuffledFit w π (.linear k m) (.linear k { m with coef := coef' })
  | treeClassifier {t t'} : SameTree π t t' → ShuffledFit w π (.treeClassifier t) (.treeClassifier t')
  | treeRegressor {t t'} : SameTree π t t' → ShuffledFit w π (.treeRegressor t) (.treeRegressor t')
  | xgb {m ts'} : SameTrees π m.trees ts' → ShuffledFit w π (.xgb m) (.xgb { m with trees := ts' })
  | dummy {d} : ShuffledFit w π (.dummy d) (.dummy d)
  | multinomialNB {m fl'} : Reorders fp w π → List.Forall₂ (Rearranged w π) m.featureLogProb fl' →
      ShuffledFit w π (.multinomialNB m) (.multinomialNB { m with featureLogProb := fl' })
  | complementNB {m fl'} : Reorders fp w π → List.Forall₂ (Rearranged w π) m.featureLogProb fl' →
      ShuffledFit w π (.complementNB m) (.complementNB { m with featureLogProb := fl' })
  | gaussianNB {m theta' sigma'} : Reorders fp w π → (∀ s ∈ m.sigma, .fin 0 ∉ s) → List.Forall₂ (Rearranged w π) m.theta theta' →
      List.Forall₂ (Rearranged w π) m.sigma sigma' →
      ShuffledFit w π (.gaussianNB m) (.gaussianNB { m with theta := theta', sigma := sigma' })

/-! ### Compound objects -/

/-- The arrangement of columns put side by side. -/
def stack : List (Nat × List Nat) → Nat × List Nat
  | [] => (0, [])
  | (w, π) :: r => (w + (stack r).1, π ++ (stack r).2.map (· + w))

/-- The same column, before and after. -/
def SameColumn (π : List Nat) (i j : Int) : Prop := ∃ a b : Nat, i = a ∧ j = b ∧ π[b]? = some a

/-- A named part of a union, before and after, and how its columns are rearranged. -/
structure Part (fp : FP) where
  name : String
  before : SkObj (Attrs (XR fp)) (PVal (XR fp)) (XR fp)
  after : SkObj (Attrs (XR fp)) (PVal (XR fp)) (XR fp)
  width : Nat
  order : List Nat

/-- `Rearrange w π o o' k`: the second object is the first one for requests of `w` columns arranged as `π`. -/
inductive Rearrange : Nat → List Nat → SkObj (Attrs (XR fp)) (PVal (XR fp)) (XR fp) →
    SkObj (Attrs (XR fp)) (PVal (XR fp)) (XR fp) → Together → Prop
  | step {w π c v a a' s s'} : Learned c a s → Learned c a' s' → ShuffledStep w π s s' →
      Rearrange w π (.leaf c v a) (.leaf c v a') (.columns w π)
  | fit {w π c v a a' s s'} : Learned c a s → Learned c a' s' → ShuffledFit w π s s' →
      Rearrange w π (.leaf c v a) (.leaf c v a') .answers
  | lastStep {w π v n o o' k} : Rearrange w π o o' k → Rearrange w π (.pipeline v [(n, o)]) (.pipeline v [(n, o')]) k
  | firstStep {w π w' ρ v n o o' s ss s' ss' k} : Rearrange w π o o' (.columns w' ρ) →
      Rearrange w' ρ (.pipeline v (s :: ss)) (.pipeline v (s' :: ss')) k →
      Rearrange w π (.pipeline v ((n, o) :: s :: ss)) (.pipeline v ((n, o') :: s' :: ss')) k
  | union {w π v wts} {parts : List (Part fp)} : parts ≠ [] →
      (∀ p ∈ parts, Rearrange w π p.before p.after (.columns p.width p.order)) →
      Rearrange w π (.union v (parts.map fun p => (p.name, p.before)) wts) (.union v (parts.map fun p => (p.name, p.after)) wts)
        (.columns (stack (parts.map fun p => (p.width, p.order))).1 (stack (parts.map fun p => (p.width, p.order))).2)
  | ensemble {w π kd v cs ms ms'} : ms.length = ms'.length → (∀ p ∈ ms.zip ms', Rearrange w π p.1 p.2 .answers) →
      Rearrange w π (.ensemble kd v none cs ms) (.ensemble kd v none cs ms') .answers
  | subspaces {w π kd v cs ms fs fs'} : List.Forall₂ (List.Forall₂ (SameColumn π)) fs fs' →
      Rearrange w π (.ensemble kd v (some fs) cs ms) (.ensemble kd v (some fs') cs ms) .answers
  | boosting {π v cs stages stages' init init' loss lr} {nf : Nat} : stages.length = stages'.length →
      (∀ p ∈ stages.zip stages', p.1.length = p.2.length) → (∀ p ∈ stages.zip stages', ∀ q ∈ p.1.zip p.2, Rearrange nf π q.1 q.2 .answers) →
      Rearrange nf π init init' .answers →
      Rearrange nf π (.boosting v cs stages init loss [.float lr, .int nf]) (.boosting v cs stages' init' loss [.float lr, .int π.length]) .answers

end PurePredict.Spec
