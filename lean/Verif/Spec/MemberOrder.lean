import Verif.Spec.ClassOrder
import Verif.Spec.Ensemble
import Verif.Py.Binary64
/-
Specification: the same ensemble with its members, stages or rounds listed in another order.
-/
namespace PurePredict.Spec
variable {fp : FP}

/-- Both have the method and, on every request, the same answer or both an exception; or neither has it. -/
def SameResults {β : Type} (p q : Option (Data (XR fp) → Py β)) : Prop :=
  (∀ t, p = some t → ∃ u, q = some u ∧ ∀ X, Alongside Eq (t X) (u X)) ∧ (p = none → q = none)

/-- All four methods. -/
def AllAgree (f g : Methods (XR fp)) : Prop :=
  SameResults f.transform g.transform ∧ SameResults f.predict g.predict ∧ SameResults f.predictProba g.predictProba ∧
  SameResults f.predictLogProba g.predictLogProba

/-- The same boosted trees in another order; one tree, or one tree per class, in every round. -/
inductive RoundsMoved : Xgb (XR fp) (PVal (XR fp)) → Xgb (XR fp) (PVal (XR fp)) → Prop
  | binary {m ts ts'} : m.trees = .binary ts → ts.Perm ts' → RoundsMoved m { m with trees := .binary ts' }
  | multi {m ts ts'} : m.trees = .multi ts → ts.Perm ts' → RoundsMoved m { m with trees := .multi ts' }

/-- A fitted regression tree. -/
inductive IsRegression : SkObj (Attrs (XR fp)) (PVal (XR fp)) (XR fp) → Prop
  | mk {c v a t} : Learned c a (.treeRegressor t) → IsRegression (.leaf c v a)

/-- `Resorted o o'`: the second object is the first with members of ensembles (with the columns they read), stages of boosting or
rounds of XGBoost in another order; anywhere in a composition. -/
inductive Resorted : SkObj (Attrs (XR fp)) (PVal (XR fp)) (XR fp) → SkObj (Attrs (XR fp)) (PVal (XR fp)) (XR fp) → Prop
  | same {o} : Resorted o o
  | trans {a b c} : Resorted a b → Resorted b c → Resorted a c
  | members {k v cs ms ms'} : ms.Perm ms' → Resorted (.ensemble k v none cs ms) (.ensemble k v none cs ms')
  | subspaces {k v cs} {parts parts' : List (SkObj (Attrs (XR fp)) (PVal (XR fp)) (XR fp) × List Int)} : parts.Perm parts' →
      Resorted (.ensemble k v (some (parts.map Prod.snd)) cs (parts.map Prod.fst))
        (.ensemble k v (some (parts'.map Prod.snd)) cs (parts'.map Prod.fst))
  | stages {v cs stages stages' init loss args} {n : Nat} : stages.Perm stages' → (∀ st ∈ stages, st.length = n) →
      (∀ st ∈ stages, ∀ m ∈ st, IsRegression m) →
      Resorted (.boosting v cs stages init loss args) (.boosting v cs stages' init loss args)
  | rounds {c v a a' m m'} : Learned c a (.xgb m) → Learned c a' (.xgb m') → RoundsMoved m m' → Resorted (.leaf c v a) (.leaf c v a')
  | inPipeline {v steps n o o'} : Resorted o o' → Resorted (.pipeline v (steps ++ [(n, o)])) (.pipeline v (steps ++ [(n, o')]))
  | inEnsemble {k v fs cs ms ms'} : ms.length = ms'.length → (∀ p ∈ ms.zip ms', Resorted p.1 p.2) →
      Resorted (.ensemble k v fs cs ms) (.ensemble k v fs cs ms')
  | inStart {v cs stages init init' loss args} : Resorted init init' →
      Resorted (.boosting v cs stages init loss args) (.boosting v cs stages init' loss args)

/-- The object answers this request with the `n` × `k` probabilities `P`: doubles between 0 and 1. -/
def Assigns (lib : String → TextLib) (encode : Str → List Nat) (X : Arr (XR FP.binary64)) (n k : Nat)
    (o : SkObj (Attrs (XR FP.binary64)) (PVal (XR FP.binary64)) (XR FP.binary64)) (P : Nat → Nat → ℝ) : Prop :=
  (∃ f q, Behaves lib encode o f ∧ f.predictProba = some q ∧ q (.arr X) = .ok (mat n k fun i c => .fin (P i c))) ∧
  ∀ i < n, ∀ c < k, 0 ≤ P i c ∧ P i c ≤ 1 ∧ FP.binary64.rnd (P i c) = (P i c : EReal)

end PurePredict.Spec
