import Verif.Spec.MemberOrder
import Verif.Lemmas.Tree
/-
Specification: boosted trees without the trees that add nothing, and with the learning rate put into the leaves.
-/
namespace PurePredict.Spec
variable {fp : FP}

/-- A single leaf with the number zero. -/
def Silent (t : Tree (XR fp) (PVal (XR fp))) : Prop := ∃ v, t.Encodes 0 (.leaf (.fin 0 :: v))

/-- A fitted regression tree that is a single leaf with the number zero. -/
inductive IsSilent : SkObj (Attrs (XR fp)) (PVal (XR fp)) (XR fp) → Prop
  | mk {c v a t} : Learned c a (.treeRegressor t) → Silent t → IsSilent (.leaf c v a)

/-- the same tests, with the numbers in all nodes times the learning rate, rounded -/
noncomputable def scaledTree (lr : XR fp) (t : Tree (XR fp) (PVal (XR fp))) : Tree (XR fp) (PVal (XR fp)) :=
  { t with value := t.value.map fun v => v.map fun x => x *ₚ lr }

/-- The second regression tree is the first with the learning rate put into the leaves. -/
inductive WithRate (lr : XR fp) : SkObj (Attrs (XR fp)) (PVal (XR fp)) (XR fp) → SkObj (Attrs (XR fp)) (PVal (XR fp)) (XR fp) → Prop
  | mk {n v a a' t} : Learned n a (.treeRegressor t) → Learned n a' (.treeRegressor (scaledTree lr t)) → WithRate lr (.leaf n v a) (.leaf n v a')

/-- One round less: `r` is the round left out. -/
inductive RoundLess : Xgb (XR fp) (PVal (XR fp)) → Xgb (XR fp) (PVal (XR fp)) → Prop
  | binary {m t pre post} : m.objective = .binaryLogistic → m.trees = .binary (pre ++ t :: post) → Silent t →
      RoundLess m { m with nEstimators := (pre ++ post).length, trees := .binary (pre ++ post) }
  | multi {m r pre post} : m.objective = .multiSoftprob → m.trees = .multi (pre ++ r :: post) → r.length = m.nClasses → (∀ t ∈ r, Silent t) →
      RoundLess m { m with nEstimators := (pre ++ post).length, trees := .multi (pre ++ post) }

/-- `Unladen o o'`: the second object is the first without stages of boosting or rounds of XGBoost whose trees are single leaves with the number
zero, or with the learning rate put into the leaves of the stages; anywhere in a composition. -/
inductive Unladen : SkObj (Attrs (XR fp)) (PVal (XR fp)) (XR fp) → SkObj (Attrs (XR fp)) (PVal (XR fp)) (XR fp) → Prop
  | same {o} : Unladen o o
  | trans {a b c} : Unladen a b → Unladen b c → Unladen a c
  | stage {v cs pre st post init loss} {rate : ℝ} {nf : Int} {n : Nat} : pre ++ post ≠ [] → (∀ s ∈ pre ++ st :: post, s.length = n) →
      (∀ s ∈ pre, ∀ m ∈ s, IsRegression m) → (∀ m ∈ st, IsSilent m) →
      Unladen (.boosting v cs (pre ++ st :: post) init loss [.float (.fin rate), .int nf])
        (.boosting v cs (pre ++ post) init loss [.float (.fin rate), .int nf])
  | rate {v cs stages stages' init loss} {lr : XR fp} {nf : Int} : List.Forall₂ (List.Forall₂ (WithRate lr)) stages stages' →
      Unladen (.boosting v cs stages init loss [.float lr, .int nf]) (.boosting v cs stages' init loss [.float (ofInt 1), .int nf])
  | round {c v a a' m m'} : Learned c a (.xgb m) → Learned c a' (.xgb m') → RoundLess m m' → Unladen (.leaf c v a) (.leaf c v a')
  | inPipeline {v steps n o o'} : Unladen o o' → Unladen (.pipeline v (steps ++ [(n, o)])) (.pipeline v (steps ++ [(n, o')]))
  | inEnsemble {k v fs cs ms ms'} : ms.length = ms'.length → (∀ p ∈ ms.zip ms', Unladen p.1 p.2) →
      Unladen (.ensemble k v fs cs ms) (.ensemble k v fs cs ms')
  | inStart {v cs stages init init' loss args} : Unladen init init' →
      Unladen (.boosting v cs stages init loss args) (.boosting v cs stages init' loss args)

end PurePredict.Spec
