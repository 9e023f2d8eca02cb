import Verif.Spec.Gauge
import Verif.Lemmas.Tree
/-
Specification: fitted trees that are the same function of the record, and fitted objects with such trees.
-/
namespace PurePredict.Spec
variable {F : Type} [Arith F]

/-- The two trees end at the same numbers for every record that has the first `w` columns. -/
def SameFunction (w : Nat) (d d' : DTree F) : Prop := ∀ x : Nat → Option F, (∀ f < w, ∃ v, x f = some v) → d.eval x = d'.eval x

/-- Every dense record of the request has at least `w` columns. -/
def HasColumns (w : Nat) : Data F → Prop
  | .arr (.list rs) => ∀ r ∈ rs, match r with
    | .list l => w ≤ l.length
    | .dict _ => True
    | .scalar _ => False
  | _ => True

/-- The arrays of two fitted trees: another numbering of the nodes of the same tree (unused nodes may be added or left out), or, on requests with
enough columns, another tree that is the same function. -/
inductive Redraws (P : Data F → Prop) : Tree F (PVal F) → Tree F (PVal F) → Prop
  | same {t} : Redraws P t t
  | numbered {t t' d} : t'.classes = t.classes → t.Encodes 0 d → t'.Encodes 0 d → Redraws P t t'
  | function {t t' d d' w} : t'.classes = t.classes → t.Encodes 0 d → t'.Encodes 0 d' → SameFunction w d d' → (∀ X, P X → HasColumns w X) → Redraws P t t'

/-- Trees and boosters of trees. -/
inductive RedrawsSingle (P : Data F → Prop) : Single F → Single F → Prop
  | classifier {t t'} : Redraws P t t' → RedrawsSingle P (.treeClassifier t) (.treeClassifier t')
  | regressor {t t'} : Redraws P t t' → RedrawsSingle P (.treeRegressor t) (.treeRegressor t')
  | binary {m ts ts'} : m.trees = .binary ts → List.Forall₂ (Redraws P) ts ts' → RedrawsSingle P (.xgb m) (.xgb { m with trees := .binary ts' })
  | multi {m ts ts'} : m.trees = .multi ts → List.Forall₂ (List.Forall₂ (Redraws P)) ts ts' → RedrawsSingle P (.xgb m) (.xgb { m with trees := .multi ts' })

/-- a fitted regression tree redrawn -/
inductive RedrawnTree (P : Data F → Prop) : SkObj (Attrs F) (PVal F) F → SkObj (Attrs F) (PVal F) F → Prop
  | mk {n v a a' t t'} : Learned n a (.treeRegressor t) → Learned n a' (.treeRegressor t') → Redraws P t t' → RedrawnTree P (.leaf n v a) (.leaf n v a')

variable (lib : String → TextLib) (encode : Str → List Nat)

/-- `Redrawn P o o'`: the second object is the first with trees that, on the requests in `P`, are the same functions. -/
inductive Redrawn : (Data F → Prop) → SkObj (Attrs F) (PVal F) F → SkObj (Attrs F) (PVal F) F → Prop
  | same {P o} : Redrawn P o o
  | trans {P a b c} : Redrawn P a b → Redrawn P b c → Redrawn P a c
  | fewer {P Q o o'} : Redrawn P o o' → (∀ X, Q X → P X) → Redrawn Q o o'
  | tree {P c v a a' s s'} : Learned c a s → Learned c a' s' → RedrawsSingle P s s' → Redrawn P (.leaf c v a) (.leaf c v a')
  | stages {P v cs stages stages' init loss args} : List.Forall₂ (List.Forall₂ (RedrawnTree P)) stages stages' →
      Redrawn P (.boosting v cs stages init loss args) (.boosting v cs stages' init loss args)
  | inStart {P v cs stages init init' loss args} : Redrawn P init init' →
      Redrawn P (.boosting v cs stages init loss args) (.boosting v cs stages init' loss args)
  | inEnsemble {P Q k v fs cs ms ms'} : (fs = none → ∀ X, Q (.arr X) → P (.arr X)) →
      (∀ l, fs = some l → ∀ cols ∈ l, ∀ X Y, Q (.arr X) → TakesColumns cols X Y → P (.arr Y)) → ms.length = ms'.length →
      (∀ p ∈ ms.zip ms', Redrawn P p.1 p.2) → Redrawn Q (.ensemble k v fs cs ms) (.ensemble k v fs cs ms')
  | inPipeline {P v steps n o o'} : Redrawn P o o' →
      Redrawn (fun X => ∀ Y, Reaches lib encode steps X Y → P Y) (.pipeline v (steps ++ [(n, o)])) (.pipeline v (steps ++ [(n, o')]))

end PurePredict.Spec
