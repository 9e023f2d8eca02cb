import Verif.Model.Construct
/-
The table of trees of an XGBoost booster as a list of rows.
-/
namespace PurePredict.Spec
variable {F : Type}

/-- A row of `trees_to_dataframe()`: the number of the tree and the five cells that are read. -/
structure NodeRow (F : Type) where
  tree : Int
  split : PVal F
  gain : PVal F
  yes : PVal F
  no : PVal F
  feature : PVal F

/-- A booster with these rows. -/
def boosterOf (rows : List (NodeRow F)) : PVal F :=
  .obj "Booster" none ["trees_to_dataframe"] [.obj "DataFrame" none ["Tree", "Split", "Gain", "Yes", "No", "Feature"]
    [.list (rows.map fun r => .int r.tree), .list (rows.map NodeRow.split), .list (rows.map NodeRow.gain), .list (rows.map NodeRow.yes), .list (rows.map NodeRow.no),
     .list (rows.map NodeRow.feature)]]

/-- The rows of one tree, in the order of the table. -/
def nodesOf (i : Nat) (rows : List (NodeRow F)) : List (NodeRow F) := rows.filter fun r => r.tree == i

/-- The number of trees that count: one a round for two classes, otherwise one for each class and round. -/
def treeCount (k n : Nat) : Nat := if k = 2 then n else n * k

/-- Two XGBClassifiers that differ in the tables of their boosters only, which have the same rows for each tree that counts. -/
inductive SameNodes : SkObj (Attrs F) (PVal F) F → SkObj (Attrs F) (PVal F) F → Prop
  | mk {v a rows rows'} {n k : Nat} : Dict.get? a "n_estimators" = some (.int n) → Dict.get? a "n_classes_" = some (.int k) →
      (∀ i < treeCount k n, nodesOf i rows = nodesOf i rows') →
      SameNodes (.leaf "XGBClassifier" v (Dict.set a "get_booster" (boosterOf rows))) (.leaf "XGBClassifier" v (Dict.set a "get_booster" (boosterOf rows')))

/-- Fitted objects of the same build, the same except for parts related by `R`. -/
inductive UpTo (R : SkObj (Attrs F) (PVal F) F → SkObj (Attrs F) (PVal F) F → Prop) : SkObj (Attrs F) (PVal F) F → SkObj (Attrs F) (PVal F) F → Prop
  | same (o) : UpTo R o o
  | part {o o'} : R o o' → UpTo R o o'
  | pipeline {v s s'} : s.map Prod.fst = s'.map Prod.fst → (∀ p ∈ (s.map Prod.snd).zip (s'.map Prod.snd), UpTo R p.1 p.2) → UpTo R (.pipeline v s) (.pipeline v s')
  | union {v s s' w} : s.map Prod.fst = s'.map Prod.fst → (∀ p ∈ (s.map Prod.snd).zip (s'.map Prod.snd), UpTo R p.1 p.2) → UpTo R (.union v s w) (.union v s' w)
  | ensemble {k v fs cs ms ms'} : ms.length = ms'.length → (∀ p ∈ ms.zip ms', UpTo R p.1 p.2) → UpTo R (.ensemble k v fs cs ms) (.ensemble k v fs cs ms')
  | boosting {v cs st st' i i' l h} : st.length = st'.length → (∀ p ∈ st.zip st', p.1.length = p.2.length) → (∀ p ∈ st.zip st', ∀ q ∈ p.1.zip p.2, UpTo R q.1 q.2) → UpTo R i i' →
      UpTo R (.boosting v cs st i l h) (.boosting v cs st' i' l h)

end PurePredict.Spec
