import Verif.Model.Base
/-
Model of `pure_sklearn/tree/_classes.py`.
-/
namespace PurePredict
variable {F C : Type} [Arith F]

/-- Attributes of a converted tree (parallel arrays); tree/_classes.py:16-55. -/
structure Tree (F C : Type) where
  childrenLeft : List Int
  childrenRight : List Int
  feature : List Int
  threshold : List F
  value : List (List F)
  classes : List C

/-- tree/_classes.py:43-54: conversion from a fitted sklearn tree.  `tree_.value` has shape
(n_nodes, n_outputs, k); output 0 is kept (line 48, `a[0]`: IndexError when there is none).
Without a `classes_` attribute the classes are `[0, 1]`. -/
def Tree.ofSklearn (left right feature : List Int) (threshold : List F)
    (value : List (List (List F))) (classes : Option (List C)) (default01 : List C) :
    Py (Tree F C) := do
  let value ← value.mapM fun a => pyGet a 0
  return { childrenLeft := left, childrenRight := right, feature, threshold, value
           classes := classes.getD default01 }

namespace Tree

/-- tree/_classes.py:58-61 `left_equal`: the record's value of the node's feature (0.0 for a key
missing from a sparse row). -/
def featureValue (t : Tree F C) (x : Row F) (nd : Int) : Py F := do
  let f ← pyGet t.feature nd
  match x with
  | .dict d => return (d.get? f).getD (ofInt 0)
  | .list xs => pyGet xs f
  | .scalar _ => .error .typeError

/-- tree/_classes.py:64-71: one iteration of the loop; `none` = leaf found, `some n` = go on at
`n`. -/
def step (t : Tree F C) (x : Row F) (nd : Int) : Py (Option Int) := do
  let l ← pyGet t.childrenLeft nd
  let r ← pyGet t.childrenRight nd
  if l == r then return none
  else
    let v ← t.featureValue x nd
    if v ≤ₚ (← pyGet t.threshold nd) then return some l else return some r

/-- tree/_classes.py:62-72: the `while` loop, for at most `fuel` iterations. -/
def walk (t : Tree F C) (x : Row F) : Nat → Int → Py Int
  | 0, _ => .error .nonTermination
  | fuel + 1, nd => do
    match ← t.step x nd with
    | none => return nd
    | some n => t.walk x fuel n

/-- tree/_classes.py:57-72 `_get_leaf_node`.  There are at most `2 * len` usable node ids
(non-negative and negative indices), so a loop that runs longer never ends; this is proved in
`Lemmas/Tree.lean` (`Tree.walk_fuel_adequate`) and C10. -/
def getLeafNode (t : Tree F C) (x : Row F) : Py Int :=
  t.walk x (2 * t.childrenLeft.length + 1) 0

/-- tree/_classes.py:83-84 -/
def predFromLeaf (t : Tree F C) (nd : Int) : Py Nat := do argmax (← pyGet t.value nd)

/-- tree/_classes.py:86-87 -/
def probaFromLeaf (t : Tree F C) (nd : Int) : Py (List F) := do
  let v ← pyGet t.value nd
  v.mapM fun a => a /ₚ pySum v

/-- tree/_classes.py:89-93 `DecisionTreeClassifierPure.predict` -/
def predict (t : Tree F C) (X : Arr F) : Py (List C) := do
  let X ← checkArray X .allow
  let leaves ← (← X.rows).mapM t.getLeafNode
  let preds ← leaves.mapM t.predFromLeaf
  preds.mapM fun (p : Nat) => pyGet t.classes (p : Int)

/-- tree/_classes.py:95-98 `predict_proba` -/
def predictProba (t : Tree F C) (X : Arr F) : Py (List (List F)) := do
  let X ← checkArray X .allow
  let leaves ← (← X.rows).mapM t.getLeafNode
  leaves.mapM t.probaFromLeaf

/-- tree/_classes.py:100-101 `predict_log_proba` -/
def predictLogProba (t : Tree F C) (X : Arr F) : Py (List (List F)) := do
  (← t.predictProba X).mapM fun a => a.mapM safeLog

/-- tree/_classes.py:112-118 `DecisionTreeRegressorPure.predict` -/
def predictReg (t : Tree F C) (X : Arr F) : Py (List F) := do
  let X ← checkArray X .allow
  let leaves ← (← X.rows).mapM t.getLeafNode
  leaves.mapM fun nd => do pyGet (← pyGet t.value nd) 0

end Tree

/-! Conversion of an xgboost booster tree (data frame columns) -/

/-- `int(s)` for a string of ASCII digits; anything else raises ValueError (signs, blanks,
underscores and non-ASCII digits, which Python also accepts, are not modelled). -/
def parseNat (cs : List Char) : Py Nat :=
  if cs.isEmpty || !cs.all (fun c => c.isDigit) then .error .valueError
  else .ok (cs.foldl (fun n c => 10 * n + (c.toNat - '0'.toNat)) 0)

/-- `s.split("-")[-1]` on characters: what follows the last dash -/
def afterLastDash (cs : List Char) : List Char :=
  (cs.reverse.takeWhile (· != '-')).reverse

/-- tree/_classes.py:25,31: a child id such as `"3-12"`, or NaN (`none`) for a leaf -/
def parseChild (s : Option (List Char)) : Py Int :=
  match s with
  | none => .ok (-1)
  | some cs => do return ((← parseNat (afterLastDash cs)) : Int)

/-- tree/_classes.py:37: `-2 if x == "Leaf" else int(x.replace("f", "")[-1])` -/
def parseFeature (cs : List Char) : Py Int :=
  if cs == ['L', 'e', 'a', 'f'] then .ok (-2)
  else
    match (cs.filter (· != 'f')).getLast? with
    | none => .error .indexError
    | some c => do return ((← parseNat [c]) : Int)

/-- One tree of `trees_to_dataframe()` as a dict of columns. -/
structure XgbFrame (F : Type) where
  split : List F
  gain : List F
  yes : List (Option (List Char))
  no : List (Option (List Char))
  feature : List (List Char)

/-- tree/_classes.py:17-40 -/
def Tree.ofXgb (e : XgbFrame F) : Py (Tree F C) := do
  let left ← e.yes.mapM parseChild
  let right ← e.no.mapM parseChild
  let feature ← e.feature.mapM parseFeature
  return { threshold := e.split.map fun x => if Arith.isnan x then ofInt (-2) else x
           value := e.gain.map fun a => [a]
           childrenLeft := left, childrenRight := right, feature, classes := [] }

end PurePredict
