import Verif.Model.Tree
/-
Model of `pure_sklearn/ensemble/*.py`, `pure_sklearn/dummy.py` and
`pure_sklearn/xgboost/_classes.py`.
-/
namespace PurePredict
variable {F C : Type} [Arith F]

/-! ### dummy.py -/

/-- dummy.py:20-31 (only strategy "prior" survives construction) -/
structure Dummy (F : Type) where
  classPrior : List F

/-- dummy.py:20-31 `__init__` -/
def Dummy.ofFitted (strategy : String) (prior : List F) : Py (Dummy F) :=
  if strategy != "prior" then .error .valueError else .ok ⟨prior⟩

namespace Dummy
/-- dummy.py:33-34 `predict`: returns the *index* of the largest prior.
`max` is evaluated before the repetition, so an empty prior raises. -/
def predict (d : Dummy F) (X : Arr F) : Py (List Nat) := do
  let i ← argmax d.classPrior
  return List.replicate (← X.len) i

/-- dummy.py:36-37 `predict_proba` (the aliasing of the rows is modelled in `Model/Heap.lean`) -/
def predictProba (d : Dummy F) (X : Arr F) : Py (List (List F)) := do
  return List.replicate (← X.len) d.classPrior

/-- dummy.py:39-40 -/
def predictLogProba (d : Dummy F) (X : Arr F) : Py (List (List F)) := do
  apply2d (.ofMat (← d.predictProba X)) safeLog
end Dummy

/-! ### ensemble/_bagging.py -/

/-- A member estimator of an ensemble, through its `predict_proba`. -/
structure Member (F : Type) where
  predictProba : Arr F → Py (List (List F))

/-- ensemble/_bagging.py:22-33 -/
structure Bagging (F C : Type) where
  features : Option (List (List Int))
  classes : List C
  estimators : List (Member F)

/-- ensemble/_bagging.py:12-16 `_feat_slice` -/
def featSlice (X : Arr F) (feats : Option (List Int)) : Py (Arr F) :=
  match feats with
  | none => .ok X
  | some fs => do
    let rs ← (← X.rows).mapM fun a => fs.mapM fun i => a.getItem i
    return .ofMat rs

namespace Bagging

/-- ensemble/_bagging.py:53-55 `_get_feats` -/
def getFeats (b : Bagging F C) (idx : Nat) : Py (Option (List Int)) :=
  match b.features with
  | none => .ok none
  | some fs => do return some (← pyGet fs idx)

/-- ensemble/_bagging.py:36 / 38-40: probabilities of member `idx` on its feature subset -/
def memberProba (b : Bagging F C) (X : Arr F) (idx : Nat) : Py (List (List F)) := do
  let e ← pyGet b.estimators idx
  let feats ← b.getFeats idx
  e.predictProba (← featSlice X feats)

/-- ensemble/_bagging.py:37-41: accumulate the members `idxs` onto `proba` -/
def accumulate (b : Bagging F C) (X : Arr F) :
    List Nat → List (List F) → Py (List (List F))
  | [], proba => .ok proba
  | idx :: idxs, proba => do
    let p ← b.memberProba X idx
    let s ← operate2d (.ofMat proba) (.ofMat p) Arith.add
    b.accumulate X idxs s

/-- ensemble/_bagging.py:35-43 `predict_proba` -/
def predictProba (b : Bagging F C) (X : Arr F) : Py (List (List F)) := do
  let p0 ← b.memberProba X 0
  let proba ← b.accumulate X ((List.range b.estimators.length).drop 1) p0
  apply2d (.ofMat proba) fun x => x /ₚ ofInt b.estimators.length

/-- ensemble/_bagging.py:45-46 -/
def predictLogProba (b : Bagging F C) (X : Arr F) : Py (List (List F)) := do
  apply2d (.ofMat (← b.predictProba X)) safeLog

/-- ensemble/_bagging.py:48-51 `predict` -/
def predict (b : Bagging F C) (X : Arr F) : Py (List C) := do
  let am ← (← b.predictProba X).mapM argmax
  am.mapM fun (i : Nat) => pyGet b.classes (i : Int)

end Bagging

/-! ### ensemble/_gb_losses.py -/

/-- ensemble/_gb_losses.py:11-17 `_clip` (same text in metrics/pairwise.py:14-20) -/
def clip (a lo hi : F) : F :=
  if a <ₚ lo then lo else if hi <ₚ a then hi else a

/-- ensemble/_gb_losses.py:8 `EPS = 1.1920929e-07` -/
def gbEps : F := ofRat 11920929 100000000000000

/-- The loss classes; `multinomial` carries `n_classes_`. -/
inductive Loss
  | multinomial (nClasses : Nat)
  | binomial
  | exponential
  deriving DecidableEq, Repr

namespace Loss

/-- ensemble/_gb_losses.py:33-43, 67-75, 101-110 `_raw_prediction_to_proba`.
The binary losses ravel `raw` when it has exactly one column; otherwise they map `expit` over
rows (a TypeError, negating a list). -/
def rawToProba (l : Loss) (raw : List (List F)) : Py (List (List F)) :=
  match l with
  | multinomial n => do
    let sums ← applyAxis2d (.ofMat (← apply2d (.ofMat raw) safeExp)) (fun a => .ok (pySum a))
    let lse ← sums.mapM safeLog
    (List.zip raw lse).mapM fun p =>
      (List.range n).mapM fun (i : Nat) => do safeExp ((← pyGet p.1 (i : Int)) -ₚ p.2)
  | binomial => do
    match ← (Arr.ofMat raw).width with
    | some 1 =>
      let proba1 ← (← ravel (.ofMat raw)).mapM expit
      transpose (.ofMat [proba1.map fun x => ofInt 1 -ₚ x, proba1])
    | _ => .error .typeError
  | exponential => do
    match ← (Arr.ofMat raw).width with
    | some 1 =>
      let proba1 ← (← ravel (.ofMat raw)).mapM fun x => do
        return (← expit x) *ₚ ofInt 2
      transpose (.ofMat [proba1.map fun x => ofInt 1 -ₚ x, proba1])
    | _ => .error .typeError

/-- ensemble/_gb_losses.py:45-47, 77-79, 112-118 `_raw_prediction_to_decision` -/
def rawToDecision (l : Loss) (raw : List (List F)) : Py (List Nat) :=
  match l with
  | exponential => do
    match ← (Arr.ofMat raw).width with
    | some 1 => return (← ravel (.ofMat raw)).map fun a => if ofInt 0 ≤ₚ a then 1 else 0
    | _ => .error .typeError
  | l => do (← l.rawToProba raw).mapM argmax

/-- ensemble/_gb_losses.py:49-52, 81-86, 120-125 `get_init_raw_predictions` applied to the init
estimator's `predict_proba` output -/
def initRaw (l : Loss) (probas : List (List F)) : Py (List (List F)) :=
  let c := fun (x : F) => clip x gbEps (ofInt 1 -ₚ gbEps)
  match l with
  | multinomial _ => apply2d (.ofMat probas) fun x => safeLog (c x)
  | binomial => probas.mapM fun a => do
      let x := c (← pyGet a 1)
      return [← safeLog (← x /ₚ (ofInt 1 -ₚ x))]
  | exponential => probas.mapM fun a => do
      let x := c (← pyGet a 1)
      return [ofRat 1 2 *ₚ (← safeLog (← x /ₚ (ofInt 1 -ₚ x)))]

end Loss

/-- ensemble/_gb.py:41-50 and the guards of _gb_losses.py:25-29, 58-64, 92-98 -/
def mkLoss (loss : String) (nClasses : Nat) : Py Loss :=
  if loss == "deviance" then
    if nClasses > 2 then .ok (.multinomial nClasses)
    else if nClasses ≠ 2 then .error .valueError
    else .ok .binomial
  else if loss == "exponential" then
    if nClasses ≠ 2 then .error .valueError else .ok .exponential
  else .error .valueError

/-! ### ensemble/_gb.py -/

/-- ensemble/_gb.py:26-51; stage estimators through their regression `predict`, the init
estimator through `predict_proba` (`init_ == "zero"` cannot survive conversion:
`convert_estimator` (map.py:51-55) has no entry for the class `str`). -/
structure GB (F C : Type) where
  classes : List C
  estimators : List (List (Arr F → Py (List F)))
  initProba : Arr F → Py (List (List F))
  learningRate : F
  nFeatures : Nat
  loss : Loss

namespace GB

/-- ensemble/_gb.py:53-66 `_raw_predict_init` -/
def rawPredictInit (g : GB F C) (X : Arr F) : Py (List (List F)) := do
  let X ← checkArray X
  match ← X.width with
  | none => .error .typeError
  | some w =>
    if w ≠ g.nFeatures then .error .valueError
    else g.loss.initRaw (← g.initProba X)

/-- ensemble/_gb.py:73-78: one class column, summed over the stages -/
def rawColumn (g : GB F C) (X : Arr F) (k : Nat) : List (List (Arr F → Py (List F))) →
    List F → Py (List F)
  | [], column => .ok column
  | st :: sts, column => do
    let preds ← (← pyGet st k) X
    let column' ← (List.range preds.length).mapM fun (i : Nat) => do
      return (← pyGet column (i : Int)) +ₚ ((← pyGet preds (i : Int)) *ₚ g.learningRate)
    g.rawColumn X k sts column'

/-- ensemble/_gb.py:68-81 `_raw_predict` -/
def rawPredict (g : GB F C) (X : Arr F) : Py (List (List F)) := do
  let initPreds ← g.rawPredictInit X
  let st0 ← pyGet g.estimators 0
  let out ← (List.range st0.length).mapM fun k => do
    g.rawColumn X k g.estimators (List.replicate (← X.len) (ofInt 0))
  let out ← transpose (.ofMat out)
  operate2d (.ofMat initPreds) (.ofMat out) Arith.add

/-- ensemble/_gb.py:83-85 -/
def predictProba (g : GB F C) (X : Arr F) : Py (List (List F)) := do
  g.loss.rawToProba (← g.rawPredict X)

/-- ensemble/_gb.py:87-88 -/
def predictLogProba (g : GB F C) (X : Arr F) : Py (List (List F)) := do
  apply2d (.ofMat (← g.predictProba X)) safeLog

/-- ensemble/_gb.py:90-92 -/
def predict (g : GB F C) (X : Arr F) : Py (List C) := do
  (← g.predictProba X).mapM fun a => do pyGet g.classes (← argmax a)

end GB

/-- The arrays of a fitted tree's `tree_` attribute that conversion reads (tree/_classes.py:43-48). -/
structure SkArrays (F : Type) where
  left : List Int
  right : List Int
  feature : List Int
  threshold : List F
  value : List (List (List F))

/-- A fitted `init_`: the string "zero" or a `DummyClassifier` (strategy and prior).  Other init
estimators are not modelled here; `GB.initProba` stands for any of them. -/
inductive GBInit (F : Type)
  | zero
  | dummy (strategy : String) (prior : List F)

/-- ensemble/_gb.py:26-51 `GradientBoostingClassifierPure.__init__`: the stage trees, then the init
estimator ("zero" has no counterpart in map.py:51-55: ValueError), then the loss. -/
def GB.ofFitted (classes : List C) (stages : List (List (SkArrays F))) (init : GBInit F)
    (loss : String) (learningRate : F) (nFeatures : Nat) : Py (GB F C) := do
  let sts ← stages.mapM fun st => st.mapM fun (a : SkArrays F) => do
    let t : Tree F C ← Tree.ofSklearn a.left a.right a.feature a.threshold a.value none []
    return t.predictReg
  let d ← match init with
    | .zero => .error .valueError
    | .dummy strategy prior => Dummy.ofFitted strategy prior
  let l ← mkLoss loss classes.length
  return ⟨classes, sts, d.predictProba, learningRate, nFeatures, l⟩

/-! ### xgboost/_classes.py -/

/-- The boosters' per-round trees: a single tree per round (n_classes_ == 2) or one per class;
xgboost/_classes.py:46-68. -/
inductive XgbTrees (F C : Type)
  | binary (ts : List (Tree F C))
  | multi (ts : List (List (Tree F C)))

inductive XgbObjective | multiSoftprob | binaryLogistic
  deriving DecidableEq, Repr

/-- xgboost/_classes.py:25-44 -/
structure Xgb (F C : Type) where
  objective : XgbObjective
  classes : List C
  nClasses : Nat
  nEstimators : Nat
  trees : XgbTrees F C

/-- xgboost/_classes.py:26-39: the objective and booster guards -/
def xgbCheck (objective booster : String) : Py XgbObjective :=
  if objective == "binary:logistic" then
    if booster == "gbtree" then .ok .binaryLogistic else .error .valueError
  else if objective == "multi:softprob" then
    if booster == "gbtree" then .ok .multiSoftprob else .error .valueError
  else .error .valueError

/-- xgboost/_classes.py:63-66: trees `idx, idx+1, …` for the classes of one round -/
def xgbRound (frames : Nat → XgbFrame F) (idx : Nat) : Nat → Py (List (Tree F C))
  | 0 => .ok []
  | k + 1 => do
    let t ← Tree.ofXgb (frames idx)
    return t :: (← xgbRound frames (idx + 1) k)

/-- xgboost/_classes.py:56-67, the multi-class branch over all rounds -/
def xgbRounds (frames : Nat → XgbFrame F) (nClasses idx : Nat) : Nat → Py (List (List (Tree F C)))
  | 0 => .ok []
  | k + 1 => do
    let r ← xgbRound frames idx nClasses
    return r :: (← xgbRounds frames nClasses (idx + nClasses) k)

/-- xgboost/_classes.py:46-68 `_build_estimators`; `frames idx` is
`tree_df[tree_df["Tree"] == idx].to_dict(orient="list")`. -/
def xgbBuild (frames : Nat → XgbFrame F) (nEstimators nClasses : Nat) : Py (XgbTrees F C) := do
  if nClasses == 2 then return .binary (← xgbRound frames 0 nEstimators)
  else return .multi (← xgbRounds frames nClasses 0 nEstimators)

/-- xgboost/_classes.py:25-44 `XGBClassifierPure.__init__` on the objective, the booster's name, the
classes, `n_classes_`, `n_estimators` and the data frame of the trees. -/
def Xgb.ofBooster (objective booster : String) (classes : List C) (nClasses nEstimators : Nat)
    (frames : Nat → XgbFrame F) : Py (Xgb F C) := do
  let o ← xgbCheck objective booster
  let ts ← xgbBuild frames nEstimators nClasses
  return ⟨o, classes, nClasses, nEstimators, ts⟩

namespace Xgb

/-- xgboost/_classes.py:76-77 / 85: add the predictions of one tree to the running sums -/
def addTree (X : Arr F) (acc : List F) (t : Tree F C) : Py (List F) := do
  return List.zipWith Arith.add acc (← t.predictReg X)

/-- xgboost/_classes.py:70-79 `_predict`.  With `n_classes_ == 2` the rounds are single trees and
subscripting one raises TypeError (`estimators_[i]` itself can raise IndexError first). -/
def predict_ (m : Xgb F C) (X : Arr F) : Py (List (List F)) :=
  (List.range m.nClasses).mapM fun (c : Nat) => do
    let n ← X.len
    (List.range m.nEstimators).foldlM (fun acc (e : Nat) => do
      match m.trees with
      | .binary ts => let _ ← pyGet ts (e : Int); .error .typeError
      | .multi rounds => addTree X acc (← pyGet (← pyGet rounds (e : Int)) (c : Int)))
      (List.replicate n (ofInt 0))

/-- xgboost/_classes.py:81-86 `_predict_binary`.  For a multi-class booster the rounds are lists
without a `predict` method (AttributeError). -/
def predictBinary (m : Xgb F C) (X : Arr F) : Py (List F) := do
  let n ← X.len
  match m.trees with
  | .binary ts => ts.foldlM (addTree X) (List.replicate n (ofInt 0))
  | .multi rounds => if rounds.isEmpty then return List.replicate n (ofInt 0)
                     else .error .attributeError

/-- xgboost/_classes.py:92-109 `predict_proba` -/
def predictProba (m : Xgb F C) (X : Arr F) : Py (List (List F)) := do
  let X ← checkArray X
  match m.objective with
  | .multiSoftprob =>
    let preds ← m.predict_ X
    (List.range (← X.len)).mapM fun (i : Nat) => do
      sfmax (← (List.range m.nClasses).mapM fun (j : Nat) => do
        pyGet (← pyGet preds (j : Int)) (i : Int))
  | .binaryLogistic =>
    let preds ← m.predictBinary X
    let out ← preds.mapM expit
    return out.map fun x => [ofInt 1 -ₚ x, x]

/-- xgboost/_classes.py:88-90 `predict` -/
def predict (m : Xgb F C) (X : Arr F) : Py (List C) := do
  (← m.predictProba X).mapM fun a => do pyGet m.classes (← argmax a)

end Xgb
end PurePredict
