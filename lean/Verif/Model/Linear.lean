import Verif.Model.Base
/-
Model of `pure_sklearn/linear_model/*.py` and `pure_sklearn/svm/_classes.py`
(all six classes share `LinearClassifierMixinPure`).
-/
namespace PurePredict
variable {F C : Type} [Arith F]

/-- Attributes of a converted linear classifier; linear_model/_base.py:14-28.
`none` = attribute absent (the `hasattr` guards). -/
structure Linear (F C : Type) where
  coef : List (List F)
  classes : List C
  intercept : Option (List F)
  multiClass : Option String
  solver : Option String
  loss : Option String

/-- linear_model/_base.py:17-21: a scalar `intercept_` is repeated once per class. -/
inductive FittedIntercept (F : Type)
  | scalar (x : F)
  | vector (xs : List F)

/-- linear_model/_base.py:14-28 `LinearClassifierMixinPure.__init__` (attribute copying; the
`check_types` call is modelled in `Model/Utils.lean`). -/
def Linear.ofFitted (coef : List (List F)) (classes : List C)
    (intercept : Option (FittedIntercept F)) (multiClass solver loss : Option String) :
    Linear F C :=
  { coef, classes, multiClass, solver, loss
    intercept := intercept.map fun i => match i with
      | .scalar x => List.replicate classes.length x
      | .vector xs => xs }

/-- Result of `decision_function`: raveled (1-D) or 2-D. -/
inductive Scores (F : Type)
  | flat (s : List F)
  | mat (s : List (List F))

/-- `self.attr`, raising AttributeError when `__init__` did not set it. -/
def attr {α : Type} (o : Option α) : Py α :=
  match o with
  | some a => .ok a
  | none => .error .attributeError

namespace Linear

/-- linear_model/_base.py:45: one row of scores -/
def rowScores (m : Linear F C) (x : Row F) : Py (List F) := do
  let d ← dot x m.coef
  return List.zipWith Arith.add d (← attr m.intercept)

/-- linear_model/_base.py:38-42: the width check.  When `shape(X)[1]` is `None` the comparison is
unequal and formatting the message with `%d` raises TypeError. -/
def checkWidth (m : Linear F C) (X : Arr F) : Py Unit := do
  let nFeatures ← (Arr.ofMat m.coef).width
  let w ← X.width
  match w with
  | none => .error .typeError
  | some w => if some w != nFeatures then .error .valueError else return ()

/-- linear_model/_base.py:30-48 `decision_function` -/
def decisionFunction (m : Linear F C) (X : Arr F) : Py (Scores F) := do
  let X ← checkArray X .allow
  m.checkWidth X
  let scores ← (← X.rows).mapM m.rowScores
  match ← (Arr.ofMat scores).width with
  | some 1 => return .flat (← ravel (Arr.ofMat scores))
  | _ => return .mat scores

/-- linear_model/_base.py:50-57 `predict` -/
def predict (m : Linear F C) (X : Arr F) : Py (List C) := do
  match ← m.decisionFunction X with
  | .flat s => s.mapM fun x => pyGet m.classes (if ofInt 0 <ₚ x then 1 else 0)
  | .mat s => s.mapM fun a => do pyGet m.classes (← argmax a)

/-- linear_model/_base.py:72: one normalised row -/
def normRow (a : List F) : Py (List F) :=
  a.mapM fun b => if !(pySum a ==ₚ ofInt 0) then b /ₚ pySum a else .ok Arith.nan

/-- linear_model/_base.py:59-74 `_predict_proba_lr` -/
def predictProbaLr (m : Linear F C) (X : Arr F) : Py (List (List F)) := do
  match ← m.decisionFunction X with
  | .flat s => s.mapM fun x => do
      let a ← expit x
      return [ofInt 1 -ₚ a, a]
  | .mat s => do
      let prob ← s.mapM fun a => a.mapM expit
      prob.mapM normRow

/-- linear_model/_logistic.py:24-27: is the one-vs-rest formula used? -/
def isOvr (m : Linear F C) : Py Bool := do
  let mc ← attr m.multiClass
  if mc == "ovr" || mc == "warn" then return true
  else if mc == "auto" then
    if m.classes.length ≤ 2 then return true
    else return (← attr m.solver) == "liblinear"
  else return false

/-- linear_model/_logistic.py:23-36 `LogisticRegressionPure.predict_proba` -/
def predictProba (m : Linear F C) (X : Arr F) : Py (List (List F)) := do
  if ← m.isOvr then m.predictProbaLr X
  else
    match ← m.decisionFunction X with
    | .flat s => s.mapM fun a => sfmax [Arith.neg a, a]
    | .mat s => s.mapM sfmax

/-- linear_model/_logistic.py:38-44 `predict_log_proba` -/
def predictLogProba (m : Linear F C) (X : Arr F) : Py (List (List F)) := do
  (← m.predictProba X).mapM fun a => a.mapM safeLog

/-- linear_model/_stochastic_gradient.py:23-27 `_check_proba`: `self.loss not in ("log")` is a
*substring* test, since `("log")` is a string. -/
def checkProba (m : Linear F C) : Py Unit := do
  if !(["", "l", "o", "g", "lo", "og", "log"].contains (← attr m.loss)) then .error .attributeError

/-- linear_model/_stochastic_gradient.py:40-48 `_predict_proba` -/
def sgdPredictProba_ (m : Linear F C) (X : Arr F) : Py (List (List F)) := do
  if (← attr m.loss) == "log" then m.predictProbaLr X else .error .notImplementedError

/-- linear_model/_stochastic_gradient.py:29-38: `predict_proba` is a property; reading it runs
`_check_proba`, calling it runs `_predict_proba`. -/
def sgdPredictProba (m : Linear F C) (X : Arr F) : Py (List (List F)) := do
  m.checkProba
  m.sgdPredictProba_ X

/-- linear_model/_stochastic_gradient.py:50-63 -/
def sgdPredictLogProba (m : Linear F C) (X : Arr F) : Py (List (List F)) := do
  m.checkProba
  (← m.sgdPredictProba X).mapM fun a => a.mapM safeLog

end Linear
end PurePredict
