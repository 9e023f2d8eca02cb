import Verif.Model.Utils
import Verif.Model.Ensemble
/-
Model of the conversion of compound estimators: the constructors of `pure_sklearn/pipeline.py`,
`ensemble/_bagging.py` (also used by the forests) and `ensemble/_gb.py`, which call
`convert_estimator` (`pure_sklearn/map.py`) on their parts; and of `convert_type`.
-/
namespace PurePredict

/-- The three classes converted by `_BaseBaggingPure` (ensemble/_bagging.py:55, _forest.py:8, 19). -/
inductive EnsKind | bagging | randomForest | extraTrees
  deriving DecidableEq, Repr

/-- `est.__class__.__name__` -/
def EnsKind.className : EnsKind → String
  | .bagging => "BaggingClassifier"
  | .randomForest => "RandomForestClassifier"
  | .extraTrees => "ExtraTreesClassifier"

/-- Objects handed to `convert_estimator`.  `α` is the fitted state of the estimators that are not
compound, `V` that of labels and other values of the compound ones, `F` that of numbers.  (A fitted gradient boosting model always has `init_`.) -/
inductive SkObj (α V F : Type)
  /-- `None`, as a step of a pipeline or union -/
  | none
  /-- a string: "passthrough", "drop", or "zero" as `init_` -/
  | str (s : String)
  | leaf (className : String) (version : Option (List Char)) (state : α)
  | pipeline (version : Option (List Char)) (steps : List (String × SkObj α V F))
  | union (version : Option (List Char)) (steps : List (String × SkObj α V F))
      (weights : Option (List (String × F)))
  | ensemble (kind : EnsKind) (version : Option (List Char)) (features : Option (List (List Int)))
      (classes : List V) (members : List (SkObj α V F))
  | boosting (version : Option (List Char)) (classes : List V)
      (stages : List (List (SkObj α V F))) (init : SkObj α V F) (loss : String) (hyper : List V)

/-- Converted estimators; `β` is what the leaf constructors build. -/
inductive PureEst (β V F : Type)
  | leaf (name : List Char) (value : β)
  | pipeline (steps : List (String × PureEst β V F))
  | union (steps : List (String × PureEst β V F)) (weights : Option (List (String × F)))
  | ensemble (kind : EnsKind) (features : Option (List (List Int))) (classes : List V)
      (members : List (PureEst β V F))
  | boosting (classes : List V) (stages : List (List (PureEst β V F))) (init : PureEst β V F)
      (loss : Loss) (hyper : List V)

/-- `str`, as `isinstance` and `str(type(_))` see it in utils.py:25-34 -/
def strCls : Cls := ⟨"<class 'str'>".toList, ["str", "object"]⟩
/-- `float` (utils.py:25-34) -/
def floatCls : Cls := ⟨"<class 'float'>".toList, ["float", "object"]⟩
/-- `int` (utils.py:25-34) -/
def intCls : Cls := ⟨"<class 'int'>".toList, ["int", "object"]⟩
/-- `list` (utils.py:25-34) -/
def listCls : Cls := ⟨"<class 'list'>".toList, ["list", "object"]⟩
/-- `tuple` (utils.py:25-34) -/
def tupleCls : Cls := ⟨"<class 'tuple'>".toList, ["tuple", "object"]⟩
/-- `dict` (utils.py:25-34) -/
def dictCls : Cls := ⟨"<class 'dict'>".toList, ["dict", "object"]⟩
/-- a class of the package (utils.py:34) -/
def pureCls (dotted : String) : Cls :=
  ⟨"<class 'pure_sklearn.".toList ++ (dotted ++ "'>").toList, ["object"]⟩

/-- a string as `check_types` sees it (utils.py:32) -/
def strObj : PyObj := .inst strCls []
/-- a float as `check_types` sees it (utils.py:32) -/
def floatObj : PyObj := .inst floatCls []
/-- an int as `check_types` sees it (utils.py:32) -/
def intObj : PyObj := .inst intCls []

/-- pipeline.py:168-175: the copied weights, a dict from names to floats, or `None` -/
def viewWeights {F : Type} : Option (List (String × F)) → PyObj
  | .none => .none
  | .some ws => .map dictCls (ws.map fun _ => strObj) (ws.map fun _ => floatObj)

/-- _bagging.py:24-27: `estimators_features_`, when present, lists of column numbers -/
def viewFeatures : Option (List (List Int)) → List PyObj
  | .none => []
  | .some fs => [.seq listCls (fs.map fun f => .seq listCls (f.map fun _ => intObj))]

/-- the loss object of _gb.py:41-48; its only attribute is the number K (_gb_losses.py:30, 64, 98) -/
def viewLoss : Loss → PyObj
  | .multinomial _ => .inst (pureCls "ensemble._gb_losses._MultinomialDeviancePure") [intObj]
  | .binomial => .inst (pureCls "ensemble._gb_losses._BinomialDeviancePure") [intObj]
  | .exponential => .inst (pureCls "ensemble._gb_losses._ExponentialLossPure") [intObj]

variable {α β V F : Type}

section
variable (view : β → PyObj) (val : V → PyObj)
mutual
/-- A converted estimator with its attributes as `check_types(self)` (utils.py:34-36) traverses them. -/
def PureEst.view : PureEst β V F → PyObj
  | .leaf _ b => view b
  | .pipeline ss => .inst (pureCls "pipeline.PipelinePure") [.seq listCls (viewSteps ss)]
  | .union ss ws =>
    .inst (pureCls "pipeline.FeatureUnionPure") [.seq listCls (viewSteps ss), viewWeights ws]
  | .ensemble _ fs cs ms =>
    .inst (pureCls "ensemble._bagging.BaggingClassifierPure")
      (viewFeatures fs ++ [.seq listCls (cs.map val), .seq listCls (viewAll ms)])
  | .boosting cs stages init l hyper =>
    .inst (pureCls "ensemble._gb.GradientBoostingClassifierPure")
      ([.seq listCls (cs.map val), .seq listCls (viewStages stages), init.view, viewLoss l] ++ hyper.map val)
/-- the list of `(name, estimator)` tuples of pipeline.py:77-80, 164-167 -/
def viewSteps : List (String × PureEst β V F) → List PyObj
  | [] => []
  | s :: ss => viewStep s :: viewSteps ss
/-- one `(name, estimator)` tuple -/
def viewStep : String × PureEst β V F → PyObj
  | (_, e) => .seq tupleCls [strObj, e.view]
/-- the list `estimators_` of _bagging.py:29-32 -/
def viewAll : List (PureEst β V F) → List PyObj
  | [] => []
  | e :: es => e.view :: viewAll es
/-- the list of lists `estimators_` of _gb.py:29-35 -/
def viewStages : List (List (PureEst β V F)) → List PyObj
  | [] => []
  | es :: ess => .seq listCls (viewAll es) :: viewStages ess
end
end

/-- What is needed of the classes that are not compound: their constructors (which end with their own
`check_types`) and their instances as `check_types` sees them. -/
structure Leaves (α β V : Type) where
  construct : List Char → List Char → Fitted α → Py β
  view : β → PyObj
  val : V → PyObj

/-- The call `check_types(self)` that ends a constructor. -/
def checked (K : Leaves α β V) (r : PureEst β V F) : Py (PureEst β V F) := do
  checkTypes (r.view K.view K.val)
  return r

variable (K : Leaves α β V)

mutual
/-- map.py:43-58 `convert_estimator`, followed into the constructors of the compound classes:
pipeline.py:75-81 and 162-176, ensemble/_bagging.py:22-33, ensemble/_gb.py:26-51. -/
def convert : SkObj α V F → Py (PureEst β V F)
  | .none => convertEstimator (fun _ _ _ => .error .typeError) ⟨"NoneType", Option.none, ()⟩
  | .str _ => convertEstimator (fun _ _ _ => .error .typeError) ⟨"str", Option.none, ()⟩
  | .leaf c v s => convertEstimator (fun m n e => do return .leaf n (← K.construct m n e)) ⟨c, v, s⟩
  | .pipeline v steps => convertEstimator (fun _ n _ => do
      let _ ← checkVersion v (ctorMinVersion n)
      checked K (.pipeline (← convertSteps steps))) ⟨"Pipeline", v, ()⟩
  | .union v steps ws => convertEstimator (fun _ n _ => do
      let _ ← checkVersion v (ctorMinVersion n)
      checked K (.union (← convertSteps steps) ws)) ⟨"FeatureUnion", v, ()⟩
  | .ensemble k v fs cs ms => convertEstimator (fun _ n _ => do
      let _ ← checkVersion v (ctorMinVersion n)
      checked K (.ensemble k fs cs (← convertAll ms))) ⟨k.className, v, ()⟩
  | .boosting v cs stages init loss hyper => convertEstimator (fun _ n _ => do
      let _ ← checkVersion v (ctorMinVersion n)
      let stages' ← convertStages stages
      let init' ← convert init
      let l ← mkLoss loss cs.length
      checked K (.boosting cs stages' init' l hyper)) ⟨"GradientBoostingClassifier", v, ()⟩
/-- the loops pipeline.py:78-80, 165-167 -/
def convertSteps : List (String × SkObj α V F) → Py (List (String × PureEst β V F))
  | [] => .ok []
  | s :: ss => do return (← convertStep s) :: (← convertSteps ss)
/-- one round of these loops -/
def convertStep : String × SkObj α V F → Py (String × PureEst β V F)
  | (n, o) => do return (n, ← convert o)
/-- the loop _bagging.py:30-32 -/
def convertAll : List (SkObj α V F) → Py (List (PureEst β V F))
  | [] => .ok []
  | o :: os => do return (← convert o) :: (← convertAll os)
/-- the loops _gb.py:30-35 -/
def convertStages : List (List (SkObj α V F)) → Py (List (List (PureEst β V F)))
  | [] => .ok []
  | os :: oss => do return (← convertAll os) :: (← convertStages oss)
end

/-! ### convert_type -/

/-- A class used as `dtype`: what calling it with 0 gives (an exception when it cannot be called so),
and whether that value has an `item` method and of which class `item()` is. -/
inductive DTypeObj
  /-- a class whose instances have no `item`: the builtin `int`, `float`, `bool`, `str`, … -/
  | plain (name : String)
  /-- a numpy scalar class; `item` is the class of `x.item()` (for `numpy.longdouble` itself) -/
  | numpy (name : String) (item : String)
  /-- something that cannot be called with 0: a `numpy.dtype` instance or a string such as "float32" -/
  | uncallable
  deriving DecidableEq, Repr

/-- utils.py:67-73 `convert_type` -/
def convertType : DTypeObj → Py DTypeObj
  | .plain n => .ok (.plain n)
  | .numpy n i => .ok (if i = n then .numpy n i else .plain i)
  | .uncallable => .error .typeError

end PurePredict
