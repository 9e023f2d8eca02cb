import Verif.Spec.EndToEnd
/-
The attributes of a fitted XGBClassifier.
-/
namespace PurePredict.Spec
variable {F : Type} [Arith F]

/-- A fitted XGBClassifier: its objective `ob`, the tree booster, the labels, the number `K` of classes, the number
`n` of boosting rounds asked for, and the table of the trees of its booster. -/
structure FittedXgb (e : Attrs F) (ob : String) (cs : List (PVal F)) (K n : Nat) (rows : List (FrameRow F)) : Prop where
  objective : HasAttr e "objective" (.str ob)
  booster : HasAttr e "booster" (.str "gbtree")
  labels : HasLabels e cs
  classes : HasAttr e "n_classes_" (.int K)
  estimators : HasAttr e "n_estimators" (.int n)
  table : HasBooster e rows

/-- the value is this text, as a string of Python or of numpy -/
def IsText (v : PVal F) (s : String) : Prop := v = .str s ∨ v = .npStr s

end PurePredict.Spec
