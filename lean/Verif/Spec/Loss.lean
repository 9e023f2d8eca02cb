import Verif.Model.Ensemble
/-
Which loss a fitted gradient boosting classifier has.
-/
namespace PurePredict

/-- Which loss a fitted model has: deviance is multinomial for more than two classes and binomial for
two, exponential needs two classes, anything else is not supported. -/
def Spec.lossOf (loss : String) (k : Nat) : Option Loss :=
  if loss = "deviance" ∧ 3 ≤ k then some (.multinomial k)
  else if loss = "deviance" ∧ k = 2 then some .binomial
  else if loss = "exponential" ∧ k = 2 then some .exponential
  else none

end PurePredict
