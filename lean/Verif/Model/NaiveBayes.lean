import Verif.Model.Base
/-
Model of `pure_sklearn/naive_bayes.py`.
-/
namespace PurePredict
variable {F C : Type} [Arith F]

/-- naive_bayes.py:57-63 -/
structure GaussianNB (F C : Type) where
  classPrior : List F
  classes : List C
  sigma : List (List F)
  theta : List (List F)

/-- naive_bayes.py:96-101 / 124-129 (MultinomialNB and ComplementNB have the same attributes) -/
structure DiscreteNB (F C : Type) where
  classLogPrior : List F
  classes : List C
  featureLogProb : List (List F)

/-- naive_bayes.py:76-77: `((a[b] - theta[b]) ** 2) / sigma[b]` for each feature of the record -/
def GaussianNB.terms (theta sigma : List F) (a : Row F) : Py (List F) := do
  (List.range (← a.len)).mapM fun (b : Nat) => do
    let num ← Arith.sq ((← a.getItem (b : Int)) -ₚ (← pyGet theta (b : Int)))
    num /ₚ (← pyGet sigma (b : Int))

/-- naive_bayes.py:69-84: the column of joint log likelihoods of class `i`.  The per-class
constants are computed before the records are visited.  Simplification: `theta_[i]` is looked up
once per record rather than once per feature. -/
def GaussianNB.column (m : GaussianNB F C) (rows : List (Row F)) (i : Nat) : Py (List F) := do
  let jointi ← safeLog (← pyGet m.classPrior (i : Int))
  let sig ← pyGet m.sigma (i : Int)
  let logs ← sig.mapM fun x => safeLog (ofInt 2 *ₚ Arith.pi *ₚ x)
  let nij := Arith.neg (ofRat 1 2) *ₚ pySum logs
  let jll ← rows.mapM fun a => do GaussianNB.terms (← pyGet m.theta (i : Int)) sig a
  let jll := jll.map fun a => ofRat 1 2 *ₚ pySum a
  return jll.map fun a => (nij -ₚ a) +ₚ jointi

/-- naive_bayes.py:65-85 -/
def GaussianNB.jll (m : GaussianNB F C) (X : Arr F) : Py (List (List F)) := do
  let cols ← (List.range m.classes.length).mapM fun i => do m.column (← X.rows) i
  transpose (.ofMat cols)

/-- naive_bayes.py:103-113 `MultinomialNBPure._joint_log_likelihood`, `_jll` -/
def DiscreteNB.jllMultinomial (m : DiscreteNB F C) (X : Arr F) : Py (List (List F)) := do
  (← X.rows).mapM fun x => do
    let d ← dot x m.featureLogProb
    (List.range m.classes.length).mapM fun (i : Nat) => do
      return (← pyGet d (i : Int)) +ₚ (← pyGet m.classLogPrior (i : Int))

/-- naive_bayes.py:131-136 `ComplementNBPure._joint_log_likelihood` -/
def DiscreteNB.jllComplement (m : DiscreteNB F C) (X : Arr F) : Py (List (List F)) := do
  let jll ← (← X.rows).mapM fun x => dot x m.featureLogProb
  if m.classes.length == 1 then
    jll.mapM fun x => do return [(← pyGet x 0) +ₚ (← pyGet m.classLogPrior 0)]
  else return jll

/-! The base class, over an abstract `_joint_log_likelihood`. -/

/-- naive_bayes.py:21-28 `predict` -/
def nbPredict (jll : Arr F → Py (List (List F))) (classes : List C) (X : Arr F) :
    Py (List C) := do
  let X ← checkArray X .error
  let j ← jll X
  j.mapM fun a => do pyGet classes (← argmax a)

/-- naive_bayes.py:36-40: log-normalise one row -/
def logNormalize (a : List F) : Py (List F) := do
  let lp ← safeLog (pySum (← a.mapM safeExp))
  return a.map fun x => x -ₚ lp

/-- naive_bayes.py:30-40 `predict_log_proba` -/
def nbPredictLogProba (jll : Arr F → Py (List (List F))) (X : Arr F) : Py (List (List F)) := do
  let X ← checkArray X .error
  (← jll X).mapM logNormalize

/-- naive_bayes.py:42-46 `predict_proba` -/
def nbPredictProba (jll : Arr F → Py (List (List F))) (X : Arr F) : Py (List (List F)) := do
  (← nbPredictLogProba jll X).mapM fun a => a.mapM safeExp

end PurePredict
