import Verif.Py.Arr
/-
Model of `performance_comparison` (pure_sklearn/utils.py:187-226).  What `pickle`, the clock and the two estimators do are
parameters; what is printed is kept as a list of lines, also when an exception ends the function.
-/
namespace PurePredict
variable {F : Type} [Arith F]

/-- A printed line. -/
inductive Line (F : Type)
  | sizeSk (n : Nat)
  | sizePure (n : Nat)
  | loadSk (t : F)
  | loadPure (t : F)
  | predictSk (t : F)
  | predictPure (t : F)
  | difference (q : F)

/-- The argument `X`: a list of rows, a `sparse_list`, a numpy array, or a table without a method `tolist` (a DataFrame, a
scipy matrix). -/
inductive Given (F : Type)
  | list (rows : List (Row F))
  | sparseList (rows : List (Dict Int F)) (size : Option Nat) (dtype : DType)
  | ndarray (rows : List (List F))
  | table (rows : List (List F))

/-- utils.py:216 `X[:1]`.  A slice of a `sparse_list` is a plain `list` (of dicts): the class does not override slicing. -/
def Given.first : Given F → Given F
  | .list rs => .list (rs.take 1)
  | .sparseList rs _ _ => .list ((rs.take 1).map .dict)
  | .ndarray rs => .ndarray (rs.take 1)
  | .table rs => .table (rs.take 1)

/-- utils.py:217 `X_pred if isinstance(X_pred, list) else X_pred.tolist()` -/
def Given.toPure : Given F → Py (Arr F)
  | .list rs => .ok (.list rs)
  | .sparseList rs s d => .ok (.sparse rs s d)
  | .ndarray rs => .ok (.ofMat rs)
  | .table _ => .error .attributeError

/-- What the function uses of its surroundings: `pickle.dumps` gives the sizes, `pickle.loads` may raise, `time.time()` gives
one reading per call. -/
structure Setting (F : Type) where
  dumpSk : Py Nat
  dumpPure : Py Nat
  loadSk : Py Unit
  loadPure : Py Unit
  predictSk : Given F → Py Unit
  predictPure : Arr F → Py Unit
  clock : Nat → F

/-- Computations that print. -/
abbrev Prof (F α : Type) := ExceptT PyErr (StateM (List (Line F))) α

/-- `print(...)` -/
def say (l : Line F) : Prof F Unit := modify (· ++ [l])

/-- a computation that does not print -/
def quiet {α : Type} (p : Py α) : Prof F α := ExceptT.mk (pure p)

/-- utils.py:198-202: sizes -/
def Setting.sizes (s : Setting F) : Prof F Unit := do
  let a ← quiet s.dumpSk
  let b ← quiet s.dumpPure
  say (.sizeSk a)
  say (.sizePure b)
  say (.difference (← quiet (ofInt b /ₚ ofInt a)))

/-- utils.py:204-213: loading -/
def Setting.loading (s : Setting F) : Prof F Unit := do
  quiet s.loadSk
  let t := s.clock 1 -ₚ s.clock 0
  say (.loadSk t)
  quiet s.loadPure
  let t' := s.clock 3 -ₚ s.clock 2
  say (.loadPure t')
  say (.difference (← quiet (t' /ₚ t)))

/-- utils.py:215-226: prediction for the first record -/
def Setting.predicting (s : Setting F) (X : Given F) : Prof F Unit := do
  let x ← quiet X.first.toPure
  quiet (s.predictSk X.first)
  let t := s.clock 5 -ₚ s.clock 4
  say (.predictSk t)
  quiet (s.predictPure x)
  let t' := s.clock 7 -ₚ s.clock 6
  say (.predictPure t')
  say (.difference (← quiet (t' /ₚ t)))

/-- utils.py:187-226 `performance_comparison`: the exception, if any, and the lines printed -/
def performanceComparison (s : Setting F) (X : Given F) : Py Unit × List (Line F) :=
  ((do s.sizes; s.loading; s.predicting X : Prof F Unit).run).run []

end PurePredict
