import Verif.Model.Ensemble
/-
A small object heap for the aliasing property: which lists returned to the caller are the model's
own lists.
-/
namespace PurePredict.Heap
variable {F : Type}

/-- Addresses of mutable Python lists of numbers. -/
abbrev Addr := Nat

/-- The store: address `a` holds the list `h[a]`. -/
abbrev Store (F : Type) := List (List F)

/-- Read a list object. -/
def read (h : Store F) (a : Addr) : Py (List F) := pyGet h (a : Int)

/-- Any in-place change of the list object at `a` (`l[j] = v`, `l.append(v)`, `l.clear()`, …). -/
def mutate (h : Store F) (a : Addr) (f : List F → List F) : Store F := h.modify a f

/-- Create a fresh list object. -/
def alloc (h : Store F) (l : List F) : Store F × Addr := (h ++ [l], h.length)

/-- Create a fresh list object for each row. -/
def allocAll (h : Store F) : List (List F) → Store F × List Addr
  | [] => (h, [])
  | l :: ls =>
    let (h, a) := alloc h l
    let (h, as) := allocAll h ls
    (h, a :: as)

/-- A method call: it may create lists, and returns a list of list objects. -/
abbrev Call (F : Type) := Store F → Py (Store F × List Addr)

/-- The contents of list objects. -/
def contents (h : Store F) (as : List Addr) : Py (List (List F)) := as.mapM (read h)

/-- What the caller sees in the result of a call. -/
def Call.value (c : Call F) (h : Store F) : Py (List (List F)) := do
  let (h', as) ← c h
  contents h' as

/-- A call that builds its result by list comprehensions from what `compute` returns. -/
def freshCall (compute : Store F → Py (List (List F))) : Call F := fun h => do
  return allocAll h (← compute h)

/-- A DummyClassifier whose `class_prior_` attribute is the object at this address;
dummy.py:28. -/
structure DummyObj where
  classPrior : Addr

/-- dummy.py:36-37 `predict_proba`: `[self.class_prior_] * len(X)`; the rows of the result are
all the attribute object itself; nothing is allocated. -/
def DummyObj.predictProba (d : DummyObj) (n : Nat) : Call F := fun h =>
  .ok (h, List.replicate n d.classPrior)

/-- dummy.py:39-40 `predict_log_proba`: `apply_2d` builds new lists -/
def DummyObj.predictLogProba [Arith F] (d : DummyObj) (n : Nat) : Call F := freshCall fun h => do
  (← (d.predictProba n : Call F).value h).mapM fun r => r.mapM safeLog

/-- dummy.py:33-34 `predict`: plain integers, nothing aliased -/
def DummyObj.predict [Arith F] (d : DummyObj) (h : Store F) (n : Nat) : Py (List Nat) := do
  return List.replicate n (← argmax (← read h d.classPrior))

/-- A fastText model whose `input_matrix_` rows are the objects at these addresses;
FastText.py:73. -/
structure FastTextObj where
  words : List String
  inputMatrix : List Addr
  dim : Nat

/-- FastText.py:82-88, 126-130 `get_word_vector`: returns the matrix row object itself for a
known word, a new list otherwise. -/
def FastTextObj.getWordVector (zero : F) (m : FastTextObj) (w : String) : Call F := fun h =>
  match m.words.findIdx? (· == w) with
  | some i => do return (h, [← pyGet m.inputMatrix (i : Int)])
  | none => .ok (allocAll h [List.replicate m.dim zero])

/-- A tree whose leaf values are the objects at these addresses; tree/_classes.py:48. -/
structure TreeObj where
  value : List Addr

/-- tree/_classes.py:86-87: the row computed for one leaf -/
def TreeObj.leafProba [Arith F] (t : TreeObj) (h : Store F) (nd : Int) : Py (List F) := do
  let v ← read h (← pyGet t.value nd)
  v.mapM fun a => a /ₚ pySum v

/-- tree/_classes.py:95-98 `predict_proba` for records that reach the leaves `nds`: the list
comprehension of line 87 allocates a new list for every record -/
def TreeObj.predictProba [Arith F] (t : TreeObj) (nds : List Int) : Call F :=
  fun h => nds.foldlM (fun (acc : Store F × List Addr) nd => do
    let row ← t.leafProba acc.1 nd
    let (h', a) := alloc acc.1 row
    return (h', acc.2 ++ [a])) (h, [])

/-- tree/_classes.py:100-101 `predict_log_proba` -/
def TreeObj.predictLogProba [Arith F] (t : TreeObj) (nds : List Int) : Call F := freshCall fun h => do
  (← (t.predictProba nds : Call F).value h).mapM fun r => r.mapM safeLog

/-- ensemble/_bagging.py:38-46 `predict_proba`: `operate_2d` and `apply_2d` build new lists, also
when a member returns its own objects.  `calls` are the members' `predict_proba` on the (sliced)
request. -/
def baggingPredictProba [Arith F] (calls : List (Call F)) : Call F := freshCall fun h => do
  let first ← match calls with
    | [] => .error .indexError
    | c :: _ => c.value h
  let proba ← (calls.drop 1).foldlM (fun (proba : List (List F)) c => do
    operate2d (.ofMat proba) (.ofMat (← c.value h)) Arith.add) first
  apply2d (.ofMat proba) fun x => x /ₚ ofInt calls.length

end PurePredict.Heap
