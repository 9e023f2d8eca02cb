import Verif.Model.Text
import Verif.Model.Utils
/-
Model of `pure_fasttext/FastText.py`.
-/
namespace PurePredict.FT
variable {F : Type} [Arith F]

/-- FastText.py:11-13 `l2_norm` -/
def l2Norm (arr : List F) : Py F := do Arith.sqrt (pySum (← arr.mapM Arith.sq))

/-- FastText.py:16-22 `div_norm` -/
def divNorm (arr : List F) : Py (List F) := do
  let n ← l2Norm arr
  if ofInt 0 <ₚ n then arr.mapM fun x => do return x *ₚ (← ofInt 1 /ₚ n)
  else return arr

/-- FastText.py:25-34 `dot` -/
def dot (A : List F) (B : List (List F)) : List F :=
  B.map fun b => dotList A b

/-- FastText.py:37-40 `sfmax` (with the maximum subtracted) -/
def sfmax (arr : List F) : Py (List F) := do
  let expons ← arr.mapM fun x => do Arith.exp (x -ₚ (← pyMax arr))
  expons.mapM fun x => x /ₚ pySum expons

/-- Insert into a list sorted by key, after all elements whose key is not greater (stable). -/
def insertKey (key : Nat → F) (i : Nat) : List Nat → List Nat
  | [] => [i]
  | j :: js => if key i <ₚ key j then i :: j :: js else j :: insertKey key i js

/-- FastText.py:43-45 `argsort`: `sorted` is stable and uses `<` only; on totally ordered keys every
stable sort gives the same list, written here as insertion sort.  (With NaN keys the result of
`sorted` depends on the algorithm; not modelled.) -/
def argsort (seq : List F) : List Nat :=
  (List.range seq.length).foldl
    (fun acc i => insertKey (fun j => seq.getD j (ofInt 0)) i acc) []

/-- FastText.py:48-55 `average` -/
def average (l : List (List F)) : Py (List F) :=
  (zipStar l).mapM fun col => pySum col /ₚ ofInt l.length

/-- FastText.py:64-80: attributes of the converted model.  `loss`/`outputMatrix` exist only for
supervised models. -/
structure Model (F : Type) where
  supervised : Bool
  words : List Str
  inputMatrix : List (List F)
  dim : Nat
  labels : List Str
  outputMatrix : List (List F)
  lossSoftmax : Bool

/-- FastText.py:65: the model counts as supervised if its first label (for an unsupervised model:
its first word) contains the label prefix. -/
def isSupervised (prefix' : Str) (labels : List Str) : Py Bool := do
  return isInfix prefix' (← pyGet labels 0)

/-- FastText.py:64-80 `__init__`.  `loss not in ("softmax")` (line 70) is a substring test, as
`("softmax")` is a string. -/
def Model.ofFitted (prefix' : Str) (labels : List Str) (maxn : Int) (loss : Str) (words : List Str)
    (inputMatrix : List (List F)) (dim : Nat) (outputMatrix : List (List F)) : Py (Model F) := do
  let supervised ← isSupervised prefix' labels
  if maxn ≠ 0 ∧ !supervised then .error .valueError
  else if supervised && !isInfix loss "softmax".toList then .error .exception
  else return { supervised, words, inputMatrix, dim, labels, outputMatrix
                lossSoftmax := loss == "softmax".toList }

namespace Model

/-- FastText.py:116-124 `get_word_id` -/
def getWordId (m : Model F) (word : Str) : Int :=
  match m.words.findIdx? (· == word) with
  | some i => (i : Int)
  | none => -1

/-- FastText.py:82-88, 126-130 `get_word_vector` -/
def getWordVector (m : Model F) (word : Str) : Py (List F) :=
  let idx := m.getWordId word
  if idx ≥ 0 then pyGet m.inputMatrix idx
  else .ok (List.replicate m.dim (ofInt 0))

/-- FastText.py:8 -/
def eos : Str := "</s>".toList

/-- FastText.py:90-114 `get_sentence_vector`; `ws` is `str.split`'s whitespace predicate.
(Appending `"\n"` before `split()` has no effect as newline is whitespace.) -/
def getSentenceVector (ws : Char → Bool) (m : Model F) (text : Str) : Py (List F) := do
  if text.contains '\n' then .error .valueError
  else
    let toks := splitWs ws (text ++ ['\n'])
    if m.supervised then
      average (← ((toks ++ [eos]).filter fun w => m.words.contains w).mapM m.getWordVector)
    else do
      let raw ← (toks.filter fun w => m.words.contains w).mapM m.getWordVector
      average (← raw.mapM divNorm)

/-- `l[:k]` for any integer `k` -/
def sliceTo {α : Type} (l : List α) (k : Int) : List α :=
  if 0 ≤ k then l.take k.toNat else l.take (l.length - (-k).toNat)

/-- FastText.py:132-142 `_predict` -/
def predict_ (ws : Char → Bool) (m : Model F) (text : Str) (k : Int) (threshold : F) :
    Py (List Str × List F) := do
  let A ← m.getSentenceVector ws text
  if m.lossSoftmax then
    let preds ← sfmax (FT.dot A m.outputMatrix)
    let order ← (argsort preds).reverse.mapM fun (i : Nat) => do
      return (i, ← pyGet preds (i : Int))
    let sel := sliceTo (order.filter fun p => threshold ≤ₚ p.2) k
    let labels ← sel.mapM fun p => pyGet m.labels (p.1 : Int)
    return (labels, sel.map (·.2))
  else .error .valueError

/-- The `text` argument: a string or a list of strings. -/
inductive Text
  | one (t : Str)
  | many (ts : List Str)

/-- FastText.py:144-165 `predict`.  On a list, `self.f` (line 156) does not exist: AttributeError
before any text is looked at.  The result type is that of a single text. -/
def predict (ws : Char → Bool) (m : Model F) (text : Text) (k : Int) (threshold : F) :
    Py (List (List Str × List F)) := do
  if !m.supervised then .error .valueError
  else match text with
    | .many _ => .error .attributeError
    | .one t => return [← m.predict_ ws t k threshold]

end Model
end PurePredict.FT
