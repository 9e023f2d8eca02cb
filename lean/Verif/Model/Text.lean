import Verif.Model.Preprocessing
/-
Model of `pure_sklearn/feature_extraction/text.py`.
Strings are lists of characters (`Str`).  Unicode normalisation, lower-casing, regular expression
engines and decoding are parameters (see `Analyzer`).
-/
namespace PurePredict

/-- A Python string as a list of characters. -/
abbrev Str := List Char

/-- `" ".join(tokens)` -/
def spaceJoin : List Str → Str
  | [] => []
  | [t] => t
  | t :: ts => t ++ ' ' :: spaceJoin ts

/-- feature_extraction/text.py:161-163 / 185-187: `f(toks[i : i + n])` for `n` in
`range(lo, hi)` and `i` in `range(len - n + 1)`, in this order -/
def windowsFrom {α β : Type} (f : List α → β) (toks : List α) (lo hi : Nat) : List β :=
  (List.range' lo (hi - lo)).flatMap fun n =>
    (List.range (toks.length + 1 - n)).map fun i => f (pySlice toks i (i + n))

/-- feature_extraction/text.py:137-165 `_word_ngrams`.
`range(min_n, min(max_n + 1, n_tokens + 1))`. -/
def wordNgrams (minN maxN : Nat) (tokens : List Str) (stopWords : Option (List Str)) :
    List Str :=
  let tokens := match stopWords with
    | some sw => tokens.filter fun w => !sw.contains w
    | none => tokens
  if maxN ≠ 1 then
    let original := tokens
    let hi := min (maxN + 1) (original.length + 1)
    if minN = 1 then original ++ windowsFrom spaceJoin original (minN + 1) hi
    else windowsFrom spaceJoin original minN hi
  else tokens

/-- `re.compile(r"\s\s+").sub(" ", text)` (text.py:116, 170, 193): every run of two or more
whitespace characters becomes one space; `pending` is the single whitespace character seen so
far, `inRun` whether a longer run is being skipped. -/
def collapseWs (ws : Char → Bool) : Str → Str
  | [] => []
  | [c] => [c]
  | c :: d :: rest =>
    if ws c && ws d then
      ' ' :: collapseWs ws (rest.dropWhile ws)
    else c :: collapseWs ws (d :: rest)
  termination_by s => s.length
  decreasing_by
    · have := (List.dropWhile_sublist ws (l := rest)).length_le
      simp only [List.length_cons]; omega
    · simp

/-- feature_extraction/text.py:167-188 `_char_ngrams` -/
def charNgrams (ws : Char → Bool) (minN maxN : Nat) (text : Str) : List Str :=
  let text := collapseWs ws text
  let hi := min (maxN + 1) (text.length + 1)
  if minN = 1 then text.map (fun c => [c]) ++ windowsFrom id text (minN + 1) hi
  else windowsFrom id text minN hi

/-- `text.split()`: maximal runs of non-whitespace characters -/
def splitWs (ws : Char → Bool) (s : Str) : List Str :=
  let rec go : Str → Str → List Str
    | [], cur => if cur.isEmpty then [] else [cur.reverse]
    | c :: cs, cur =>
      if ws c then (if cur.isEmpty then go cs [] else cur.reverse :: go cs [])
      else go cs (c :: cur)
  go s []

/-- feature_extraction/text.py:205-211: all windows of size `n` of the padded word `w`
(`w[0:n]`, then `w[offset:offset+n]` while `offset + n < len(w)`), and whether `offset` stayed 0 -/
def wbWindows (w : Str) (n : Nat) : List Str × Bool :=
  ((List.range (w.length - n + 1)).map fun i => pySlice w i (i + n), w.length - n = 0)

/-- feature_extraction/text.py:204-211: the loop over `n` with its `break` -/
def wbSizes (w : Str) : List Nat → List Str
  | [] => []
  | n :: ns =>
    let (l, short) := wbWindows w n
    if short then l else l ++ wbSizes w ns

/-- feature_extraction/text.py:190-212 `_char_wb_ngrams` -/
def charWbNgrams (ws : Char → Bool) (minN maxN : Nat) (text : Str) : List Str :=
  let text := collapseWs ws text
  (splitWs ws text).flatMap fun w =>
    wbSizes ([' '] ++ w ++ [' ']) (List.range' minN (maxN + 1 - minN))

/-- feature_extraction/text.py:34-43 `_preprocess` (order: lower-case, then accents) -/
def preprocess (lower : Option (Str → Str)) (accents : Option (Str → Str)) (doc : Str) : Str :=
  let doc := match lower with
    | some f => f doc
    | none => doc
  match accents with
  | some f => f doc
  | none => doc

/-- feature_extraction/text.py:77-86 `strip_accents_unicode`; `nfkd` and `combining` stand for
`unicodedata`. -/
def stripAccentsUnicode (nfkd : Str → Str) (combining : Char → Bool) (s : Str) : Str :=
  if s.all (fun c => c.toNat < 128) then s
  else (nfkd s).filter fun c => !combining c

/-- feature_extraction/text.py:89-92 `strip_accents_ascii` -/
def stripAccentsAscii (nfkd : Str → Str) (s : Str) : Str :=
  (nfkd s).filter fun c => c.toNat < 128

/-- The `stop_words` attribute. -/
inductive StopWords
  | none
  | str (s : String)
  | list (ws : List Str)

/-- feature_extraction/text.py:100-110 `_check_stop_list` -/
def checkStopList : StopWords → Py (Option (List Str))
  | .str _ => .error .valueError
  | .none => .ok Option.none
  | .list ws => .ok (some ws)

/-- feature_extraction/text.py:224-231: the `strip_accents` setting (a callable cannot survive
`check_types` at conversion unless it is a class; not modelled) -/
inductive StripAccents | none | ascii | unicode | bad
  deriving DecidableEq

inductive AnalyzerKind | word | char | charWb | bad
  deriving DecidableEq

/-- The text library functions the analyser calls: whitespace predicate, `str.lower`,
NFKD normalisation, `unicodedata.combining`, the compiled token pattern's `findall`. -/
structure TextLib where
  ws : Char → Bool
  lower : Str → Str
  nfkd : Str → Str
  combining : Char → Bool
  findall : Str → List Str

/-- Attributes of the vectorizer mixin that drive analysis; text.py:333-349, 454-472.
Custom callables (preprocessor, tokenizer, analyzer) are rejected by `check_types` at conversion
and not modelled; documents are already decoded strings (`input="content"`). -/
structure VectorizerOpts where
  analyzer : AnalyzerKind
  minN : Nat
  maxN : Nat
  stopWords : StopWords
  stripAccents : StripAccents
  lowercase : Bool

/-- feature_extraction/text.py:214-233 `build_preprocessor` -/
def buildPreprocessor (lib : TextLib) (o : VectorizerOpts) : Py (Str → Str) := do
  let acc ← match o.stripAccents with
    | .none => pure Option.none
    | .ascii => pure (some (stripAccentsAscii lib.nfkd))
    | .unicode => pure (some (stripAccentsUnicode lib.nfkd lib.combining))
    | .bad => Except.error PyErr.valueError
  return preprocess (if o.lowercase then some lib.lower else Option.none) acc

/-- feature_extraction/text.py:276-322 `build_analyzer` (with `_analyze`, lines 46-74).
`_check_stop_words_consistency` only records an id and has no effect on the result. -/
def buildAnalyzer (lib : TextLib) (o : VectorizerOpts) : Py (Str → List Str) := do
  let pre ← buildPreprocessor lib o
  match o.analyzer with
  | .char => return fun doc => charNgrams lib.ws o.minN o.maxN (pre doc)
  | .charWb => return fun doc => charWbNgrams lib.ws o.minN o.maxN (pre doc)
  | .word => do
    let sw ← checkStopList o.stopWords
    return fun doc => wordNgrams o.minN o.maxN (lib.findall (pre doc)) sw
  | .bad => .error .valueError

/-! ### CountVectorizer -/

/-- feature_extraction/text.py:359-366: count one feature -/
def countStep (vocab : Dict Str Int) (counter : Dict Int Int) (feature : Str) : Dict Int Int :=
  match vocab.get? feature with
  | some idx =>
    match counter.get? idx with
    | none => counter.set idx 1
    | some c => counter.set idx (c + 1)
  | none => counter

/-- feature_extraction/text.py:357-367: the counts of one document -/
def countDoc (vocab : Dict Str Int) (features : List Str) : Dict Int Int :=
  features.foldl (countStep vocab) []

/-- feature_extraction/text.py:333-349 -/
structure CountVectorizer where
  opts : VectorizerOpts
  vocabulary : Dict Str Int
  binary : Bool
  dtype : DType

variable {F : Type} [Arith F]

/-- feature_extraction/text.py:351-369 `_count_vocab` -/
def CountVectorizer.countVocab (lib : TextLib) (v : CountVectorizer) (docs : List Str) :
    Py (Arr F) := do
  let analyze ← buildAnalyzer lib v.opts
  let data := docs.map fun d =>
    Row.dict ((countDoc v.vocabulary (analyze d)).mapVals (fun (c : Int) => (ofInt c : F)))
  sparseList (.list data) (some v.vocabulary.length) (some v.dtype)

/-- `[dict.fromkeys(x, 1) for x in X]` (text.py:380, 484): a *plain* list of dicts -/
def fromkeysOne (X : Arr F) : Py (Arr F) := do
  let ds ← asDicts (← X.rows)
  return .list (ds.map fun d => Row.dict (d.mapVals fun _ => ofInt 1))

/-- feature_extraction/text.py:371-381 `CountVectorizerPure.transform` on a list of documents
(a bare string raises ValueError, lines 373-376: `none`) -/
def CountVectorizer.transform (lib : TextLib) (v : CountVectorizer) (docs : Option (List Str)) :
    Py (Arr F) := do
  match docs with
  | none => .error .valueError
  | some docs =>
    let X ← v.countVocab lib docs
    if v.binary then fromkeysOne X else return X

/-! ### TfidfTransformer -/

/-- feature_extraction/text.py:411-419 -/
structure Tfidf (F : Type) where
  norm : Option Norm
  useIdf : Bool
  sublinearTf : Bool
  idf : List F
  expectedNFeatures : Nat

/-- feature_extraction/text.py:436-438: scale one row in place.  Rows that are not dicts have no
`.items()`. -/
def tfidfRow (idf : List F) (r : Row F) : Py (Row F) :=
  match r with
  | .dict d => do
    return .dict (← d.mapM fun kv => do return (kv.1, kv.2 *ₚ (← pyGet idf kv.1)))
  | _ => .error .attributeError

/-- Replace the rows of an array object, keeping the object's kind. -/
def Arr.withRows (X : Arr F) (rs : List (Row F)) : Py (Arr F) :=
  match X with
  | .sparse _ size dt => do return .sparse (← asDicts rs) size dt
  | .list _ => .ok (.list rs)
  | _ => .error .typeError

/-- feature_extraction/text.py:421-443 `TfidfTransformerPure.transform`: the result and the
state of the caller's object `X` afterwards (the idf weighting is done in place even with
`copy=True`).  `sublinear_tf` uses a name that is not imported (NameError); so does the
feature-count error message. -/
def Tfidf.transform (t : Tfidf F) (X : Arr F) : Py (Arr F × Arr F) := do
  let X ← checkArray X .allow
  match ← X.shape with
  | .d1 _ => .error .valueError
  | .d2 _ nFeatures =>
    if t.sublinearTf then .error .nameError
    else do
      let X ← if t.useIdf then
          if nFeatures != some t.expectedNFeatures then .error .nameError
          else do X.withRows (← (← X.rows).mapM (tfidfRow t.idf))
        else pure X
      match t.norm with
      | none => return (X, X)
      | some n => return (← normalizePure X n, X)

/-- feature_extraction/text.py:397-400 `TfidfVectorizerPure.transform` -/
def tfidfVectorizerTransform (lib : TextLib) (v : CountVectorizer) (t : Tfidf F)
    (docs : Option (List Str)) : Py (Arr F) := do
  return (← t.transform (← v.transform lib docs)).1

end PurePredict
