import Verif.Model.Hash
/-
Model of what `pure_sklearn/feature_extraction/text.py` does with raw documents: reading and decoding,
documents that are not texts, callables given by the user, and the check of the stop words.
`Model/Text.lean` starts from documents that are already texts.
-/
namespace PurePredict

/-- A raw document: a text, a bytes object, a number (`nan`: whether `math.isnan` holds), an integer
too large for `math.isnan`, an object with a `read` method and what `read` returns, anything else (None,
lists, dicts, bytearrays: `math.isnan` raises TypeError). -/
inductive RawDoc
  | text (s : Str)
  | bytes (b : List Nat)
  | number (nan : Bool)
  | hugeInt
  | reader (contents : RawDoc)
  | other

/-- The `input` setting (any other string acts as "content"). -/
inductive InputKind | content | filename | file
  deriving DecidableEq

/-- What the vectorizer asks the system: `open(doc, "rb").read()` and
`bytes.decode(encoding, decode_error)`. -/
structure DocIO where
  openRead : RawDoc → Py (List Nat)
  codec : List Nat → Py Str

/-- What `decode` returns, and what callables of the user may return: a text, a number, something
else. -/
inductive Decoded
  | text (s : Str)
  | number
  | other

/-- feature_extraction/text.py:120-125: read the document -/
def readDoc (io : DocIO) (i : InputKind) (d : RawDoc) : Py RawDoc :=
  match i with
  | .filename => do return .bytes (← io.openRead d)
  | .file =>
    match d with
    | .reader c => .ok c
    | _ => .error .attributeError
  | .content => .ok d

/-- feature_extraction/text.py:118-135 `decode` -/
def decodeDoc (io : DocIO) (i : InputKind) (d : RawDoc) : Py Decoded := do
  match ← readDoc io i d with
  | .bytes b => return .text (← io.codec b)
  | .text s => return .text s
  | .number true => .error .valueError
  | .number false => return .number
  | .hugeInt => .error .overflowError
  | .reader _ => .error .typeError
  | .other => .error .typeError

/-- Python's strict UTF-8 codec, one character: the default `encoding="utf-8"`,
`decode_error="strict"` of text.py:128 -/
def utf8Step : List Nat → Option (Char × List Nat)
  | [] => none
  | a :: l =>
    if a < 0x80 then some (Char.ofNat a, l)
    else
      let cont := fun b : Nat => 0x80 ≤ b ∧ b < 0xC0
      match l with
      | [] => none
      | b :: l =>
        if 0xC2 ≤ a ∧ a < 0xE0 ∧ cont b then some (Char.ofNat ((a - 0xC0) * 64 + (b - 0x80)), l)
        else
          match l with
          | [] => none
          | c :: l =>
            let n := (a - 0xE0) * 4096 + (b - 0x80) * 64 + (c - 0x80)
            if 0xE0 ≤ a ∧ a < 0xF0 ∧ cont b ∧ cont c ∧ 0x800 ≤ n ∧ ¬ (0xD800 ≤ n ∧ n < 0xE000) then
              some (Char.ofNat n, l)
            else
              match l with
              | [] => none
              | d :: l =>
                let n := (a - 0xF0) * 262144 + (b - 0x80) * 4096 + (c - 0x80) * 64 + (d - 0x80)
                if 0xF0 ≤ a ∧ a < 0xF5 ∧ cont b ∧ cont c ∧ cont d ∧ 0x10000 ≤ n ∧ n < 0x110000 then
                  some (Char.ofNat n, l)
                else none

/-- `bytes.decode("utf-8", "strict")` (text.py:128); UnicodeDecodeError is a ValueError.  `fuel` bounds
the number of characters. -/
def utf8DecodeN : Nat → List Nat → Py Str
  | _, [] => .ok []
  | 0, _ :: _ => .error .valueError
  | fuel + 1, a :: l =>
    match utf8Step (a :: l) with
    | none => .error .valueError
    | some (c, rest) => do return c :: (← utf8DecodeN fuel rest)

/-- `bytes.decode("utf-8", "strict")`: there are at most as many characters as bytes. -/
def utf8Decode (b : List Nat) : Py Str := utf8DecodeN b.length b

/-- The attributes of the vectorizer mixin (text.py:333-349, 454-472) that are not in `VectorizerOpts`:
the reading of documents and the callables. `check_types` lets classes through (utils.py:12, 32), so `preprocessor`, `tokenizer` and
`analyzer` may be classes.  Tokens are texts.  (A class as `strip_accents` is not modelled.) -/
structure DocOpts where
  input : InputKind
  ownPreprocessor : Option (Decoded → Py Decoded)
  ownTokenizer : Option (Decoded → Py (List Str))
  ownAnalyzer : Option (Decoded → Py (List Str))

/-- feature_extraction/text.py:34-43 `_preprocess` on a decoded document: numbers have no `lower`;
`unicodedata.normalize` refuses them (TypeError), `strip_accents_unicode` asks for `encode` first
(AttributeError). -/
def preprocessDoc (lib : TextLib) (lowercase : Bool) (acc : StripAccents) (d : Decoded) : Py Decoded :=
  match d with
  | .text s =>
    .ok (.text (preprocess (if lowercase then some lib.lower else none)
      (match acc with
        | .ascii => some (stripAccentsAscii lib.nfkd)
        | .unicode => some (stripAccentsUnicode lib.nfkd lib.combining)
        | _ => none) s))
  | d =>
    if lowercase then .error .attributeError
    else
      match acc with
      | .ascii => .error .typeError
      | .unicode => .error .attributeError
      | _ => .ok d

/-- feature_extraction/text.py:214-233 `build_preprocessor` -/
def buildDocPreprocessor (lib : TextLib) (vo : VectorizerOpts) (o : DocOpts) : Py (Decoded → Py Decoded) :=
  match o.ownPreprocessor with
  | some f => .ok f
  | none =>
    if vo.stripAccents = .bad then .error .valueError else .ok (preprocessDoc lib vo.lowercase vo.stripAccents)

/-- `pattern.findall` and `pattern.sub` refuse anything but texts. -/
def onText {α : Type} (f : Str → α) : Decoded → Py α
  | .text s => .ok (f s)
  | _ => .error .typeError

/-- feature_extraction/text.py:235-240 `build_tokenizer` -/
def docTokenizer (lib : TextLib) (o : DocOpts) : Decoded → Py (List Str) :=
  o.ownTokenizer.getD (onText lib.findall)

/-- What a call leaves behind besides its answer: the attribute `_stop_words_id` and the warnings
issued. -/
structure Sess where
  stopId : Option Nat
  warnings : Nat
  deriving DecidableEq

/-- What `_check_stop_words_consistency` returns: None, True or "error". -/
inductive StopVerdict | skipped | consistent | error
  deriving DecidableEq

/-- feature_extraction/text.py:254-259: the tokens of the stop words that are not stop words -/
def inconsistentTokens (sw : List Str) (pre : Decoded → Py Decoded) (tok : Decoded → Py (List Str)) :
    Py (List Str) := do
  let tokens ← sw.mapM fun w => do tok (← pre (.text w))
  return tokens.flatten.filter fun t => !sw.contains t

/-- feature_extraction/text.py:246-274 `_check_stop_words_consistency`; `selfId` is
`id(self.stop_words)`.  The module does not import `warnings`: line 263 raises NameError, which the
handler on line 270 swallows. -/
def checkStopWords (selfId : Nat) (sw : Option (List Str)) (pre : Decoded → Py Decoded)
    (tok : Decoded → Py (List Str)) (s : Sess) : StopVerdict × Sess :=
  if s.stopId = some selfId then (.skipped, s)
  else
    let body : Py Unit := do
      let inconsistent ← inconsistentTokens (sw.getD []) pre tok
      if inconsistent ≠ [] then .error .nameError else .ok ()
    match body with
    | .ok () => (.consistent, { s with stopId := some selfId })
    | .error _ => (.error, { s with stopId := some selfId })

/-- feature_extraction/text.py:276-322 `build_analyzer` with `_analyze` (lines 46-74).
`_validate_custom_analyzer` (line 284) is not defined: AttributeError. -/
def buildDocAnalyzer (lib : TextLib) (io : DocIO) (vo : VectorizerOpts) (o : DocOpts) (selfId : Nat) (s : Sess) :
    Py (RawDoc → Py (List Str)) × Sess :=
  match o.ownAnalyzer with
  | some f =>
    if o.input ≠ .content then (.error .attributeError, s)
    else (.ok fun d => do f (← decodeDoc io o.input d), s)
  | none =>
    match buildDocPreprocessor lib vo o with
    | .error e => (.error e, s)
    | .ok pre =>
      match vo.analyzer with
      | .char => (.ok fun d => do onText (charNgrams lib.ws vo.minN vo.maxN) (← pre (← decodeDoc io o.input d)), s)
      | .charWb => (.ok fun d => do onText (charWbNgrams lib.ws vo.minN vo.maxN) (← pre (← decodeDoc io o.input d)), s)
      | .word =>
        match checkStopList vo.stopWords with
        | .error e => (.error e, s)
        | .ok sw =>
          (.ok fun d => do
            return wordNgrams vo.minN vo.maxN (← docTokenizer lib o (← pre (← decodeDoc io o.input d))) sw,
            (checkStopWords selfId sw pre (docTokenizer lib o) s).2)
      | .bad => (.error .valueError, s)

/-- What is given to `transform`: a bare string, an iterable of documents, something that is not
iterable. -/
inductive RawRequest
  | str
  | docs (ds : List RawDoc)
  | notIterable

/-- A bytes object is an iterable of integers. -/
def RawRequest.ofBytes (b : List Nat) : RawRequest := .docs (b.map fun _ => .number false)

/-- `for doc in raw_documents: analyze(doc)` (text.py:356-358, 482) -/
def analyzeAll (an : RawDoc → Py (List Str)) : RawRequest → Py (List (List Str))
  | .str => .error .valueError
  | .docs ds => ds.mapM an
  | .notIterable => .error .typeError

variable {F : Type} [Arith F]

/-- feature_extraction/text.py:356-369, 379-381: the counts of analysed documents -/
def CountVectorizer.ofTokens (v : CountVectorizer) (tokens : List (List Str)) : Py (Arr F) := do
  let data := tokens.map fun t =>
    Row.dict ((countDoc v.vocabulary t).mapVals (fun (c : Int) => (ofInt c : F)))
  let X ← sparseList (.list data) (some v.vocabulary.length) (some v.dtype)
  if v.binary then fromkeysOne X else return X

/-- feature_extraction/text.py:351-381 `CountVectorizerPure.transform` on raw documents: the answer
and what the call leaves behind -/
def CountVectorizer.transformRaw (lib : TextLib) (io : DocIO) (o : DocOpts) (v : CountVectorizer) (selfId : Nat)
    (s : Sess) (r : RawRequest) : Py (Arr F) × Sess :=
  match r with
  | .str => (.error .valueError, s)
  | r =>
    let (an, s) := buildDocAnalyzer lib io v.opts o selfId s
    (do v.ofTokens (← analyzeAll (← an) r), s)

/-- feature_extraction/text.py:397-400 `TfidfVectorizerPure.transform` on raw documents -/
def tfidfTransformRaw (lib : TextLib) (io : DocIO) (o : DocOpts) (v : CountVectorizer) (t : Tfidf F) (selfId : Nat)
    (s : Sess) (r : RawRequest) : Py (Arr F) × Sess :=
  let (X, s) := v.transformRaw lib io o selfId s r
  (do return (← t.transform (← X)).1, s)

/-- feature_extraction/text.py:474-497 `HashingVectorizerPure.transform` on raw documents: the number
of columns is validated after the analyser is built and before the first document is read -/
def HashingVectorizer.transformRaw (lib : TextLib) (io : DocIO) (encode : Str → List Nat) (o : DocOpts)
    (v : HashingVectorizer) (selfId : Nat) (s : Sess) (r : RawRequest) : Py (Arr F) × Sess :=
  match r with
  | .str => (.error .valueError, s)
  | r =>
    let (an, s) := buildDocAnalyzer lib io v.opts o selfId s
    (do
      let an ← an
      let n ← validateNFeatures v.nFeatures
      let tokens ← analyzeAll an r
      let X ← featureHasher encode .string n v.dtype v.alternateSign (.strings tokens)
      let X ← if v.binary then fromkeysOne X else pure X
      match v.norm with
      | some nm => normalizePure X nm
      | none => return X, s)

end PurePredict
