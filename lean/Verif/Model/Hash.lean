import Verif.Model.Text
/-
Model of `pure_sklearn/feature_extraction/_hash.py` and `HashingVectorizerPure`.
-/
namespace PurePredict

/-- `0xFFFFFFFF` -/
def mask32 : Nat := 0xFFFFFFFF

/-- _hash.py:32-38 `fmix`, on unbounded naturals masked to 32 bits -/
def fmix (h : Nat) : Nat :=
  let h := h ^^^ (h >>> 16)
  let h := (h * 0x85EBCA6B) &&& mask32
  let h := h ^^^ (h >>> 13)
  let h := (h * 0xC2B2AE35) &&& mask32
  h ^^^ (h >>> 16)

/-- _hash.py:45-46 -/
def c1 : Nat := 0xCC9E2D51
/-- _hash.py:45-46 -/
def c2 : Nat := 0x1B873593

/-- _hash.py:59, 80: `(k1 << 15 | k1 >> 17) & 0xFFFFFFFF` -/
def rotl15 (k : Nat) : Nat := ((k <<< 15) ||| (k >>> 17)) &&& mask32

/-- _hash.py:63: `(h1 << 13 | h1 >> 19) & 0xFFFFFFFF` -/
def rotl13 (h : Nat) : Nat := ((h <<< 13) ||| (h >>> 19)) &&& mask32

/-- _hash.py:51-64: one block of four bytes -/
def hashBlock (h1 : Nat) (b0 b1 b2 b3 : Nat) : Nat :=
  let k1 := (b3 <<< 24) ||| (b2 <<< 16) ||| (b1 <<< 8) ||| b0
  let k1 := (c1 * k1) &&& mask32
  let k1 := rotl15 k1
  let k1 := (c2 * k1) &&& mask32
  let h1 := h1 ^^^ k1
  let h1 := rotl13 h1
  (h1 * 5 + 0xE6546B64) &&& mask32

/-- `key[i]` for an index the loops keep in range (see `Lemmas/Murmur.lean`: the default is never
used) -/
def byteAt (key : List Nat) (i : Nat) : Nat := key.getD i 0

/-- _hash.py:48-64: the loop over the blocks (`int(length / 4)` is exact for lengths below
2^53) -/
def hashBlocks (key : List Nat) (seed : Nat) : Nat :=
  (List.range (key.length / 4)).foldl (fun h1 i =>
    hashBlock h1 (byteAt key (4 * i)) (byteAt key (4 * i + 1)) (byteAt key (4 * i + 2))
      (byteAt key (4 * i + 3))) seed

/-- _hash.py:66-82: the remaining bytes -/
def hashTail (key : List Nat) (h1 : Nat) : Nat :=
  let t := key.length / 4 * 4
  let size := key.length &&& 3
  let k1 := 0
  let k1 := if size ≥ 3 then k1 ^^^ (byteAt key (t + 2) <<< 16) else k1
  let k1 := if size ≥ 2 then k1 ^^^ (byteAt key (t + 1) <<< 8) else k1
  let k1 := if size ≥ 1 then k1 ^^^ byteAt key t else k1
  if size > 0 then
    let k1 := (k1 * c1) &&& mask32
    let k1 := rotl15 k1
    let k1 := (k1 * c2) &&& mask32
    h1 ^^^ k1
  else h1

/-- _hash.py:27-89 `_hash` on the encoded key: a signed integer -/
def murmur (key : List Nat) (seed : Nat) : Int :=
  let u := fmix (hashTail key (hashBlocks key seed) ^^^ key.length)
  if u &&& 0x80000000 = 0 then (u : Int)
  else -(((u ^^^ mask32) + 1 : Nat) : Int)

/-- One character of `x.encode()` (_hash.py:20-24; Python's UTF-8 codec).  `Char` has no surrogates;
Python strings with lone surrogates raise UnicodeEncodeError here. -/
def utf8Char (c : Char) : List Nat :=
  let n := c.toNat
  if n < 0x80 then [n]
  else if n < 0x800 then [0xC0 ||| (n >>> 6), 0x80 ||| (n &&& 0x3F)]
  else if n < 0x10000 then [0xE0 ||| (n >>> 12), 0x80 ||| ((n >>> 6) &&& 0x3F), 0x80 ||| (n &&& 0x3F)]
  else [0xF0 ||| (n >>> 18), 0x80 ||| ((n >>> 12) &&& 0x3F), 0x80 ||| ((n >>> 6) &&& 0x3F),
    0x80 ||| (n &&& 0x3F)]

/-- _hash.py:20-24 `_xencode` of a string -/
def utf8 (s : Str) : List Nat := s.flatMap utf8Char

/-- _hash.py:109: `abs(h) % n_features` -/
def hashIndex (h : Int) (nFeatures : Nat) : Nat := h.natAbs % nFeatures

variable {F : Type} [Arith F]

/-- A feature value: a number or a string. -/
inductive FeatVal (F : Type)
  | num (v : F)
  | str (s : Str)

/-- _hash.py:98-112: process one (feature, value) pair of a row.  `row[index] = value`
overwrites.  `encode` is `str.encode()` (UTF-8). -/
def hashStep (encode : Str → List Nat) (nFeatures : Nat) (alternateSign : Bool) (seed : Nat)
    (row : Dict Int F) (fv : Str × FeatVal F) : Dict Int F :=
  let (f, value) : Str × F := match fv.2 with
    | .str s => (fv.1 ++ '=' :: s, ofInt 1)
    | .num v => (fv.1, v)
  if value ==ₚ ofInt 0 then row
  else
    let h := murmur (encode f) seed
    let value := if alternateSign then value *ₚ ofInt ((if h ≥ 0 then 1 else 0) * 2 - 1) else value
    row.set (hashIndex h nFeatures : Int) value

/-- _hash.py:92-114 `_hashing_transform` -/
def hashingTransform (encode : Str → List Nat) (rawX : List (List (Str × FeatVal F)))
    (nFeatures : Nat) (dtype : DType) (alternateSign : Bool) (seed : Nat := 0) : Py (Arr F) := do
  if nFeatures = 0 then .error .assertionError
  else
    let X := rawX.map fun x =>
      Row.dict (x.foldl (hashStep encode nFeatures alternateSign seed) [])
    sparseList (.list X) (some nFeatures) (some dtype)

/-- _hash.py:130-143 `_validate_params` (integral `n_features`) -/
def validateNFeatures (n : Int) : Py Nat :=
  if n < 1 ∨ n ≥ 2147483647 + 1 then .error .valueError else .ok n.toNat

/-- _hash.py:122-128, 139-143: the `input_type`s accepted by `_validate_params` -/
inductive HashInput
  | dict | pair | string
  deriving DecidableEq, Repr

/-- Records given to `_FeatureHasherPure.transform`: mappings or lists of pairs, or lists of strings. -/
inductive HashRecords (F : Type)
  | pairs (X : List (List (Str × FeatVal F)))
  | strings (X : List (List Str))

/-- _hash.py:145-154 `_FeatureHasherPure.transform`.  `_iteritems` is not defined anywhere: with
input_type "dict" the generator raises NameError at the first record.  (Strings given as pairs, and
pairs given as strings, are outside the model: TypeError here.) -/
def featureHasher (encode : Str → List Nat) (inp : HashInput) (nFeatures : Nat) (dtype : DType) (alternateSign : Bool)
    (rawX : HashRecords F) : Py (Arr F) :=
  match inp, rawX with
  | .dict, .pairs (_ :: _) => if nFeatures = 0 then .error .assertionError else .error .nameError
  | .dict, .strings (_ :: _) => if nFeatures = 0 then .error .assertionError else .error .nameError
  | .dict, _ => hashingTransform encode [] nFeatures dtype alternateSign
  | .pair, .pairs X => hashingTransform encode X nFeatures dtype alternateSign
  | .string, .strings X =>
    hashingTransform encode (X.map fun x => x.map fun f => (f, .num (ofInt 1))) nFeatures dtype alternateSign
  | _, _ => .error .typeError

/-- feature_extraction/text.py:454-472 -/
structure HashingVectorizer where
  opts : VectorizerOpts
  nFeatures : Int
  binary : Bool
  norm : Option Norm
  alternateSign : Bool
  dtype : DType

/-- feature_extraction/text.py:474-497 `HashingVectorizerPure.transform`
(with `_FeatureHasherPure.transform`, input_type "string": every token has value 1) -/
def HashingVectorizer.transform (lib : TextLib) (encode : Str → List Nat) (v : HashingVectorizer)
    (docs : Option (List Str)) : Py (Arr F) := do
  match docs with
  | none => .error .valueError
  | some docs =>
    let analyze ← buildAnalyzer lib v.opts
    let n ← validateNFeatures v.nFeatures
    let X ← featureHasher encode .string n v.dtype v.alternateSign (.strings (docs.map analyze))
    let X ← if v.binary then fromkeysOne X else pure X
    match v.norm with
    | some nm => normalizePure X nm
    | none => return X

/-! ### _dict_vectorizer.py -/

/-- feature_extraction/_dict_vectorizer.py:18-25 -/
structure DictVectorizer where
  vocabulary : Dict Str Int
  sparse : Bool
  dtype : DType
  separator : Str

/-- feature_extraction/_dict_vectorizer.py:36-41: one feature of a mapping -/
def DictVectorizer.step (v : DictVectorizer) (row : Dict Int F) (fv : Str × FeatVal F) :
    Py (Dict Int F) :=
  let (f, x) : Str × F := match fv.2 with
    | .str s => (fv.1 ++ v.separator ++ s, ofInt 1)
    | .num x => (fv.1, x)
  match v.vocabulary.get? f with
  | some idx => do return row.set idx (← castTo v.dtype x)
  | none => .ok row

/-- feature_extraction/_dict_vectorizer.py:34-42: one mapping -/
def DictVectorizer.row (v : DictVectorizer) (x : Dict Str (FeatVal F)) : Py (Dict Int F) :=
  x.foldlM v.step []

/-- A single mapping or an iterable of mappings (line 31). -/
inductive DictInput (F : Type)
  | one (x : Dict Str (FeatVal F))
  | many (xs : List (Dict Str (FeatVal F)))

/-- feature_extraction/_dict_vectorizer.py:27-46 `transform` -/
def DictVectorizer.transform (v : DictVectorizer) (X : DictInput F) : Py (Arr F) := do
  let X := match X with
    | .one x => [x]
    | .many xs => xs
  let data ← X.mapM v.row
  let result ← sparseList (.list (data.map Row.dict)) (some v.vocabulary.length) (some v.dtype)
  if !v.sparse then todense result else return result

end PurePredict
