import Verif.Lemmas.Utf8
import Verif.Lemmas.Hasher
import Verif.Props.C78
/-
C86: texts are hashed by their UTF-8 bytes.
-/
namespace PurePredict
open Spec

/-! ### The bytes -/

/-- **C86**: the bytes hashed are the UTF-8 encoding of the text as Lean's core library defines it. -/
theorem C86_utf8 (s : Str) : utf8 s = (s.flatMap String.utf8EncodeChar).map UInt8.toNat := by
  rw [← nats_coreUtf8]
  simp [nats, coreUtf8, List.map_map, Function.comp_def]

/-- The same for a `String`. -/
theorem C86_toUTF8 (s : String) : utf8 s.toList = s.toUTF8.data.toList.map UInt8.toNat := by
  have h : s.toUTF8 = s.toList.utf8Encode := String.utf8Encode_toList.symm
  rw [C86_utf8, h]
  simp [List.utf8Encode]

/-- **C86**: bytes are below 256, one to four per character. -/
theorem C86_bytes (s : Str) : (∀ b ∈ utf8 s, b < 256) ∧ s.length ≤ (utf8 s).length ∧
    (utf8 s).length ≤ 4 * s.length := by
  refine ⟨?_, utf8_length s⟩
  rw [C86_utf8]
  intro b hb
  obtain ⟨x, -, rfl⟩ := List.mem_map.1 hb
  exact x.toNat_lt

/-- **C86**: every character can be read back from the beginning of the bytes, so different texts
have different bytes. -/
theorem C86_decodes (c : Char) (s : Str) : readChar (utf8 (c :: s)) = some (c.toNat, utf8 s) :=
  readChar_utf8 c (utf8 s)

theorem C86_injective : Function.Injective utf8 := by
  intro s
  induction s with
  | nil =>
    intro t h
    cases t with
    | nil => rfl
    | cons c t =>
      have := (utf8_length (c :: t)).1
      rw [← h] at this
      simp [utf8] at this
  | cons c s ih =>
    intro t h
    cases t with
    | nil =>
      have := (utf8_length (c :: s)).1
      rw [h] at this
      simp [utf8] at this
    | cons d t =>
      have h1 := C86_decodes c s
      rw [h, C86_decodes d t] at h1
      simp only [Option.some.injEq, Prod.mk.injEq] at h1
      rw [Char.toNat_inj.1 h1.1, ih h1.2.symm]

/-- **C86**: ASCII text is its own encoding. -/
theorem C86_ascii (s : Str) (h : ∀ c ∈ s, c.toNat < 128) : utf8 s = s.map Char.toNat := by
  unfold utf8
  induction s with
  | nil => rfl
  | cons c s ih =>
    rw [List.flatMap_cons, ih fun d hd => h d (List.mem_cons_of_mem _ hd), utf8Char_eq, if_pos (h c (by simp))]
    rfl

/-! ### The hash of a text -/

/-- A token of fewer than 2^30 characters. -/
theorem core_short {t : Str} (h : t.length < 2 ^ 30) : (coreUtf8 t).length < 2 ^ 32 := by
  have h1 : (coreUtf8 t).length = (utf8 t).length := by rw [← nats_coreUtf8]; simp [nats]
  have := (utf8_length t).2
  omega

/-- **C86**: the hash of a text of fewer than 2^30 characters is MurmurHash3 of its UTF-8 bytes. -/
theorem C86_hash (t : Str) (h : t.length < 2 ^ 30) :
    murmur (utf8 t) 0 = (murmur3 (coreUtf8 t) 0#32).toInt := by
  rw [← nats_coreUtf8]
  exact C37_murmur (coreUtf8 t) 0#32 (core_short h)

/-- **C86**, the hashing vectorizer, for documents in which no two tokens share a column: the rows of
the reference hasher on UTF-8 bytes, normalised. -/
theorem C86_vectorizer (lib : TextLib) (v : HashingVectorizer) {an : Str → List Str}
    (han : buildAnalyzer lib v.opts = .ok an) (hb : v.binary = false) (hn : 1 ≤ v.nFeatures)
    (hn' : v.nFeatures ≤ 2147483647) (hnorm : v.norm = none ∨ v.norm = some .l1 ∨ v.norm = some .l2)
    {docs : List Str} (hd : docs ≠ []) (hlen : ∀ d ∈ docs, ∀ t ∈ an d, t.length < 2 ^ 30)
    (hc : ∀ d ∈ docs, ((an d).map (tokColumn coreUtf8 v.nFeatures.toNat)).Nodup) :
    ∃ ds : List (Dict Int ℝ),
      v.transform lib utf8 (some docs) = .ok (.sparse (ds.map finD) (some v.nFeatures.toNat) v.dtype) ∧
      (∀ d ∈ ds, ValidRow v.nFeatures.toNat d) ∧
      ds.map (dense 0 v.nFeatures.toNat) =
        docs.map fun d => scaled v.norm (hashedSums coreUtf8 v.nFeatures.toNat v.alternateSign (an d)) := by
  have h := C78_reference_partial coreUtf8 lib v han hb hn hn' hnorm hd
    (fun d hd t ht => core_short (hlen d hd t ht)) hc
  simpa only [nats_coreUtf8] using h

/-- What the vectorizer computes for any documents: the last token of every column counts. -/
theorem C86_rows (lib : TextLib) (v : HashingVectorizer) {an : Str → List Str}
    (han : buildAnalyzer lib v.opts = .ok an) (hb : v.binary = false) (hn : 1 ≤ v.nFeatures)
    (hn' : v.nFeatures ≤ 2147483647) (hnorm : v.norm = none ∨ v.norm = some .l1 ∨ v.norm = some .l2)
    {docs : List Str} (hd : docs ≠ []) (hlen : ∀ d ∈ docs, ∀ t ∈ an d, t.length < 2 ^ 30) :
    ∃ ds : List (Dict Int ℝ),
      v.transform lib utf8 (some docs) = .ok (.sparse (ds.map finD) (some v.nFeatures.toNat) v.dtype) ∧
      (∀ d ∈ ds, ValidRow v.nFeatures.toNat d) ∧
      ds.map (dense 0 v.nFeatures.toNat) =
        docs.map fun d => scaled v.norm (lastSigns coreUtf8 v.nFeatures.toNat v.alternateSign (an d)) := by
  have h := C78_rows_partial coreUtf8 lib v han hb hn hn' hnorm hd
    (fun d hd t ht => core_short (hlen d hd t ht))
  simpa only [nats_coreUtf8] using h

/-! ### Input types of the hasher -/

section
variable {F : Type} [Arith F]

/-- **C86**: lists of (name, value) pairs and lists of strings are hashed, a string counting as the
pair (string, 1). -/
theorem C86_input_types (n : Nat) (dt : DType) (alt : Bool) (X : List (List Str)) :
    featureHasher (F := F) utf8 .string n dt alt (.strings X) =
      featureHasher utf8 .pair n dt alt (.pairs (X.map fun x => x.map fun f => (f, .num (ofInt 1)))) := rfl

/-- **C86 is false** of mappings, the default input type of the hasher: `_iteritems` is not defined,
every non-empty request raises NameError. -/
theorem C86_dict_false (n : Nat) (hn : 0 < n) (dt : DType) (alt : Bool) (x : List (Str × FeatVal F))
    (X : List (List (Str × FeatVal F))) :
    featureHasher (F := F) utf8 .dict n dt alt (.pairs (x :: X)) = .error .nameError := by
  simp [featureHasher, Nat.pos_iff_ne_zero.1 hn]
end

/-! ### Non-vacuity -/

/-- 'é' is two bytes, '€' three, '😀' four. -/
example : utf8 "é€😀".toList = [0xC3, 0xA9, 0xE2, 0x82, 0xAC, 0xF0, 0x9F, 0x98, 0x80] := by decide

example : readChar (utf8 "é!".toList) = some (233, [33]) := C86_decodes 'é' ['!']

/-- MurmurHash3 of "né" is that of its three bytes. -/
example : murmur (utf8 "né".toList) 0 = (murmur3 [0x6E#8, 0xC3#8, 0xA9#8] 0#32).toInt :=
  C86_hash _ (by decide)

example : utf8 "cat".toList = [99, 97, 116] := C86_ascii _ (by decide)

/-- Two documents of one word each, with real bytes. -/
example : ∃ ds : List (Dict Int ℝ),
    hv78.transform plainLib utf8 (some ["chaîne".toList, "dog".toList]) =
      .ok (.sparse (ds.map finD) (some 8) .float) ∧
    ds.map (dense 0 8) = [unitBy l2norm (hashedSums coreUtf8 8 true ["chaîne".toList]),
      unitBy l2norm (hashedSums coreUtf8 8 true ["dog".toList])] := by
  have h1 : wordNgrams 1 1 (splitWs (· == ' ') "chaîne".toList) none = ["chaîne".toList] := by decide
  have h2 : wordNgrams 1 1 (splitWs (· == ' ') "dog".toList) none = ["dog".toList] := by decide
  obtain ⟨ds, e1, -, e2⟩ := C86_vectorizer plainLib hv78 plain_analyzer rfl (by decide)
    (by decide) (.inr (.inr rfl)) (docs := ["chaîne".toList, "dog".toList]) (by simp) (by
      intro d hd t ht
      simp only [List.mem_cons, List.not_mem_nil, or_false] at hd
      rcases hd with rfl | rfl
      · rw [h1] at ht; rw [List.mem_singleton.1 ht]; decide
      · rw [h2] at ht; rw [List.mem_singleton.1 ht]; decide) (by
      intro d hd
      simp only [List.mem_cons, List.not_mem_nil, or_false] at hd
      rcases hd with rfl | rfl
      · rw [h1]; exact List.nodup_singleton _
      · rw [h2]; exact List.nodup_singleton _)
  refine ⟨ds, e1, e2.trans ?_⟩
  simp only [List.map_cons, List.map_nil, h1, h2]
  rfl

/-- The default input type with one mapping. -/
example : featureHasher (F := Ex) utf8 .dict 8 .float true (.pairs [[("a".toList, .num (ofInt 1))]]) =
    .error .nameError := C86_dict_false 8 (by decide) _ _ _ _

end PurePredict
