import Verif.Spec.Documents
import Verif.Lemmas.Utf8
import Verif.Lemmas.Text
/-
C93: raw documents: bytes, files, documents that are not texts, callables of the user, stop words.
-/
namespace PurePredict
open Spec

/-! ### UTF-8 -/

theorem toNat_charOfNat {n : Nat} (h : n.isValidChar) : (Char.ofNat n).toNat = n := by
  unfold Char.ofNat
  rw [dif_pos h]
  rfl

theorem charOfNat_eq {n : Nat} {c : Char} (h : n = c.toNat) : Char.ofNat n = c := by
  rw [h]; exact Char.ofNat_toNat c

theorem char_valid (c : Char) : c.toNat < 55296 ∨ 57343 < c.toNat ∧ c.toNat < 1114112 := c.valid

theorem utf8Step_char (c : Char) (rest : List Nat) : utf8Step (utf8Char c ++ rest) = some (c, rest) := by
  have hc := char_valid c
  rw [utf8Char_eq]
  by_cases h1 : c.toNat < 128
  · rw [if_pos h1]
    simp [utf8Step, h1]
  rw [if_neg h1]
  by_cases h2 : c.toNat < 2048
  · rw [if_pos h2]
    simp only [utf8Step, List.cons_append, List.nil_append]
    rw [if_neg (by omega), if_pos (by omega), charOfNat_eq (c := c) (by omega)]
  rw [if_neg h2]
  by_cases h3 : c.toNat < 65536
  · rw [if_pos h3]
    simp only [utf8Step, List.cons_append, List.nil_append]
    rw [if_neg (by omega), if_neg (by omega), if_pos (by omega), charOfNat_eq (c := c) (by omega)]
  rw [if_neg h3]
  simp only [utf8Step, List.cons_append, List.nil_append]
  rw [if_neg (by omega), if_neg (by omega), if_neg (by omega), if_pos (by omega), charOfNat_eq (c := c) (by omega)]

theorem utf8Step_some {b rest : List Nat} {c : Char} (h : utf8Step b = some (c, rest)) : b = utf8Char c ++ rest := by
  cases b with
  | nil => cases h
  | cons a l =>
    simp only [utf8Step] at h
    by_cases h1 : a < 128
    · rw [if_pos h1] at h
      simp only [Option.some.injEq, Prod.mk.injEq] at h
      obtain ⟨rfl, rfl⟩ := h
      rw [utf8Char_eq, toNat_charOfNat (Or.inl (by omega)), if_pos h1]
      rfl
    rw [if_neg h1] at h
    cases l with
    | nil => cases h
    | cons b l =>
      simp only at h
      by_cases h2 : 0xC2 ≤ a ∧ a < 0xE0 ∧ 0x80 ≤ b ∧ b < 0xC0
      · rw [if_pos h2] at h
        simp only [Option.some.injEq, Prod.mk.injEq] at h
        obtain ⟨rfl, rfl⟩ := h
        rw [utf8Char_eq, toNat_charOfNat (Or.inl (by omega)), if_neg (by omega), if_pos (by omega)]
        simp only [List.cons_append, List.nil_append, List.cons.injEq, and_true]
        omega
      rw [if_neg h2] at h
      cases l with
      | nil => cases h
      | cons c' l =>
        simp only at h
        split at h
        · rename_i h3
          simp only [Option.some.injEq, Prod.mk.injEq] at h
          obtain ⟨rfl, rfl⟩ := h
          rw [utf8Char_eq, toNat_charOfNat (by unfold Nat.isValidChar; omega), if_neg (by omega), if_neg (by omega),
            if_pos (by omega)]
          simp only [List.cons_append, List.nil_append, List.cons.injEq, and_true]
          omega
        · cases l with
          | nil => cases h
          | cons d l =>
            simp only at h
            split at h
            · rename_i h3
              simp only [Option.some.injEq, Prod.mk.injEq] at h
              obtain ⟨rfl, rfl⟩ := h
              rw [utf8Char_eq, toNat_charOfNat (by unfold Nat.isValidChar; omega), if_neg (by omega), if_neg (by omega),
                if_neg (by omega)]
              simp only [List.cons_append, List.nil_append, List.cons.injEq, and_true]
              omega
            · cases h

theorem utf8DecodeN_iff : ∀ (n : Nat) (b : List Nat) (s : Str), b.length ≤ n →
    (utf8DecodeN n b = .ok s ↔ b = utf8 s) := by
  intro n
  induction n with
  | zero =>
    intro b s hn
    have : b = [] := List.length_eq_zero_iff.1 (by omega)
    subst this
    rw [utf8DecodeN]
    constructor
    · intro h; cases h; rfl
    · intro h
      have := (utf8_length s).1
      rw [← h] at this
      rw [(List.length_eq_zero_iff.1 (by simpa using this) : s = [])]
  | succ n ih =>
    intro b s hn
    cases b with
    | nil =>
      rw [utf8DecodeN]
      constructor
      · intro h; cases h; rfl
      · intro h
        have := (utf8_length s).1
        rw [← h] at this
        rw [(List.length_eq_zero_iff.1 (by simpa using this) : s = [])]
    | cons a l =>
      rw [utf8DecodeN]
      constructor
      · intro h
        split at h
        · cases h
        · rename_i c rest hc
          have hb := utf8Step_some hc
          have hl := congrArg List.length hb
          have := (utf8Char_length c).1
          simp only [List.length_append, List.length_cons] at hl hn
          obtain ⟨t, ht, h⟩ := bind_ok_iff.1 h
          cases h
          rw [hb, (ih rest t (by omega)).1 ht]
          rfl
      · intro h
        cases s with
        | nil => cases h
        | cons c s =>
          have hb : utf8Step (a :: l) = some (c, utf8 s) := by
            rw [h, utf8, List.flatMap_cons]; exact utf8Step_char c _
          have hl := congrArg List.length h
          have := (utf8Char_length c).1
          rw [utf8, List.flatMap_cons, ← utf8] at hl
          simp only [List.length_append, List.length_cons] at hl hn
          simp only [hb, (ih (utf8 s) s (by omega)).2 rfl]
          rfl

theorem utf8DecodeN_error : ∀ (n : Nat) (b : List Nat) (e : PyErr), utf8DecodeN n b = .error e → e = .valueError := by
  intro n
  induction n with
  | zero => intro b e h; cases b <;> simp [utf8DecodeN] at h; exact h.symm
  | succ n ih =>
    intro b e h
    cases b with
    | nil => simp [utf8DecodeN] at h
    | cons a l =>
      rw [utf8DecodeN] at h
      split at h
      · cases h; rfl
      · rename_i c rest hc
        cases hr : utf8DecodeN n rest with
        | error e' => rw [hr] at h; cases h; exact ih rest _ hr
        | ok t => rw [hr] at h; cases h

/-- **C93**: strict UTF-8 decoding gives back exactly the text whose encoding the bytes are; all other
byte strings are refused with UnicodeDecodeError (a ValueError). -/
theorem C93_utf8 (b : List Nat) :
    (∀ s, utf8Decode b = .ok s ↔ b = utf8 s) ∧ ((∀ s, b ≠ utf8 s) → utf8Decode b = .error .valueError) := by
  have h1 : ∀ s, utf8Decode b = .ok s ↔ b = utf8 s := fun s => utf8DecodeN_iff b.length b s le_rfl
  refine ⟨h1, fun h => ?_⟩
  cases hb : utf8Decode b with
  | ok s => exact absurd ((h1 s).1 hb) (h s)
  | error e => rw [utf8DecodeN_error _ _ _ hb]

/-! ### What a document says -/

section
variable {lib : TextLib} {io : DocIO} {vo : VectorizerOpts} {o : DocOpts}

/-- No callables of the user. -/
def DocOpts.Plain (o : DocOpts) : Prop :=
  o.ownPreprocessor = none ∧ o.ownTokenizer = none ∧ o.ownAnalyzer = none

theorem decodeDoc_says {i : InputKind} {d : RawDoc} {s : Str} (h : Says io i d s) :
    decodeDoc io i d = .ok (.text s) := by
  have hc : ∀ {c s}, Says io .content c s → decodeDoc io .content c = .ok (.text s) := by
    intro c s h
    cases h with
    | text => rfl
    | bytes hb => simp [decodeDoc, readDoc, hb]
  cases h with
  | text => exact hc (.text _)
  | bytes hb => exact hc (.bytes hb)
  | file h => exact hc h
  | filename h1 h2 => simp [decodeDoc, readDoc, h1, h2]

/-- **C93**: every document either has a text or is refused with one error. -/
theorem C93_says_or_refused (io : DocIO) (vo : VectorizerOpts) (i : InputKind) (d : RawDoc) :
    (∃ s, Says io i d s) ∨ ∃ e, Refused io vo i d e := by
  have hc : ∀ c, (∃ s, Says io .content c s) ∨ ∃ e, Refused io vo .content c e := by
    intro c
    cases c with
    | text s => exact .inl ⟨s, .text s⟩
    | bytes b =>
      cases hb : io.codec b with
      | ok s => exact .inl ⟨s, .bytes hb⟩
      | error e => exact .inr ⟨e, .undecodable hb⟩
    | number n =>
      cases n with
      | true => exact .inr ⟨_, .nan⟩
      | false =>
        by_cases h : vo.lowercase = true ∨ vo.stripAccents = .unicode
        · exact .inr ⟨_, .numberAttribute h⟩
        · rw [not_or] at h
          exact .inr ⟨_, .numberType (by simpa using h.1) h.2⟩
    | hugeInt => exact .inr ⟨_, .huge⟩
    | reader c => exact .inr ⟨_, .reader c⟩
    | other => exact .inr ⟨_, .other⟩
  cases i with
  | content => exact hc d
  | filename =>
    cases hd : io.openRead d with
    | error e => exact .inr ⟨e, .noFile hd⟩
    | ok b =>
      cases hb : io.codec b with
      | ok s => exact .inl ⟨s, .filename hd hb⟩
      | error e => exact .inr ⟨e, .fileUndecodable hd hb⟩
  | file =>
    by_cases h : ∃ c, d = .reader c
    · obtain ⟨c, rfl⟩ := h
      rcases hc c with ⟨s, h⟩ | ⟨e, h⟩
      · exact .inl ⟨s, .file h⟩
      · exact .inr ⟨e, .file h⟩
    · exact .inr ⟨_, .noRead fun c hd => h ⟨c, hd⟩⟩

/-- Refused while decoding, or decoded to a number and refused while preprocessing. -/
theorem decodeDoc_refused {i : InputKind} {d : RawDoc} {e : PyErr} (h : Refused io vo i d e) :
    decodeDoc io i d = .error e ∨
      (decodeDoc io i d = .ok .number ∧
        ((e = .attributeError ∧ (vo.lowercase = true ∨ vo.stripAccents = .unicode)) ∨
         (e = .typeError ∧ vo.lowercase = false ∧ vo.stripAccents ≠ .unicode))) := by
  have hc : ∀ {c e}, Refused io vo .content c e → decodeDoc io .content c = .error e ∨
      (decodeDoc io .content c = .ok .number ∧
        ((e = .attributeError ∧ (vo.lowercase = true ∨ vo.stripAccents = .unicode)) ∨
         (e = .typeError ∧ vo.lowercase = false ∧ vo.stripAccents ≠ .unicode))) := by
    intro c e h
    cases h with
    | undecodable hb => exact .inl (by simp [decodeDoc, readDoc, hb])
    | nan => exact .inl rfl
    | numberAttribute h => exact .inr ⟨rfl, .inl ⟨rfl, h⟩⟩
    | numberType h1 h2 => exact .inr ⟨rfl, .inr ⟨rfl, h1, h2⟩⟩
    | huge => exact .inl rfl
    | reader c => exact .inl rfl
    | other => exact .inl rfl
  cases i with
  | content => exact hc h
  | file =>
    cases h with
    | file h => exact hc h
    | noRead h =>
      refine .inl ?_
      cases d with
      | reader c => exact absurd rfl (h c)
      | _ => rfl
  | filename =>
    cases h with
    | noFile h => exact .inl (by simp [decodeDoc, readDoc, h])
    | fileUndecodable h1 h2 => exact .inl (by simp [decodeDoc, readDoc, h1, h2])

theorem preprocessDoc_text (hv : vo.stripAccents ≠ .bad) {pre : Str → Str} (hp : buildPreprocessor lib vo = .ok pre)
    (s : Str) : preprocessDoc lib vo.lowercase vo.stripAccents (.text s) = .ok (.text (pre s)) := by
  cases h : vo.stripAccents <;> simp only [buildPreprocessor, h, py_pure, py_ok_bind, Except.ok.injEq] at hp
  · subst hp; rfl
  · subst hp; rfl
  · subst hp; rfl
  · exact absurd h hv

theorem preprocessDoc_number {α : Type} (f : Str → α) (hv : vo.stripAccents ≠ .bad) {e : PyErr}
    (h : (e = .attributeError ∧ (vo.lowercase = true ∨ vo.stripAccents = .unicode)) ∨
         (e = .typeError ∧ vo.lowercase = false ∧ vo.stripAccents ≠ .unicode)) :
    (do onText f (← preprocessDoc lib vo.lowercase vo.stripAccents .number)) = .error e := by
  cases hl : vo.lowercase <;> cases ha : vo.stripAccents <;> rw [hl, ha] at h <;> rw [ha] at hv <;>
    simp at h hv <;> subst h <;> rfl

/-- The analyser without callables of the user, on documents with a text and on refused documents. -/
theorem docAnalyzer_plain (ho : o.Plain) (id : Nat) (s : Sess) :
    (∀ e, buildAnalyzer lib vo = .error e → (buildDocAnalyzer lib io vo o id s).1 = .error e) ∧
    (∀ f, buildAnalyzer lib vo = .ok f → ∃ an, (buildDocAnalyzer lib io vo o id s).1 = .ok an ∧
      (∀ d t, Says io o.input d t → an d = .ok (f t)) ∧
      (∀ d e, Refused io vo o.input d e → an d = .error e)) := by
  obtain ⟨h1, h2, h3⟩ := ho
  by_cases hv : vo.stripAccents = .bad
  · have hb : buildPreprocessor lib vo = .error .valueError := by simp [buildPreprocessor, hv]
    have hb' : buildAnalyzer lib vo = .error .valueError := by simp [buildAnalyzer, hb]
    refine ⟨fun e he => ?_, fun f hf => ?_⟩
    · rw [hb'] at he; cases he
      simp [buildDocAnalyzer, h3, buildDocPreprocessor, h1, hv]
    · rw [hb'] at hf; cases hf
  · obtain ⟨pre, hp⟩ : ∃ pre, buildPreprocessor lib vo = .ok pre := by
      cases h : vo.stripAccents <;> simp [buildPreprocessor, h] at hv ⊢
    have hd : buildDocPreprocessor lib vo o = .ok (preprocessDoc lib vo.lowercase vo.stripAccents) := by
      simp [buildDocPreprocessor, h1, hv]
    have ht : docTokenizer lib o = onText lib.findall := by simp [docTokenizer, h2]
    have key : ∀ {α : Type} (g : Str → α),
        (∀ d t, Says io o.input d t →
          (do onText g (← preprocessDoc lib vo.lowercase vo.stripAccents (← decodeDoc io o.input d))) = .ok (g (pre t))) ∧
        (∀ d e, Refused io vo o.input d e →
          (do onText g (← preprocessDoc lib vo.lowercase vo.stripAccents (← decodeDoc io o.input d))) = .error e) := by
      intro α g
      refine ⟨fun d t h => ?_, fun d e h => ?_⟩
      · simp only [decodeDoc_says h, py_ok_bind, preprocessDoc_text hv hp]
        rfl
      · rcases decodeDoc_refused h with h | ⟨h, he⟩
        · simp only [h, py_error_bind]
        · simp only [h, py_ok_bind]
          exact preprocessDoc_number g hv he
    simp only [buildAnalyzer, hp, py_ok_bind, buildDocAnalyzer, h3, hd]
    cases vo.analyzer with
    | char =>
      refine ⟨fun e he => (by cases he), fun f hf => ?_⟩
      cases hf
      exact ⟨_, rfl, key _⟩
    | charWb =>
      refine ⟨fun e he => (by cases he), fun f hf => ?_⟩
      cases hf
      exact ⟨_, rfl, key _⟩
    | bad =>
      refine ⟨fun e he => ?_, fun f hf => (by cases hf)⟩
      cases he; rfl
    | word =>
      simp only
      cases hs : checkStopList vo.stopWords with
      | error e' =>
        refine ⟨fun e he => ?_, fun f hf => (by cases hf)⟩
        cases he; rfl
      | ok sw =>
        refine ⟨fun e he => (by cases he), fun f hf => ?_⟩
        cases hf
        refine ⟨_, rfl, fun d t h => ?_, fun d e h => ?_⟩
        · have := (key lib.findall).1 d t h
          obtain ⟨x, hx, this⟩ := bind_ok_iff.1 this
          obtain ⟨y, hy, this⟩ := bind_ok_iff.1 this
          simp only [hx, hy, py_ok_bind, ht, this]
          rfl
        · have := (key lib.findall).2 d e h
          rw [ht]
          cases hx : decodeDoc io o.input d with
          | error e' => rw [hx] at this; cases this; rfl
          | ok x =>
            rw [hx] at this
            simp only [py_ok_bind] at this ⊢
            cases hy : preprocessDoc lib vo.lowercase vo.stripAccents x with
            | error e' => rw [hy] at this; cases this; rfl
            | ok y =>
              rw [hy] at this
              simp only [py_ok_bind] at this ⊢
              rw [this]
              rfl

theorem mapM_says {an : RawDoc → Py (List Str)} {f : Str → List Str}
    (h : ∀ d t, Says io o.input d t → an d = .ok (f t)) {ds : List RawDoc} {ts : List Str}
    (hd : List.Forall₂ (Says io o.input) ds ts) : ds.mapM an = .ok (ts.map f) := by
  induction hd with
  | nil => rfl
  | cons h1 _ ih => rw [List.mapM_cons, h _ _ h1, ih]; rfl

theorem mapM_refused {an : RawDoc → Py (List Str)} {f : Str → List Str}
    (h : ∀ d t, Says io o.input d t → an d = .ok (f t)) {ds : List RawDoc} {ts : List Str}
    (hd : List.Forall₂ (Says io o.input) ds ts) {d : RawDoc} {e : PyErr} (he : an d = .error e) (rest : List RawDoc) :
    (ds ++ d :: rest).mapM an = .error e := by
  induction hd with
  | nil => rw [List.nil_append, List.mapM_cons, he]; rfl
  | cons h1 _ ih => rw [List.cons_append, List.mapM_cons, h _ _ h1, ih]; rfl

variable {F : Type} [Arith F]

theorem count_transform_eq (v : CountVectorizer) (docs : List Str) :
    (v.transform lib (some docs) : Py (Arr F)) = (do v.ofTokens (docs.map (← buildAnalyzer lib v.opts))) := by
  simp only [CountVectorizer.transform, CountVectorizer.countVocab]
  cases buildAnalyzer lib v.opts with
  | error e => rfl
  | ok f => simp only [py_ok_bind, CountVectorizer.ofTokens, List.map_map, Function.comp_def]

/-- **C93**: documents given as texts, bytes, open files or file names are counted as their texts. -/
theorem C93_count (v : CountVectorizer) (ho : o.Plain) (id : Nat) (s : Sess) {ds : List RawDoc} {ts : List Str}
    (hd : List.Forall₂ (Says io o.input) ds ts) :
    (v.transformRaw lib io o id s (.docs ds)).1 = (v.transform lib (some ts) : Py (Arr F)) := by
  rw [count_transform_eq]
  obtain ⟨h1, h2⟩ := docAnalyzer_plain (lib := lib) (io := io) (vo := v.opts) ho id s
  simp only [CountVectorizer.transformRaw]
  cases hb : buildAnalyzer lib v.opts with
  | error e => simp only [h1 e hb, py_error_bind]
  | ok f =>
    obtain ⟨an, han, hs, -⟩ := h2 f hb
    simp only [han, py_ok_bind, analyzeAll, mapM_says hs hd]

/-- **C93**: the same for the tf-idf vectorizer. -/
theorem C93_tfidf (v : CountVectorizer) (t : Tfidf F) (ho : o.Plain) (id : Nat) (s : Sess) {ds : List RawDoc}
    {ts : List Str} (hd : List.Forall₂ (Says io o.input) ds ts) :
    (tfidfTransformRaw lib io o v t id s (.docs ds)).1 = tfidfVectorizerTransform lib v t (some ts) := by
  have := C93_count (F := F) (lib := lib) v ho id s hd
  simp only [tfidfTransformRaw, tfidfVectorizerTransform, this]

/-- **C93**: the same for the hashing vectorizer. -/
theorem C93_hashing (encode : Str → List Nat) (v : HashingVectorizer) (ho : o.Plain) (id : Nat) (s : Sess)
    {ds : List RawDoc} {ts : List Str} (hd : List.Forall₂ (Says io o.input) ds ts) :
    (v.transformRaw lib io encode o id s (.docs ds)).1 = (v.transform lib encode (some ts) : Py (Arr F)) := by
  obtain ⟨h1, h2⟩ := docAnalyzer_plain (lib := lib) (io := io) (vo := v.opts) ho id s
  simp only [HashingVectorizer.transformRaw, HashingVectorizer.transform]
  cases hb : buildAnalyzer lib v.opts with
  | error e => simp only [h1 e hb, py_error_bind]
  | ok f =>
    obtain ⟨an, han, hs, -⟩ := h2 f hb
    simp only [han, py_ok_bind, analyzeAll, mapM_says hs hd]
    rfl

/-- **C93**: the first document without a text decides the error; nothing is counted. -/
theorem C93_refused (encode : Str → List Nat) (v : CountVectorizer) (w : HashingVectorizer) (t : Tfidf F) (ho : o.Plain)
    (id : Nat) (s : Sess) {ds : List RawDoc} {ts : List Str} (hd : List.Forall₂ (Says io o.input) ds ts) {d : RawDoc}
    {e : PyErr} (rest : List RawDoc) :
    ((∃ f, buildAnalyzer lib v.opts = .ok f) → Refused io v.opts o.input d e →
      (v.transformRaw lib io o id s (.docs (ds ++ d :: rest)) : Py (Arr F) × Sess).1 = .error e ∧
      (tfidfTransformRaw lib io o v t id s (.docs (ds ++ d :: rest))).1 = .error e) ∧
    ((∃ f, buildAnalyzer lib w.opts = .ok f) → 1 ≤ w.nFeatures → w.nFeatures ≤ 2147483647 →
      Refused io w.opts o.input d e →
      (w.transformRaw lib io encode o id s (.docs (ds ++ d :: rest)) : Py (Arr F) × Sess).1 = .error e) := by
  constructor
  · rintro ⟨f, hf⟩ he
    obtain ⟨an, han, hs, hr⟩ := (docAnalyzer_plain (lib := lib) (io := io) (vo := v.opts) ho id s).2 f hf
    have h1 : (v.transformRaw lib io o id s (.docs (ds ++ d :: rest)) : Py (Arr F) × Sess).1 = .error e := by
      simp only [CountVectorizer.transformRaw, han, py_ok_bind, analyzeAll, mapM_refused hs hd (hr d e he), py_error_bind]
    refine ⟨h1, ?_⟩
    simp only [tfidfTransformRaw, h1, py_error_bind]
  · rintro ⟨f, hf⟩ hn hn' he
    obtain ⟨an, han, hs, hr⟩ := (docAnalyzer_plain (lib := lib) (io := io) (vo := w.opts) ho id s).2 f hf
    have hv : validateNFeatures w.nFeatures = .ok w.nFeatures.toNat := by
      unfold validateNFeatures; rw [if_neg (by omega)]
    simp only [HashingVectorizer.transformRaw, han, py_ok_bind, hv, analyzeAll, mapM_refused hs hd (hr d e he),
      py_error_bind]

/-- **C93**: a hashing vectorizer with an impossible number of columns refuses every request with ValueError; no
document is looked at, so that not even an unreadable document or a request that is not iterable changes the error. -/
theorem C93_columns_first (encode : Str → List Nat) (w : HashingVectorizer) (ho : o.Plain) (id : Nat) (s : Sess)
    (hf : ∃ f, buildAnalyzer lib w.opts = .ok f) (hn : w.nFeatures < 1 ∨ 2147483647 < w.nFeatures) (r : RawRequest) :
    (w.transformRaw lib io encode o id s r : Py (Arr F) × Sess).1 = .error .valueError := by
  obtain ⟨f, hf⟩ := hf
  obtain ⟨an, han, -⟩ := (docAnalyzer_plain (lib := lib) (io := io) (vo := w.opts) ho id s).2 f hf
  have hv : validateNFeatures w.nFeatures = .error .valueError := by
    unfold validateNFeatures; rw [if_pos (by omega)]
  cases r <;> simp only [HashingVectorizer.transformRaw, han, py_ok_bind, hv, py_error_bind]

/-! ### Requests that are not lists of documents -/

/-- **C93**: a bare string is refused with ValueError; a non-empty bare bytes object with AttributeError
or TypeError (its integers are taken for documents); something that is not iterable with TypeError. -/
theorem C93_bare (v : CountVectorizer) (ho : o.Plain) (hi : o.input = .content) (id : Nat) (s : Sess) :
    (v.transformRaw lib io o id s .str : Py (Arr F) × Sess) = (.error .valueError, s) ∧
    ((∃ f, buildAnalyzer lib v.opts = .ok f) →
      (v.transformRaw lib io o id s .notIterable : Py (Arr F) × Sess).1 = .error .typeError ∧
      ∀ b ≠ [], (v.transformRaw lib io o id s (.ofBytes b) : Py (Arr F) × Sess).1 =
        .error (if v.opts.lowercase = true ∨ v.opts.stripAccents = .unicode then .attributeError else .typeError)) := by
  refine ⟨rfl, fun hf => ⟨?_, fun b hb => ?_⟩⟩
  · obtain ⟨f, hf⟩ := hf
    obtain ⟨an, han, -⟩ := (docAnalyzer_plain (lib := lib) (io := io) (vo := v.opts) ho id s).2 f hf
    simp only [CountVectorizer.transformRaw, han, py_ok_bind, analyzeAll, py_error_bind]
  · obtain ⟨f, hf⟩ := hf
    obtain ⟨an, han, hs, hr⟩ := (docAnalyzer_plain (lib := lib) (io := io) (vo := v.opts) ho id s).2 f hf
    cases b with
    | nil => exact absurd rfl hb
    | cons x l =>
      have he : an (.number false) =
          .error (if v.opts.lowercase = true ∨ v.opts.stripAccents = .unicode then .attributeError else .typeError) := by
        refine hr _ _ ?_
        rw [hi]
        split
        · rename_i h; exact .numberAttribute h
        · rename_i h
          rw [not_or] at h
          exact .numberType (by simpa using h.1) h.2
      simp only [CountVectorizer.transformRaw, RawRequest.ofBytes, han, py_ok_bind, analyzeAll, List.map_cons,
        List.mapM_cons, he, py_error_bind]

/-! ### Stop words -/

theorem checkStopWords_warnings (id : Nat) (sw : Option (List Str)) (pre : Decoded → Py Decoded)
    (tok : Decoded → Py (List Str)) (s : Sess) : (checkStopWords id sw pre tok s).2.warnings = s.warnings := by
  unfold checkStopWords
  split
  · rfl
  · simp only
    split <;> rfl

/-- The analyser does not depend on what earlier calls left behind, and no warning is issued. -/
theorem docAnalyzer_session (id : Nat) (s s' : Sess) :
    (buildDocAnalyzer lib io vo o id s).1 = (buildDocAnalyzer lib io vo o id s').1 ∧
    (buildDocAnalyzer lib io vo o id s).2.warnings = s.warnings := by
  unfold buildDocAnalyzer
  cases o.ownAnalyzer with
  | some f => simp only; split <;> exact ⟨rfl, rfl⟩
  | none =>
    simp only
    cases buildDocPreprocessor lib vo o with
    | error e => exact ⟨rfl, rfl⟩
    | ok pre =>
      simp only
      cases vo.analyzer with
      | word =>
        simp only
        cases checkStopList vo.stopWords with
        | error e => exact ⟨rfl, rfl⟩
        | ok sw => exact ⟨rfl, checkStopWords_warnings _ _ _ _ _⟩
      | _ => exact ⟨rfl, rfl⟩

/-- **C93**: whatever earlier calls left behind and whatever callables are used, the answer is the same
and no warning is issued. -/
theorem C93_session (encode : Str → List Nat) (v : CountVectorizer) (t : Tfidf F) (w : HashingVectorizer) (id : Nat)
    (s s' : Sess) (r : RawRequest) :
    ((v.transformRaw lib io o id s r : Py (Arr F) × Sess).1 = (v.transformRaw lib io o id s' r).1 ∧
      (v.transformRaw lib io o id s r : Py (Arr F) × Sess).2.warnings = s.warnings) ∧
    ((tfidfTransformRaw lib io o v t id s r).1 = (tfidfTransformRaw lib io o v t id s' r).1 ∧
      (tfidfTransformRaw lib io o v t id s r).2.warnings = s.warnings) ∧
    ((w.transformRaw lib io encode o id s r : Py (Arr F) × Sess).1 = (w.transformRaw lib io encode o id s' r).1 ∧
      (w.transformRaw lib io encode o id s r : Py (Arr F) × Sess).2.warnings = s.warnings) := by
  have hv := docAnalyzer_session (lib := lib) (io := io) (vo := v.opts) (o := o) id s s'
  have hw := docAnalyzer_session (lib := lib) (io := io) (vo := w.opts) (o := o) id s s'
  have h1 : (v.transformRaw lib io o id s r : Py (Arr F) × Sess).1 = (v.transformRaw lib io o id s' r).1 ∧
      (v.transformRaw lib io o id s r : Py (Arr F) × Sess).2.warnings = s.warnings := by
    cases r with
    | str => exact ⟨rfl, rfl⟩
    | _ => simp only [CountVectorizer.transformRaw, hv.1, hv.2, and_self]
  refine ⟨h1, ?_, ?_⟩
  · simp only [tfidfTransformRaw, h1.1, h1.2, and_self]
  · cases r with
    | str => exact ⟨rfl, rfl⟩
    | _ => simp only [HashingVectorizer.transformRaw, hw.1, hw.2, and_self]

/-- The intended behaviour: inconsistent stop words are reported the first time they are used. -/
def WarnsOfStopWords : Prop :=
  ∀ (lib : TextLib) (io : DocIO) (o : DocOpts) (v : CountVectorizer) (id : Nat) (s : Sess) (ds : List RawDoc)
    (sw : List Str) (pre : Str → Str), o.Plain → v.opts.analyzer = .word → v.opts.stopWords = .list sw →
    buildPreprocessor lib v.opts = .ok pre → Inconsistent lib pre sw → s.stopId ≠ some id →
    (v.transformRaw lib io o id s (.docs ds) : Py (Arr F) × Sess).2.warnings = s.warnings + 1

/-- What the check of the stop words returns without callables: None when it ran before, True when
every token of a stop word is a stop word, "error" otherwise (the warning fails with NameError and the
handler swallows it). -/
theorem C93_verdict (ho : o.Plain) {pre : Str → Str} (hp : buildPreprocessor lib vo = .ok pre) (id : Nat)
    (sw : List Str) (s : Sess) {p : Decoded → Py Decoded} (hd : buildDocPreprocessor lib vo o = .ok p) :
    (s.stopId = some id → checkStopWords id (some sw) p (docTokenizer lib o) s = (.skipped, s)) ∧
    (s.stopId ≠ some id → ¬ Inconsistent lib pre sw →
      checkStopWords id (some sw) p (docTokenizer lib o) s = (.consistent, ⟨some id, s.warnings⟩)) ∧
    (s.stopId ≠ some id → Inconsistent lib pre sw →
      checkStopWords id (some sw) p (docTokenizer lib o) s = (.error, ⟨some id, s.warnings⟩)) := by
  obtain ⟨h1, h2, h3⟩ := ho
  have hv : vo.stripAccents ≠ .bad := by
    intro hv
    simp [buildPreprocessor, hv] at hp
  have hd' : buildDocPreprocessor lib vo o = .ok (preprocessDoc lib vo.lowercase vo.stripAccents) := by
    simp [buildDocPreprocessor, h1, hv]
  rw [hd'] at hd
  cases hd
  have ht : docTokenizer lib o = onText lib.findall := by simp [docTokenizer, h2]
  rw [ht]
  have hm : inconsistentTokens sw (preprocessDoc lib vo.lowercase vo.stripAccents) (onText lib.findall) =
      .ok ((sw.map fun w => lib.findall (pre w)).flatten.filter fun t => !sw.contains t) := by
    have : ∀ l : List Str, (l.mapM fun w => do
        onText lib.findall (← preprocessDoc lib vo.lowercase vo.stripAccents (.text w))) =
        .ok (l.map fun w => lib.findall (pre w)) := by
      intro l
      induction l with
      | nil => rfl
      | cons w l ih =>
        rw [List.mapM_cons, ih]
        simp only [preprocessDoc_text hv hp, py_ok_bind]
        rfl
    simp only [inconsistentTokens, this, py_ok_bind, py_pure]
  have hi : (sw.map fun w => lib.findall (pre w)).flatten.filter (fun t => !sw.contains t) ≠ [] ↔
      Inconsistent lib pre sw := by
    rw [Ne, List.filter_eq_nil_iff]
    simp only [Inconsistent, List.mem_flatten, List.mem_map, Bool.not_eq_true', List.contains_iff_mem,
      Bool.not_eq_false, not_forall, Bool.not_eq_true]
    constructor
    · rintro ⟨t, ⟨l, ⟨w, hw, rfl⟩, ht⟩, hn⟩
      exact ⟨w, hw, t, ht, by simpa using hn⟩
    · rintro ⟨w, hw, t, ht, hn⟩
      exact ⟨t, ⟨_, ⟨w, hw, rfl⟩, ht⟩, by simpa using hn⟩
  refine ⟨fun h => ?_, fun h hc => ?_, fun h hc => ?_⟩
  · simp [checkStopWords, h]
  · have : ¬ ((sw.map fun w => lib.findall (pre w)).flatten.filter (fun t => !sw.contains t) ≠ []) :=
      fun h => hc (hi.1 h)
    simp only [checkStopWords, if_neg h, Option.getD_some, hm, py_ok_bind, if_neg this]
  · simp only [checkStopWords, if_neg h, Option.getD_some, hm, py_ok_bind, if_pos (hi.2 hc)]

/-! ### Callables of the user -/

/-- **C93**: an analyser of the user gets the text of the document, and its tokens are counted; with
`input="file"` or `"filename"` every request but a bare string fails with AttributeError. -/
theorem C93_analyzer (v : CountVectorizer) {f : Decoded → Py (List Str)} (hf : o.ownAnalyzer = some f) (id : Nat)
    (s : Sess) {ds : List RawDoc} {ts : List Str} (hd : List.Forall₂ (Says io o.input) ds ts) :
    (o.input = .content → (v.transformRaw lib io o id s (.docs ds)).1 =
      (do v.ofTokens (← ts.mapM fun t => f (.text t)) : Py (Arr F))) ∧
    (o.input ≠ .content → ∀ r, (v.transformRaw lib io o id s r : Py (Arr F) × Sess).1 =
      .error (match r with | .str => .valueError | _ => .attributeError)) := by
  constructor
  · intro hi
    have hm : ds.mapM (fun d => do f (← decodeDoc io o.input d)) = ts.mapM fun t => f (.text t) := by
      clear hf
      induction hd with
      | nil => rfl
      | cons h1 _ ih => rw [List.mapM_cons, List.mapM_cons, ih, decodeDoc_says h1]; rfl
    simp only [CountVectorizer.transformRaw, buildDocAnalyzer, hf, hi, ne_eq, not_true_eq_false, if_false, py_ok_bind,
      analyzeAll]
    rw [← hi, hm]
  · intro hi r
    cases r with
    | str => rfl
    | _ => simp [CountVectorizer.transformRaw, buildDocAnalyzer, hf, hi]

/-- **C93**: a preprocessor and a tokenizer of the user replace lower-casing, accents and the token
pattern, whatever the other settings; stop words and n-grams are applied to the tokens. -/
theorem C93_callables (v : CountVectorizer) {p : Decoded → Py Decoded} {k : Decoded → Py (List Str)}
    (ha : o.ownAnalyzer = none) (hp : o.ownPreprocessor = some p) (hk : o.ownTokenizer = some k)
    (hw : v.opts.analyzer = .word) {sw : Option (List Str)} (hs : checkStopList v.opts.stopWords = .ok sw) (id : Nat)
    (s : Sess) {ds : List RawDoc} {ts : List Str} (hd : List.Forall₂ (Says io o.input) ds ts) :
    (v.transformRaw lib io o id s (.docs ds)).1 =
      (do
        let tokens ← ts.mapM fun t => do k (← p (.text t))
        v.ofTokens (tokens.map fun l => wordNgrams v.opts.minN v.opts.maxN l sw) : Py (Arr F)) := by
  have hm : ds.mapM (fun d => do
      return wordNgrams v.opts.minN v.opts.maxN (← k (← p (← decodeDoc io o.input d))) sw) =
      (do return (← ts.mapM fun t => do k (← p (.text t))).map fun l => wordNgrams v.opts.minN v.opts.maxN l sw) := by
    clear hp hk ha
    induction hd with
    | nil => rfl
    | @cons d t ds ts h1 _ ih =>
      rw [List.mapM_cons, List.mapM_cons, ih, decodeDoc_says h1]
      simp only [py_ok_bind]
      cases p (.text t) with
      | error e => rfl
      | ok x =>
        simp only [py_ok_bind]
        cases k x with
        | error e => rfl
        | ok l =>
          simp only [py_ok_bind, py_pure]
          cases (ts.mapM fun t => do k (← p (.text t))) <;> rfl
  simp only [CountVectorizer.transformRaw, buildDocAnalyzer, ha, buildDocPreprocessor, hp, hw, hs, py_ok_bind,
    docTokenizer, hk, Option.getD_some, analyzeAll, hm]
  cases (ts.mapM fun t => do k (← p (.text t))) <;> rfl

end

section
variable {F : Type} [Arith F]

/-- Words are runs of letters: a pattern that cuts at the apostrophe. -/
def cutLib : TextLib where
  ws c := c == ' '
  lower s := s
  nfkd s := s
  combining _ := false
  findall s := (s.splitOn '\'').filter fun t => !t.isEmpty

def cutOpts : VectorizerOpts := ⟨.word, 1, 1, .list ["don't".toList], .none, true⟩

def noCallables : DocOpts := ⟨.content, none, none, none⟩

def utf8IO : DocIO := ⟨fun _ => .error .valueError, utf8Decode⟩

theorem cut_inconsistent : Inconsistent cutLib (preprocess (some cutLib.lower) none) ["don't".toList] :=
  ⟨"don't".toList, by simp, "don".toList, by decide, by decide⟩

/-- **C93**, the negation of the intended behaviour: no warning although the stop word "don't" is cut
into "don" and "t". -/
theorem C93_warning_false : ¬ WarnsOfStopWords (F := F) := by
  intro h
  have := h cutLib utf8IO noCallables ⟨cutOpts, [], false, .float⟩ 0 ⟨none, 0⟩ [] ["don't".toList]
    (preprocess (some cutLib.lower) none) ⟨rfl, rfl, rfl⟩ rfl rfl rfl cut_inconsistent (by simp)
  rw [(C93_session (F := F) (fun _ => []) ⟨cutOpts, [], false, .float⟩ ⟨none, false, false, [], 0⟩
    ⟨cutOpts, 1, false, none, true, .float⟩ 0 ⟨none, 0⟩ ⟨none, 0⟩ (.docs [])).1.2] at this
  cases this

/-! ### Non-trivial cases -/

/-- Bytes, a text and a file: all three have a text. -/
example : List.Forall₂ (Says utf8IO .content) [.text "dog".toList, .bytes (utf8 "café".toList)]
    ["dog".toList, "café".toList] :=
  .cons (.text _) (.cons (.bytes ((C93_utf8 _).1 _ |>.2 rfl)) .nil)

example : Says utf8IO .file (.reader (.bytes (utf8 "café".toList))) "café".toList :=
  .file (.bytes ((C93_utf8 _).1 _ |>.2 rfl))

/-- `b"\xff"` is not UTF-8. -/
example : Refused utf8IO cutOpts .content (.bytes [0xFF]) .valueError := .undecodable rfl

/-- An overlong encoding of "/" and a surrogate are refused. -/
example : utf8Decode [0xC0, 0xAF] = .error .valueError ∧ utf8Decode [0xED, 0xA0, 0x80] = .error .valueError :=
  ⟨rfl, rfl⟩

example : ∃ f, buildAnalyzer cutLib cutOpts = .ok f := ⟨_, rfl⟩

/-- `analyzer=list`: the characters of the document. -/
example : ({ noCallables with ownAnalyzer := some (onText fun s => s.map fun c => [c]) } : DocOpts).ownAnalyzer ≠ none := by
  simp

/-- consistent stop words -/
example : ¬ Inconsistent cutLib (preprocess (some cutLib.lower) none) ["the".toList, "a".toList] := by
  rintro ⟨w, hw, t, ht, hn⟩
  simp only [List.mem_cons, List.not_mem_nil, or_false] at hw
  rcases hw with rfl | rfl
  · have h : t = "the".toList := by
      have : cutLib.findall (preprocess (some cutLib.lower) none "the".toList) = ["the".toList] := by decide
      rw [this] at ht; simpa using ht
    exact hn (by simp [h])
  · have h : t = "a".toList := by
      have : cutLib.findall (preprocess (some cutLib.lower) none "a".toList) = ["a".toList] := by decide
      rw [this] at ht; simpa using ht
    exact hn (by simp [h])

end

end PurePredict
