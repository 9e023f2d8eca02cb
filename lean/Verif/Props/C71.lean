import Verif.Model.Regex
import Verif.Lemmas.Text
/-
C71: preprocessing of documents (lower-casing, accent stripping, tags).
-/
namespace PurePredict
open Spec

/-- What the text libraries guarantee and the claim needs: NFKD leaves ASCII text alone, and no
ASCII character is combining. -/
structure UnicodeLaws (lib : TextLib) : Prop where
  nfkd_ascii : ∀ s : Str, (∀ c ∈ s, c.toNat < 128) → lib.nfkd s = s
  combining_ascii : ∀ c, c.toNat < 128 → lib.combining c = false

/-- The options for which a preprocessor exists: everything but an unknown `strip_accents`. -/
theorem C71_refused (lib : TextLib) (o : VectorizerOpts) :
    (∃ pre, buildPreprocessor lib o = .ok pre) ↔ o.stripAccents ≠ .bad := by
  cases h : o.stripAccents <;> simp [buildPreprocessor, h]

theorem C71_refused_error (lib : TextLib) (o : VectorizerOpts) (h : o.stripAccents = .bad) :
    buildPreprocessor lib o = .error .valueError ∧ buildAnalyzer lib o = .error .valueError := by
  have : buildPreprocessor lib o = .error .valueError := by simp [buildPreprocessor, h]
  exact ⟨this, by simp [buildAnalyzer, this]⟩

/-- **C71**, the documented order: first lower-case, then strip accents. -/
theorem C71_preprocess (lib : TextLib) (o : VectorizerOpts) {pre : Str → Str}
    (hp : buildPreprocessor lib o = .ok pre) (doc : Str) :
    let d := if o.lowercase then lib.lower doc else doc
    (o.stripAccents = .none → pre doc = d) ∧
    (o.stripAccents = .ascii → pre doc = (lib.nfkd d).filter fun c => c.toNat < 128) ∧
    (o.stripAccents = .unicode → (∀ c ∈ d, c.toNat < 128) → pre doc = d) ∧
    (o.stripAccents = .unicode → (∃ c ∈ d, 128 ≤ c.toNat) →
      pre doc = (lib.nfkd d).filter fun c => !lib.combining c) := by
  intro d
  have hd : preprocess (if o.lowercase then some lib.lower else none) none doc = d := by
    cases hl : o.lowercase <;> simp [preprocess, d, hl]
  have hd' : ∀ f, preprocess (if o.lowercase then some lib.lower else none) (some f) doc = f d := by
    intro f
    cases hl : o.lowercase <;> simp [preprocess, d, hl]
  refine ⟨fun h => ?_, fun h => ?_, fun h ha => ?_, fun h ha => ?_⟩ <;>
    simp only [buildPreprocessor, h, py_pure, py_ok_bind, Except.ok.injEq] at hp <;> subst hp
  · exact hd
  · exact hd' _
  · rw [hd', stripAccentsUnicode, if_pos (by simpa using ha)]
  · rw [hd', stripAccentsUnicode, if_neg (by simpa using ha)]

/-- **C71**: with `strip_accents="ascii"` the preprocessed text is ASCII. -/
theorem C71_ascii_output (lib : TextLib) (o : VectorizerOpts) {pre : Str → Str}
    (hp : buildPreprocessor lib o = .ok pre) (h : o.stripAccents = .ascii) (doc : Str) :
    ∀ c ∈ pre doc, c.toNat < 128 := by
  rw [(C71_preprocess lib o hp doc).2.1 h]
  intro c hc
  simpa using (List.mem_filter.1 hc).2

/-- **C71**: with `strip_accents="unicode"` the preprocessed text has no combining characters. -/
theorem C71_unicode_output (lib : TextLib) (hu : UnicodeLaws lib) (o : VectorizerOpts) {pre : Str → Str}
    (hp : buildPreprocessor lib o = .ok pre) (h : o.stripAccents = .unicode) (doc : Str) :
    ∀ c ∈ pre doc, lib.combining c = false := by
  obtain ⟨-, -, h1, h2⟩ := C71_preprocess lib o hp doc
  intro c hc
  by_cases ha : ∀ c ∈ (if o.lowercase then lib.lower doc else doc), c.toNat < 128
  · rw [h1 h ha] at hc
    exact hu.combining_ascii c (ha c hc)
  · rw [h2 h (by simpa using ha)] at hc
    simpa using (List.mem_filter.1 hc).2

/-- **C71**: ASCII text is not changed by either way of stripping accents; only lower-cased. -/
theorem C71_ascii_input (lib : TextLib) (hu : UnicodeLaws lib) (o : VectorizerOpts) {pre : Str → Str}
    (hp : buildPreprocessor lib o = .ok pre) (doc : Str)
    (ha : ∀ c ∈ (if o.lowercase then lib.lower doc else doc), c.toNat < 128) :
    pre doc = if o.lowercase then lib.lower doc else doc := by
  obtain ⟨h0, h1, h2, -⟩ := C71_preprocess lib o hp doc
  cases h : o.stripAccents with
  | none => exact h0 h
  | ascii =>
    rw [h1 h, hu.nfkd_ascii _ ha]
    exact List.filter_eq_self.2 fun c hc => by simpa using ha c hc
  | unicode => exact h2 h ha
  | bad => simp [buildPreprocessor, h] at hp

/-- **C71**: the two ways of stripping accents agree on every text whose decomposition consists of
ASCII characters and combining characters (such as accented Latin text). -/
theorem C71_agree (lib : TextLib) (hu : UnicodeLaws lib) (s : Str)
    (h : ∀ c ∈ lib.nfkd s, c.toNat < 128 ∨ lib.combining c = true)
    (hn : ∀ c, lib.combining c = true → 128 ≤ c.toNat) :
    stripAccentsUnicode lib.nfkd lib.combining s = stripAccentsAscii lib.nfkd s := by
  unfold stripAccentsUnicode stripAccentsAscii
  split
  · next ha =>
    have ha' : ∀ c ∈ s, c.toNat < 128 := by simpa using ha
    rw [hu.nfkd_ascii s ha']
    exact (List.filter_eq_self.2 fun c hc => by simpa using ha' c hc).symm
  · apply List.filter_congr
    intro c hc
    rcases h c hc with h1 | h1
    · simp [h1, hu.combining_ascii c h1]
    · simp [h1, hn c h1]

/-- **C71**, case: with `lowercase`, all features of a document depend only on its lower-case form;
so documents that differ in case only get the same features. -/
theorem C71_case (lib : TextLib) (o : VectorizerOpts) (hl : o.lowercase = true)
    {an : Str → List Str} (ha : buildAnalyzer lib o = .ok an) {d d' : Str}
    (hd : lib.lower d = lib.lower d') : an d = an d' := by
  have hpre : ∀ pre, buildPreprocessor lib o = .ok pre → pre d = pre d' := by
    intro pre hp
    cases h : o.stripAccents <;> simp [buildPreprocessor, h, hl] at hp <;> subst hp <;>
      simp [preprocess, hd]
  unfold buildAnalyzer at ha
  cases hp : buildPreprocessor lib o with
  | error e => rw [hp] at ha; cases ha
  | ok pre =>
    have hpd := hpre pre hp
    rw [hp, py_ok_bind] at ha
    cases hk : o.analyzer with
    | char => simp [hk] at ha; subst ha; simp [hpd]
    | charWb => simp [hk] at ha; subst ha; simp [hpd]
    | bad => simp [hk] at ha
    | word =>
      cases hs : checkStopList o.stopWords with
      | error e => simp [hk, hs] at ha
      | ok sw => simp [hk, hs] at ha; subst ha; simp [hpd]

/-- … and without `lowercase` and accents the analysers see the document itself. -/
theorem C71_verbatim (lib : TextLib) (o : VectorizerOpts) (hl : o.lowercase = false)
    (hs : o.stripAccents = .none) : buildPreprocessor lib o = .ok id := by
  simp [buildPreprocessor, hs, hl]
  rfl

/-! ### Tags -/

/-- The pattern of `strip_tags`. -/
def tagPattern : Re := .seq (.cls (· == '<')) (.seq (.plus (· != '>')) (.cls (· == '>')))

theorem tag_other {c : Char} (h : c ≠ '<') (prev : Option Char) (cs : Str) :
    tagPattern.matchAt prev (c :: cs) = none := by
  simp [Re.matchAt, tagPattern, Re.ends, h]

theorem plusEnds_append {p : Char → Bool} (t : Str) (ht : t ≠ []) (hp : ∀ c ∈ t, p c = true) {d : Char}
    (hd : p d = false) (rest : Str) :
    ∃ q tl, plusEnds p (t ++ d :: rest) = (q, d :: rest) :: tl := by
  induction t with
  | nil => exact absurd rfl ht
  | cons c t ih =>
    have hc := hp c (by simp)
    by_cases h0 : t = []
    · subst h0
      exact ⟨some c, [], by simp [plusEnds, hc, hd]⟩
    · obtain ⟨q, tl, h⟩ := ih h0 fun c hc => hp c (by simp [hc])
      exact ⟨q, tl ++ [(some c, t ++ d :: rest)], by simp [plusEnds, hc, h]⟩

theorem plusEnds_open {p : Char → Bool} (s : Str) (hp : ∀ c ∈ s, p c = true) :
    ∀ e ∈ plusEnds p s, ∀ c ∈ e.2, p c = true := by
  induction s with
  | nil => simp [plusEnds]
  | cons a s ih =>
    intro e he c hc
    simp only [plusEnds, hp a (by simp), if_true, List.mem_append, List.mem_singleton] at he
    rcases he with he | rfl
    · exact ih (fun c hc => hp c (by simp [hc])) e he c hc
    · exact hp c (by simp [hc])

theorem tag_sub_prev (s : Str) (prev prev' : Option Char) :
    tagPattern.sub [' '] prev s = tagPattern.sub [' '] prev' s := by
  cases s with
  | nil => simp [Re.sub]
  | cons c cs =>
    have : tagPattern.matchAt prev (c :: cs) = tagPattern.matchAt prev' (c :: cs) := by
      simp [Re.matchAt, tagPattern, Re.ends]
    rw [Re.sub, Re.sub]
    split
    · next e he =>
      split
      · next e' he' =>
        rw [this] at he
        rw [he] at he'
        cases he'
        rfl
      · next he' => rw [this, he'] at he; cases he
    · next he =>
      split
      · next e' he' => rw [this, he'] at he; cases he
      · rfl

/-- **C71**, tags: `<`, one or more characters other than `>`, then `>` becomes one space. -/
theorem C71_tag (t rest : Str) (ht : t ≠ []) (hg : ∀ c ∈ t, c ≠ '>') :
    stripTags ('<' :: t ++ '>' :: rest) = ' ' :: stripTags rest := by
  obtain ⟨q, tl, h⟩ := plusEnds_append (p := (· != '>')) t ht (fun c hc => by simpa using hg c hc)
    (d := '>') (by simp) rest
  have hm : tagPattern.matchAt none ('<' :: (t ++ '>' :: rest)) = some (some '>', rest) := by
    simp [Re.matchAt, tagPattern, Re.ends, h]
    omega
  show tagPattern.sub [' '] none ('<' :: (t ++ '>' :: rest)) = ' ' :: tagPattern.sub [' '] none rest
  rw [Re.sub]
  split
  · next e he =>
    rw [hm] at he
    cases he
    exact congrArg _ (tag_sub_prev rest _ _)
  · next he => rw [hm] at he; cases he

/-- **C71**, tags: any other character stays, and so does a `<` that opens no tag. -/
theorem C71_no_tag (c : Char) (cs : Str)
    (h : c ≠ '<' ∨ cs.head? = some '>' ∨ ∀ d ∈ cs, d ≠ '>') :
    stripTags (c :: cs) = c :: stripTags cs := by
  have hm : tagPattern.matchAt none (c :: cs) = none := by
    by_cases hc : c = '<'
    · subst hc
      rcases h with h | h | h
      · exact absurd rfl h
      · cases cs with
        | nil => simp at h
        | cons d ds =>
          simp at h
          subst h
          simp [Re.matchAt, tagPattern, Re.ends, plusEnds]
      · have : (plusEnds (· != '>') cs).flatMap (Re.cls (· == '>')).ends = [] := by
          rw [List.flatMap_eq_nil_iff]
          intro e he
          have := plusEnds_open cs (fun d hd => by simpa using h d hd) e he
          obtain ⟨q, s⟩ := e
          cases s with
          | nil => simp [Re.ends]
          | cons x xs =>
            have := this x (by simp)
            simp [Re.ends]
            simpa using this
        simp [Re.matchAt, tagPattern, Re.ends, this]
    · exact tag_other hc none cs
  show tagPattern.sub [' '] none (c :: cs) = c :: tagPattern.sub [' '] none cs
  rw [Re.sub]
  split
  · next e he => rw [hm] at he; cases he
  · exact congrArg _ (tag_sub_prev cs _ _)

/-! ### Non-vacuity -/

/-- A toy library with one accented letter, decomposed into `e` and the combining acute accent. -/
def accentLib : TextLib where
  ws := Char.isWhitespace
  lower := List.map Char.toLower
  nfkd := fun s => s.flatMap fun c => if c = 'é' then ['e', '́'] else [c]
  combining := fun c => c = '́'
  findall := fun s => [s]

theorem accentLib_laws : UnicodeLaws accentLib where
  nfkd_ascii := by
    intro s h
    show s.flatMap _ = s
    induction s with
    | nil => rfl
    | cons c s ih =>
      have hc : c ≠ 'é' := by
        rintro rfl
        exact absurd (h 'é' (by simp)) (by decide)
      rw [List.flatMap_cons, if_neg hc, ih fun c hc => h c (by simp [hc])]
      rfl
  combining_ascii := by
    intro c h
    have : c ≠ '́' := by
      rintro rfl
      exact absurd h (by decide)
    simp [accentLib, this]

example : ∃ pre, buildPreprocessor accentLib ⟨.word, 1, 1, .none, .ascii, true⟩ = .ok pre ∧
    pre "CAFé".toList = "cafe".toList := by
  refine ⟨_, rfl, ?_⟩
  decide

example : ∃ an, buildAnalyzer accentLib ⟨.word, 1, 1, .none, .unicode, true⟩ = .ok an ∧
    an "CAFé".toList = an "café".toList := by
  refine ⟨_, rfl, ?_⟩
  exact C71_case accentLib ⟨.word, 1, 1, .none, .unicode, true⟩ rfl rfl (by decide)

example : stripTags "a<b c>d<>".toList = "a d<>".toList := by
  have e : "a<b c>d<>".toList = 'a' :: ('<' :: "b c".toList ++ '>' :: "d<>".toList) := by decide
  rw [e, C71_no_tag 'a' _ (.inl (by decide)), C71_tag _ _ (by decide) (by decide),
    show "d<>".toList = ['d', '<', '>'] by decide, C71_no_tag 'd' _ (.inl (by decide)),
    C71_no_tag '<' _ (.inr (.inl rfl)), C71_no_tag '>' _ (.inl (by decide))]
  simp [stripTags, Re.sub]

end PurePredict
