import Verif.Model.Regex
import Verif.Props.C32
/-
C70: what the regular expressions of the text analysers do.
-/
namespace PurePredict
open Spec

theorem plusEnds_nil {p : Char → Bool} {s : Str} (h : ∀ c ∈ s.head?, p c = false) : plusEnds p s = [] := by
  cases s with
  | nil => rfl
  | cons c cs => simp [plusEnds, h c (by simp)]

/-- The first choice of a greedy `+` is the whole run. -/
theorem plusEnds_cons {p : Char → Bool} {c : Char} (h : p c = true) (cs : Str) :
    ∃ q tl, p q = true ∧ plusEnds p (c :: cs) = (some q, cs.dropWhile p) :: tl ∧
      ∀ e ∈ tl, ∃ d, e.1 = some d ∧ p d = true ∧ ∃ x ∈ e.2.head?, p x = true := by
  induction cs generalizing c with
  | nil => exact ⟨c, [], h, by simp [plusEnds, h], by simp⟩
  | cons d ds ih =>
    by_cases hd : p d = true
    · obtain ⟨q, tl, h1, h2, h3⟩ := ih hd
      refine ⟨q, tl ++ [(some c, d :: ds)], h1, ?_, ?_⟩
      · rw [plusEnds, if_pos h, h2]; simp [hd]
      · intro e he
        rcases List.mem_append.1 he with he | he
        · exact h3 e he
        · rw [List.mem_singleton] at he
          subst he
          exact ⟨c, rfl, h, d, by simp, hd⟩
    · have hd' : p d = false := by simpa using hd
      refine ⟨c, [], h, ?_, by simp⟩
      simp [plusEnds, h, hd']

/-- At a position inside a run of word characters, the default pattern does not match. -/
theorem default_inside {w : Char → Bool} {p : Char} (hp : w p = true) (s : Str) :
    (defaultTokenPattern w).matchAt (some p) s = none := by
  unfold Re.matchAt defaultTokenPattern
  cases s with
  | nil => simp [Re.ends, hp]
  | cons c cs =>
    cases hc : w c <;> simp [Re.ends, hp, hc]

theorem default_nonword {w : Char → Bool} {c : Char} (hc : w c = false) (prev : Option Char) (cs : Str) :
    (defaultTokenPattern w).matchAt prev (c :: cs) = none := by
  cases hp : prev.any w <;> simp [Re.matchAt, defaultTokenPattern, Re.ends, hp, hc]

/-- At the start of a run of word characters, the default pattern matches the whole run if it has
two characters. -/
theorem default_start {w : Char → Bool} {prev : Option Char} (hp : prev.any w = false) {c : Char}
    (hc : w c = true) (cs : Str) :
    (cs.takeWhile w = [] → (defaultTokenPattern w).matchAt prev (c :: cs) = none) ∧
    (cs.takeWhile w ≠ [] → ∃ q, w q = true ∧
      (defaultTokenPattern w).matchAt prev (c :: cs) = some (some q, cs.dropWhile w)) := by
  cases cs with
  | nil => simp [Re.matchAt, defaultTokenPattern, Re.ends, hp, hc, plusEnds]
  | cons d ds =>
    cases hd : w d
    · simp [Re.matchAt, defaultTokenPattern, Re.ends, hp, hc, hd, plusEnds, List.takeWhile_cons]
    · refine ⟨by simp [List.takeWhile_cons, hd], fun _ => ?_⟩
      obtain ⟨q, tl, h1, h2, -⟩ := plusEnds_cons hd ds
      refine ⟨q, h1, ?_⟩
      have hb : (ds.dropWhile w).head?.any w = false := by
        cases hh : (ds.dropWhile w).head? with
        | none => rfl
        | some y => simpa using head?_dropWhile (by rw [hh]; rfl)
      have hlen : (ds.dropWhile w).length ≤ ds.length := (List.dropWhile_sublist w).length_le
      unfold Re.matchAt defaultTokenPattern
      simp only [Re.ends, hp, List.head?_cons, Option.any_some, hc, h2,
        List.flatMap_cons, if_true, Bool.false_bne, List.flatMap_nil, List.append_nil, hb, h1]
      simp [hd]
      omega

theorem findall_default_inside {w : Char → Bool} {p : Char} (hp : w p = true) (s : Str) :
    (defaultTokenPattern w).findall (some p) s =
      (words (fun c => !w c) (s.dropWhile w)).filter (fun t => 2 ≤ t.length) ∧
    ∀ prev : Option Char, prev.any w = false → (defaultTokenPattern w).findall prev s =
      (words (fun c => !w c) s).filter (fun t => 2 ≤ t.length) := by
  induction hn : s.length using Nat.strong_induction_on generalizing s p with
  | _ n ih =>
    cases s with
    | nil => simp [Re.findall, words, runs]
    | cons c cs =>
      subst hn
      have ih1 := fun (q : Char) (hq : w q = true) (t : Str) (ht : t.length < (c :: cs).length) =>
        (ih t.length ht hq t rfl).1
      have ih2 := fun (t : Str) (ht : t.length < (c :: cs).length) => (ih t.length ht hp t rfl).2
      constructor
      · rw [Re.findall]
        split
        · next e he => rw [default_inside hp] at he; cases he
        · cases hc : w c
          · rw [ih2 cs (by simp) (some c) (by simp [hc])]
            rw [List.dropWhile_cons_of_neg (by simp [hc]), words_ws (by simp [hc]), words_dropWhile]
          · rw [ih1 c hc cs (by simp), List.dropWhile_cons_of_pos hc]
      · intro prev hprev
        cases hc : w c
        · rw [Re.findall]
          split
          · next e he => rw [default_nonword hc] at he; cases he
          · rw [ih2 cs (by simp) (some c) (by simp [hc]), words_ws (by simp [hc]), words_dropWhile]
        · rw [words_word (by simp [hc])]
          simp only [Bool.not_not]
          obtain ⟨h1, h2⟩ := default_start hprev hc cs
          by_cases ht : cs.takeWhile w = []
          · rw [Re.findall]
            split
            · next e he => rw [h1 ht] at he; cases he
            · rw [ih1 c hc cs (by simp), ht]
              simp
          · obtain ⟨q, hq, hm⟩ := h2 ht
            rw [Re.findall]
            split
            · next e he =>
              rw [hm] at he
              cases he
              have hlen : (cs.dropWhile w).length ≤ cs.length := (List.dropWhile_sublist w).length_le
              have happ := List.takeWhile_append_dropWhile (p := w) (l := cs)
              have hl := congrArg List.length happ
              rw [List.length_append] at hl
              rw [ih1 q hq _ (by simp; omega)]
              have hdd : (cs.dropWhile w).dropWhile w = cs.dropWhile w := by
                cases hh : cs.dropWhile w with
                | nil => rfl
                | cons y ys =>
                  rw [List.dropWhile_cons_of_neg (by
                    rw [head?_dropWhile (p := w) (l := cs) (by rw [hh]; rfl)]; simp)]
              have h2l : 2 ≤ (c :: cs.takeWhile w).length := by
                have : 0 < (cs.takeWhile w).length := List.length_pos_iff.2 ht
                simp; omega
              rw [hdd, List.filter_cons_of_pos (by simpa using h2l)]
              congr 1
              have : (c :: cs).length - (cs.dropWhile w).length = (c :: cs.takeWhile w).length := by
                simp; omega
              rw [this]
              have e2 : c :: cs = (c :: cs.takeWhile w) ++ cs.dropWhile w := by
                rw [List.cons_append, happ]
              calc (c :: cs).take (c :: cs.takeWhile w).length
                  = ((c :: cs.takeWhile w) ++ cs.dropWhile w).take (c :: cs.takeWhile w).length :=
                    congrArg _ e2
                _ = c :: cs.takeWhile w := List.take_left
            · next he => rw [hm] at he; cases he

/-- **C70**: with the default token pattern, the tokens of a text are its maximal runs of word
characters that have at least two characters, from left to right. -/
theorem C70_default_tokens (w : Char → Bool) (s : Str) :
    (defaultTokenPattern w).findall none s =
      (words (fun c => !w c) s).filter (fun t => 2 ≤ t.length) := by
  by_cases h : ∃ p, w p = true
  · obtain ⟨p, hp⟩ := h
    exact (findall_default_inside hp s).2 none rfl
  · have hw : ∀ c, w c = false := fun c => by
      by_contra hc
      exact h ⟨c, by simpa using hc⟩
    have h1 : ∀ (prev : Option Char) s, (defaultTokenPattern w).findall prev s = [] := by
      intro prev s
      induction s generalizing prev with
      | nil => simp [Re.findall]
      | cons c cs ih =>
        rw [Re.findall]
        split
        · next e he => rw [default_nonword (hw c)] at he; cases he
        · exact ih _
    rw [h1]
    have : words (fun c => !w c) s = [] := by
      induction s with
      | nil => rfl
      | cons c cs ih => rw [words_ws (by simp [hw]), words_dropWhile, ih]
    simp [this]

/-- **C70**, tokens one by one: a token has at least two characters, all of them word characters. -/
theorem C70_token_chars (w : Char → Bool) (s t : Str) (h : t ∈ (defaultTokenPattern w).findall none s) :
    2 ≤ t.length ∧ ∀ c ∈ t, w c = true := by
  rw [C70_default_tokens, List.mem_filter] at h
  refine ⟨by simpa using h.2, ?_⟩
  have := (List.mem_filter.1 h.1).2
  simpa using this

/-- **C70**, every occurrence: a run of at least two word characters between non-word characters
(or the ends of the text) is a token. -/
theorem C70_occurrence (w : Char → Bool) (pre t suf : Str) (ht : 2 ≤ t.length)
    (hw : ∀ c ∈ t, w c = true) (hpre : ∀ c ∈ pre.getLast?, w c = false)
    (hsuf : ∀ c ∈ suf.head?, w c = false) :
    t ∈ (defaultTokenPattern w).findall none (pre ++ t ++ suf) := by
  rw [C70_default_tokens, List.mem_filter]
  refine ⟨?_, by simpa using ht⟩
  have hne : t ≠ [] := by intro e; subst e; simp at ht
  rw [words, List.mem_filter]
  refine ⟨?_, by simpa using hw⟩
  -- by induction on the length of the text before the run
  induction hn : pre.length using Nat.strong_induction_on generalizing pre with
  | _ n ih =>
    cases pre with
    | nil =>
      rw [List.nil_append, runs_block (k := false) hne (fun x hx => by simp [hw x hx])
        (fun y hy => by simp [hsuf y hy])]
      simp
    | cons c cs =>
      subst hn
      rw [List.cons_append, List.cons_append, runs_cons]
      apply List.mem_cons_of_mem
      -- what is dropped stays inside `cs`
      have hp : ∀ cs : Str, (∀ x ∈ (c :: cs).getLast?, w x = false) →
          ∃ cs' : Str, cs'.length ≤ cs.length ∧ (∀ x ∈ cs'.getLast?, w x = false) ∧
          (cs ++ t ++ suf).dropWhile (fun x => (!w x) == (!w c)) = cs' ++ t ++ suf := by
        intro cs
        induction cs with
        | nil =>
          intro h
          have hc : w c = false := h c (by simp)
          refine ⟨[], by simp, by simp, ?_⟩
          cases t with
          | nil => exact absurd rfl hne
          | cons a as =>
            have := hw a (by simp)
            simp [List.dropWhile_cons, this, hc]
        | cons d ds ih2 =>
          intro h
          have hl : ∀ x ∈ (d :: ds).getLast?, w x = false := by
            intro x hx
            exact h x (by simpa [List.getLast?_cons_cons] using hx)
          by_cases hd : w d = w c
          · obtain ⟨cs', h1, h2, h3⟩ := ih2 (by
              intro x hx
              cases ds with
              | nil =>
                simp at hx
                subst hx
                have := hl d (by simp)
                rw [hd] at this; exact this
              | cons e es =>
                rw [List.getLast?_cons_cons] at hx
                exact hl x (by simpa [List.getLast?_cons_cons] using hx))
            refine ⟨cs', by simp; omega, h2, ?_⟩
            rw [List.cons_append, List.cons_append, List.dropWhile_cons_of_pos (by simp [hd])]
            exact h3
          · refine ⟨d :: ds, by simp, hl, ?_⟩
            rw [List.cons_append, List.cons_append, List.dropWhile_cons_of_neg (by simpa using hd)]
      obtain ⟨cs', h1, h2, h3⟩ := hp cs hpre
      rw [h3]
      exact ih cs'.length (by simp; omega) cs' h2 rfl

/-- **C70**, through `build_analyzer`: the word features with the default token pattern. -/
theorem C70_analyzer (lib : TextLib) (w : Char → Bool)
    (hlib : lib.findall = (defaultTokenPattern w).findall none) (o : VectorizerOpts)
    (h1 : 1 ≤ o.minN) (h2 : o.minN ≤ o.maxN) (hw : o.analyzer = .word)
    {pre : Str → Str} (hp : buildPreprocessor lib o = .ok pre)
    {sw : Option (List Str)} (hs : checkStopList o.stopWords = .ok sw) :
    ∃ an, buildAnalyzer lib o = .ok an ∧ ∀ doc, an doc =
      (ngrams o.minN o.maxN (remaining sw ((words (fun c => !w c) (pre doc)).filter
        (fun t => 2 ≤ t.length)))).map spaced := by
  obtain ⟨an, h, hall⟩ := C32_analyzer lib o h1 h2 hw hp hs
  refine ⟨an, h, fun doc => ?_⟩
  rw [hall, hlib, C70_default_tokens]

/-- **C70**, white space: the substitution that precedes the character analysers replaces every
maximal run of two or more whitespace characters by one space. -/
theorem C70_white_space (ws : Char → Bool) (s : Str) (prev : Option Char) :
    (whiteSpaces ws).sub [' '] prev s = normalizeSpace ws ' ' s := by
  rw [← collapseWs_eq]
  induction s using collapseWs.induct (ws := ws) generalizing prev with
  | case1 => simp [Re.sub, collapseWs]
  | case2 c =>
    have : (whiteSpaces ws).matchAt prev [c] = none := by
      cases hc : ws c <;> simp [Re.matchAt, whiteSpaces, Re.ends, hc, plusEnds]
    rw [Re.sub, collapseWs]
    split
    · next e he => rw [this] at he; cases he
    · simp [Re.sub]
  | case3 c d rest h ih =>
    simp only [Bool.and_eq_true] at h
    obtain ⟨q, tl, h1, h2, -⟩ := plusEnds_cons h.2 rest
    have hlen : (rest.dropWhile ws).length ≤ rest.length := (List.dropWhile_sublist ws).length_le
    have hm : (whiteSpaces ws).matchAt prev (c :: d :: rest) = some (some q, rest.dropWhile ws) := by
      simp [Re.matchAt, whiteSpaces, Re.ends, h.1, h2]
      omega
    rw [Re.sub, collapseWs]
    split
    · next e he =>
      rw [hm] at he
      cases he
      simp [h, ih]
    · next he => rw [hm] at he; cases he
  | case4 c d rest h ih =>
    have hm : (whiteSpaces ws).matchAt prev (c :: d :: rest) = none := by
      cases hc : ws c
      · simp [Re.matchAt, whiteSpaces, Re.ends, hc]
      · have hd : ws d = false := by simpa [hc] using h
        simp [Re.matchAt, whiteSpaces, Re.ends, hc, plusEnds, hd]
    rw [Re.sub, collapseWs]
    split
    · next e he => rw [hm] at he; cases he
    · simp [h, ih]

/-- Non-vacuity: one-letter words and punctuation disappear. -/
example : (defaultTokenPattern Char.isAlphanum).findall none "I am a no-one, ok?".toList =
    ["am".toList, "no".toList, "one".toList, "ok".toList] := by
  rw [C70_default_tokens]
  decide

example : (whiteSpaces Char.isWhitespace).sub [' '] none "a \n b c".toList = "a b c".toList := by
  rw [C70_white_space]
  decide

end PurePredict
