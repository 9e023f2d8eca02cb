import Verif.Lemmas.Text
/-
C33: character n-grams.
-/
namespace PurePredict
open Spec

/-- **C33**: the char analyser yields the substrings of the whitespace-normalised text with length
in range, in order of size then position. -/
theorem C33_char (ws : Char → Bool) (minN maxN : Nat) (h : minN ≤ maxN) (text : Str) :
    charNgrams ws minN maxN text = ngrams minN maxN (normalizeSpace ws ' ' text) := by
  unfold charNgrams
  simp only [collapseWs_eq]
  generalize normalizeSpace ws ' ' text = l
  rw [windowsFrom_eq, windowsFrom_eq]
  simp only [List.map_id_fun, id_eq]
  by_cases hn : minN = 1
  · rw [if_pos hn, hn, ngrams_cons (lo := 1) (by omega), windows_one]
  · rw [if_neg hn]

/-- **C33**, membership. -/
theorem C33_char_mem (ws : Char → Bool) (minN maxN : Nat) (h : minN ≤ maxN) (text g : Str) :
    g ∈ charNgrams ws minN maxN text ↔
      (∃ pre suf, normalizeSpace ws ' ' text = pre ++ g ++ suf) ∧ minN ≤ g.length ∧ g.length ≤ maxN := by
  rw [C33_char ws minN maxN h, mem_ngrams]

/-- **C33**: char_wb yields, word by word, the windows of the word padded with one space on each
side; sizes that reach the padded length contribute the padded word once. -/
theorem C33_char_wb (ws : Char → Bool) (minN maxN : Nat) (h : minN ≤ maxN) (text : Str) :
    charWbNgrams ws minN maxN text = (words ws (normalizeSpace ws ' ' text)).flatMap fun w =>
      wordBoundary minN maxN (' ' :: w ++ [' ']) := by
  unfold charWbNgrams
  simp only [collapseWs_eq, splitWs_eq]
  congr 1
  funext w
  rcases wbSizes_eq ([' '] ++ w ++ [' ']) (by simp) minN (maxN + 1 - minN) with h1 | h1
  · rw [h1]
    have : minN + (maxN + 1 - minN) - 1 = maxN := by omega
    rw [this]
    rfl
  · omega

/-- **C33**, membership for char_wb. -/
theorem C33_char_wb_mem (ws : Char → Bool) (minN maxN : Nat) (h : minN ≤ maxN) (text g : Str) :
    g ∈ charWbNgrams ws minN maxN text ↔ ∃ w ∈ words ws (normalizeSpace ws ' ' text),
      ((∃ pre suf, ' ' :: w ++ [' '] = pre ++ g ++ suf) ∧ minN ≤ g.length ∧ g.length ≤ maxN) ∨
      (g = ' ' :: w ++ [' '] ∧ g.length ≤ maxN) := by
  rw [C33_char_wb ws minN maxN h]
  simp only [List.mem_flatMap, wordBoundary, List.mem_append, mem_ngrams]
  constructor
  · rintro ⟨w, hw, ⟨h1, h2, h3⟩ | h1⟩
    · exact ⟨w, hw, .inl ⟨h1, h2, by omega⟩⟩
    · refine ⟨w, hw, .inr ?_⟩
      split at h1
      · rename_i hc
        rw [List.mem_singleton] at h1
        exact ⟨h1, h1 ▸ hc.1⟩
      · simp at h1
  · rintro ⟨w, hw, ⟨⟨pre, suf, hp⟩, h2, h3⟩ | ⟨h1, h2⟩⟩
    · refine ⟨w, hw, ?_⟩
      by_cases hl : g.length ≤ (' ' :: w ++ [' ']).length - 1
      · exact .inl ⟨⟨pre, suf, hp⟩, h2, by omega⟩
      · right
        have hlen := congrArg List.length hp
        simp only [List.length_append] at hlen hl
        have hp0 : pre = [] := List.length_eq_zero_iff.1 (by omega)
        have hs0 : suf = [] := List.length_eq_zero_iff.1 (by omega)
        subst hp0; subst hs0
        have hg : g = ' ' :: w ++ [' '] := by simpa using hp.symm
        rw [if_pos ⟨hg ▸ h3, h⟩, hg]
        simp
    · refine ⟨w, hw, .inr ?_⟩
      rw [if_pos ⟨h1 ▸ h2, h⟩, h1]
      simp

/-- No word of the text is empty or contains whitespace. -/
theorem C33_words_nonspace (ws : Char → Bool) (s w : Str) (h : w ∈ words ws s) :
    w ≠ [] ∧ ∀ c ∈ w, ws c = false := by
  have h' := List.mem_filter.1 h
  exact ⟨List.ne_nil_of_mem_splitBy h'.1, by simpa using h'.2⟩

/-- Whitespace normalisation leaves no two adjacent whitespace characters, if a space counts as
whitespace. -/
theorem C33_no_double_space (ws : Char → Bool) (hsp : ws ' ' = true) (s : Str) :
    (normalizeSpace ws ' ' s).IsChain fun a b => ¬ (ws a = true ∧ ws b = true) := by
  rw [← collapseWs_eq]
  have key : ∀ s : Str, (collapseWs ws s).IsChain (fun a b => ¬ (ws a = true ∧ ws b = true)) ∧
      ∀ y ∈ (collapseWs ws s).head?, ∃ x ∈ s.head?, ws x = ws y := by
    intro s
    induction s using collapseWs.induct (ws := ws) with
    | case1 => simp [collapseWs]
    | case2 c => simp [collapseWs]
    | case3 c d rest h ih =>
      rw [collapseWs, if_pos h]
      rw [Bool.and_eq_true] at h
      refine ⟨?_, by simp [hsp, h.1]⟩
      rw [List.isChain_cons]
      refine ⟨?_, ih.1⟩
      intro y hy ⟨_, hw⟩
      obtain ⟨x, hx, hxy⟩ := ih.2 y hy
      have := head?_dropWhile hx
      rw [hxy, hw] at this
      cases this
    | case4 c d rest h ih =>
      rw [collapseWs, if_neg h]
      refine ⟨?_, by simp⟩
      rw [List.isChain_cons]
      refine ⟨?_, ih.1⟩
      intro y hy hw
      obtain ⟨x, hx, hxy⟩ := ih.2 y hy
      simp only [List.head?_cons, Option.mem_def, Option.some.injEq] at hx
      subst hx
      exact h (by rw [hw.1, hxy, hw.2]; rfl)
  exact (key s).1

/-- Non-vacuity: two spaces collapse, bigrams of "ab c". -/
example : charNgrams (· == ' ') 2 2 "ab  c".toList = ["ab".toList, "b ".toList, " c".toList] := by
  rw [C33_char _ 2 2 (le_refl 2)]
  rfl

/-- Non-vacuity: "a" is short, its padded form " a " counts once. -/
example : charWbNgrams (· == ' ') 2 5 "a".toList = [" a".toList, "a ".toList, " a ".toList] := by
  rw [C33_char_wb _ 2 5 (by omega)]
  rfl

end PurePredict
