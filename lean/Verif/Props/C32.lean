import Verif.Lemmas.Text
/-
C32: word n-grams.
-/
namespace PurePredict
open Spec

/-- The tokens of an n-gram with one blank between neighbours. -/
def Spec.spaced (g : List Str) : Str := (g.intersperse [' ']).flatten

theorem spaceJoin_eq (g : List Str) : spaceJoin g = spaced g := by
  induction g with
  | nil => rfl
  | cons t ts ih =>
    cases ts with
    | nil => simp [spaceJoin, spaced]
    | cons t' ts =>
      rw [spaced] at ih ⊢
      simp only [spaceJoin] at ih ⊢
      rw [ih]
      simp

/-- The tokens left after removing stop words. -/
def remaining (sw : Option (List Str)) (tokens : List Str) : List Str :=
  match sw with
  | some sw => tokens.filter fun w => decide (w ∉ sw)
  | none => tokens

/-- **C32**: the word analyser yields the space-joined windows of the remaining tokens, in order
of size then position. -/
theorem C32_word_ngrams (minN maxN : Nat) (h1 : 1 ≤ minN) (h2 : minN ≤ maxN) (tokens : List Str)
    (sw : Option (List Str)) :
    wordNgrams minN maxN tokens sw = (ngrams minN maxN (remaining sw tokens)).map spaced := by
  rw [← funext spaceJoin_eq]
  have hrem : wordNgrams minN maxN tokens sw = wordNgrams minN maxN (remaining sw tokens) none := by
    cases sw with
    | none => rfl
    | some sw => simp [wordNgrams, remaining]
  rw [hrem]
  generalize remaining sw tokens = l
  unfold wordNgrams
  simp only
  have hone : (windows 1 l).map spaceJoin = l := by
    rw [windows_one, List.map_map]
    exact (List.map_congr_left fun _ _ => rfl).trans (List.map_id l)
  by_cases hm : maxN ≠ 1
  · rw [if_pos hm]
    by_cases hn : minN = 1
    · rw [if_pos hn, windowsFrom_eq, hn, ngrams_cons (lo := 1) (by omega), List.map_append, hone]
    · rw [if_neg hn, windowsFrom_eq]
  · rw [if_neg hm]
    have e1 : maxN = 1 := by omega
    have e2 : minN = 1 := by omega
    subst e1
    subst e2
    rw [ngrams_cons (le_refl 1), ngrams_empty (by omega), List.append_nil, hone]

/-- **C32**, membership: exactly the space-joined contiguous token sequences of a size in range. -/
theorem C32_mem (minN maxN : Nat) (h1 : 1 ≤ minN) (h2 : minN ≤ maxN) (tokens : List Str)
    (sw : Option (List Str)) (s : Str) :
    s ∈ wordNgrams minN maxN tokens sw ↔
      ∃ g, (∃ pre suf, remaining sw tokens = pre ++ g ++ suf) ∧ minN ≤ g.length ∧ g.length ≤ maxN ∧
        s = spaced g := by
  rw [C32_word_ngrams minN maxN h1 h2]
  simp only [List.mem_map, mem_ngrams]
  constructor
  · rintro ⟨g, ⟨h1, h2, h3⟩, rfl⟩; exact ⟨g, h1, h2, h3, rfl⟩
  · rintro ⟨g, h1, h2, h3, rfl⟩; exact ⟨g, ⟨h1, h2, h3⟩, rfl⟩

/-- **C32**, each occurrence once: there are `len - n + 1` n-grams for each size `n ≤ len` in
range. -/
theorem C32_count (minN maxN : Nat) (h1 : 1 ≤ minN) (h2 : minN ≤ maxN) (tokens : List Str)
    (sw : Option (List Str)) :
    (wordNgrams minN maxN tokens sw).length =
      ((List.range' minN (maxN + 1 - minN)).map fun n => (remaining sw tokens).length + 1 - n).sum := by
  rw [C32_word_ngrams minN maxN h1 h2, List.length_map, ngrams, List.length_flatMap]
  congr 1
  exact List.map_congr_left fun n _ => windows_length n _

/-- **C32**, through `build_analyzer`. -/
theorem C32_analyzer (lib : TextLib) (o : VectorizerOpts) (h1 : 1 ≤ o.minN) (h2 : o.minN ≤ o.maxN)
    (hw : o.analyzer = .word) {pre : Str → Str} (hp : buildPreprocessor lib o = .ok pre)
    {sw : Option (List Str)} (hs : checkStopList o.stopWords = .ok sw) :
    ∃ an, buildAnalyzer lib o = .ok an ∧ ∀ doc, an doc =
      (ngrams o.minN o.maxN (remaining sw (lib.findall (pre doc)))).map spaced := by
  refine ⟨_, by simp only [buildAnalyzer, hp, py_ok_bind, hw, hs]; rfl, fun doc => ?_⟩
  exact C32_word_ngrams o.minN o.maxN h1 h2 _ _

/-- A built-in stop list name (e.g. "english") is refused when the analyser is built. -/
theorem C32_builtin_stop_words (lib : TextLib) (o : VectorizerOpts) (hw : o.analyzer = .word)
    {pre : Str → Str} (hp : buildPreprocessor lib o = .ok pre) {name : String}
    (hs : o.stopWords = .str name) : buildAnalyzer lib o = .error .valueError := by
  simp only [buildAnalyzer, hp, py_ok_bind, hw, hs, checkStopList, py_error_bind]

/-- Non-vacuity: bigrams and trigrams without the stop word. -/
example : wordNgrams 2 3 ["a".toList, "the".toList, "b".toList, "c".toList] (some ["the".toList]) =
    ["a b".toList, "b c".toList, "a b c".toList] := by
  rw [C32_word_ngrams 2 3 (by omega) (by omega)]
  rfl

example : wordNgrams 1 2 ["x".toList, "y".toList] none = ["x".toList, "y".toList, "x y".toList] := by
  rw [C32_word_ngrams 1 2 (by omega) (by omega)]
  rfl

end PurePredict
