import Verif.Spec.Text
import Verif.Model.Text
import Verif.Lemmas.Basic
import Mathlib.Data.List.SplitBy
/-
Windows, n-grams and whitespace.
-/
namespace PurePredict
open Spec

section
variable {α β : Type}

theorem windows_eq (n : Nat) (l : List α) :
    windows n l = (List.range (l.length + 1 - n)).map fun i => pySlice l i (i + n) := by
  induction l with
  | nil =>
    cases n with
    | zero => simp [windows, pySlice]
    | succ n => simp [windows]
  | cons a l ih =>
    unfold windows
    by_cases h : n ≤ (a :: l).length
    · rw [if_pos h, ih]
      have : (a :: l).length + 1 - n = (l.length + 1 - n) + 1 := by simp at h ⊢; omega
      rw [this, List.range_succ_eq_map, List.map_cons, List.map_map]
      congr 1
      · simp [pySlice]
      · apply List.map_congr_left
        intro i _
        simp only [pySlice, Function.comp, List.drop_succ_cons]
        congr 1
        omega
    · rw [if_neg h]
      have : (a :: l).length + 1 - n = 0 := by simp at h ⊢; omega
      rw [this]
      rfl

theorem windows_short {n : Nat} {l : List α} (h : l.length < n) : windows n l = [] := by
  rw [windows_eq]
  have : l.length + 1 - n = 0 := by omega
  simp [this]

theorem windows_length (n : Nat) (l : List α) : (windows n l).length = l.length + 1 - n := by
  rw [windows_eq]; simp

theorem mem_windows {n : Nat} {l g : List α} :
    g ∈ windows n l ↔ ∃ pre suf, l = pre ++ g ++ suf ∧ g.length = n := by
  rw [windows_eq]
  simp only [List.mem_map, List.mem_range, pySlice]
  constructor
  · rintro ⟨i, hi, rfl⟩
    refine ⟨l.take i, (l.drop i).drop n, ?_, ?_⟩
    · have : i + n - i = n := by omega
      rw [this, List.append_assoc, List.take_append_drop, List.take_append_drop]
    · simp; omega
  · rintro ⟨pre, suf, rfl, rfl⟩
    refine ⟨pre.length, by simp; omega, ?_⟩
    have : pre.length + g.length - pre.length = g.length := by omega
    rw [this, List.append_assoc, List.drop_left, List.take_left]

theorem windows_one (l : List α) : windows 1 l = l.map fun a => [a] := by
  induction l with
  | nil => rfl
  | cons a l ih => simp [windows, ih]

theorem windows_full {l : List α} : windows l.length l = [l] := by
  rw [windows_eq]
  have : l.length + 1 - l.length = 1 := by omega
  rw [this]
  simp [pySlice]

theorem flatMap_range'_ext {g : Nat → List β} {lo k k' : Nat} (hk : k ≤ k')
    (hg : ∀ n, lo + k ≤ n → g n = []) :
    (List.range' lo k').flatMap g = (List.range' lo k).flatMap g := by
  obtain ⟨e, rfl⟩ := Nat.exists_eq_add_of_le hk
  rw [← List.range'_append (s := lo) (m := k) (n := e) (step := 1), List.flatMap_append]
  have : (List.range' (lo + 1 * k) e).flatMap g = [] := by
    rw [List.flatMap_eq_nil_iff]
    intro n hn
    apply hg
    have := (List.mem_range'_1.1 hn).1
    omega
  rw [this, List.append_nil]

theorem windowsFrom_eq (f : List α → β) (l : List α) (lo hi : Nat) :
    windowsFrom f l lo (min (hi + 1) (l.length + 1)) = (ngrams lo hi l).map f := by
  unfold windowsFrom ngrams
  rw [List.map_flatMap]
  have hg : (fun n => (windows n l).map f) =
      fun n => (List.range (l.length + 1 - n)).map fun i => f (pySlice l i (i + n)) := by
    funext n
    rw [windows_eq, List.map_map]
    rfl
  rw [hg]
  by_cases hl : hi ≤ l.length
  · have : min (hi + 1) (l.length + 1) = hi + 1 := by omega
    rw [this]
  · symm
    apply flatMap_range'_ext
    · omega
    · intro n hn
      have : l.length + 1 - n = 0 := by omega
      simp [this]

theorem ngrams_cons {lo hi : Nat} (h : lo ≤ hi) (l : List α) :
    ngrams lo hi l = windows lo l ++ ngrams (lo + 1) hi l := by
  unfold ngrams
  have : hi + 1 - lo = (hi + 1 - (lo + 1)) + 1 := by omega
  rw [this, List.range'_succ, List.flatMap_cons]

theorem ngrams_empty {lo hi : Nat} (h : hi < lo) (l : List α) : ngrams lo hi l = [] := by
  unfold ngrams
  have : hi + 1 - lo = 0 := by omega
  rw [this]
  rfl

theorem mem_ngrams {lo hi : Nat} {l g : List α} :
    g ∈ ngrams lo hi l ↔ (∃ pre suf, l = pre ++ g ++ suf) ∧ lo ≤ g.length ∧ g.length ≤ hi := by
  simp only [ngrams, List.mem_flatMap, List.mem_range'_1, mem_windows]
  constructor
  · rintro ⟨n, ⟨h1, h2⟩, pre, suf, h3, rfl⟩
    exact ⟨⟨pre, suf, h3⟩, h1, by omega⟩
  · rintro ⟨⟨pre, suf, h3⟩, h1, h2⟩
    exact ⟨g.length, ⟨h1, by omega⟩, pre, suf, h3, rfl⟩

/-! ### Runs -/

theorem runs_block {ws : α → Bool} {b rest : List α} {k : Bool} (hb : b ≠ [])
    (hk : ∀ x ∈ b, ws x = k) (hr : ∀ y ∈ rest.head?, ws y ≠ k) :
    runs ws (b ++ rest) = b :: runs ws rest := by
  unfold runs
  rw [List.splitBy_append]
  · rw [List.splitBy_of_isChain hb]
    · rfl
    · clear hr hb
      induction b with
      | nil => exact List.isChain_nil
      | cons a b ih =>
        cases b with
        | nil => exact List.isChain_singleton _
        | cons c b =>
          rw [List.isChain_cons_cons]
          refine ⟨?_, ih fun x hx => hk x (by simp [hx])⟩
          rw [hk a (by simp), hk c (by simp)]
          simp
  · intro x hx y hy
    have h1 := hk x (List.mem_of_getLast? hx)
    have h2 := hr y hy
    rw [h1]
    simpa using h2.symm

theorem runs_nil (ws : α → Bool) : runs ws [] = [] := rfl

theorem head?_dropWhile {p : α → Bool} {l : List α} {y : α} (h : y ∈ (l.dropWhile p).head?) :
    p y = false := by
  induction l with
  | nil => simp at h
  | cons a l ih =>
    by_cases ha : p a
    · rw [List.dropWhile_cons_of_pos ha] at h; exact ih h
    · rw [List.dropWhile_cons_of_neg ha] at h
      simp only [List.head?_cons, Option.mem_def, Option.some.injEq] at h
      subst h
      simpa using ha

theorem mem_takeWhile {p : α → Bool} {l : List α} {y : α} (h : y ∈ l.takeWhile p) : p y = true := by
  induction l with
  | nil => simp at h
  | cons a l ih =>
    by_cases ha : p a
    · rw [List.takeWhile_cons_of_pos ha] at h
      rcases List.mem_cons.1 h with rfl | h
      · exact ha
      · exact ih h
    · rw [List.takeWhile_cons_of_neg ha] at h
      simp at h

theorem runs_cons (ws : α → Bool) (c : α) (l : List α) :
    runs ws (c :: l) = (c :: l.takeWhile fun x => ws x == ws c) ::
      runs ws (l.dropWhile fun x => ws x == ws c) := by
  conv_lhs => rw [← List.takeWhile_append_dropWhile (p := fun x => ws x == ws c) (l := l)]
  rw [← List.cons_append]
  apply runs_block (k := ws c) (by simp)
  · intro x hx
    rcases List.mem_cons.1 hx with rfl | hx
    · rfl
    · simpa using mem_takeWhile hx
  · intro y hy
    have := head?_dropWhile hy
    simpa using this

theorem runs_ws {ws : α → Bool} {c : α} (h : ws c = true) (l : List α) :
    runs ws (c :: l) = (c :: l.takeWhile ws) :: runs ws (l.dropWhile ws) := by
  rw [runs_cons]
  simp [h]

theorem runs_word {ws : α → Bool} {c : α} (h : ws c = false) (l : List α) :
    runs ws (c :: l) = (c :: l.takeWhile fun x => !ws x) :: runs ws (l.dropWhile fun x => !ws x) := by
  rw [runs_cons]
  simp [h]

theorem words_ws {ws : α → Bool} {c : α} (h : ws c = true) (l : List α) :
    words ws (c :: l) = words ws (l.dropWhile ws) := by
  unfold words
  rw [runs_ws h, List.filter_cons_of_neg (by simp [h])]

theorem words_dropWhile (ws : α → Bool) (l : List α) : words ws (l.dropWhile ws) = words ws l := by
  cases l with
  | nil => rfl
  | cons a l =>
    by_cases ha : ws a
    · rw [List.dropWhile_cons_of_pos ha, words_ws ha]
    · rw [List.dropWhile_cons_of_neg ha]

theorem words_word {ws : α → Bool} {c : α} (h : ws c = false) (l : List α) :
    words ws (c :: l) = (c :: l.takeWhile fun x => !ws x) :: words ws (l.dropWhile fun x => !ws x) := by
  unfold words
  rw [runs_word h, List.filter_cons_of_pos]
  simp only [List.all_cons, h, Bool.not_false, Bool.true_and, List.all_eq_true]
  intro x hx
  exact mem_takeWhile (p := fun x => !ws x) hx

end

theorem splitGo_eq (ws : Char → Bool) (s cur : Str) :
    splitWs.go ws s cur = if cur.isEmpty then words ws s else
      (cur.reverse ++ s.takeWhile fun x => !ws x) :: words ws (s.dropWhile fun x => !ws x) := by
  induction s generalizing cur with
  | nil =>
    unfold splitWs.go
    cases cur <;> simp [words, runs]
  | cons c s ih =>
    unfold splitWs.go
    cases h : ws c with
    | true =>
      simp only [if_true]
      have h1 : words ws (c :: s) = words ws s := by rw [words_ws h, words_dropWhile]
      cases cur with
      | nil => simp [ih, h1]
      | cons a cur => simp [ih, h, h1]
    | false =>
      simp only [Bool.false_eq_true, if_false, ih]
      cases cur with
      | nil => simp [words_word h]
      | cons a cur => simp [h]

theorem splitWs_eq (ws : Char → Bool) (s : Str) : splitWs ws s = words ws s := by
  unfold splitWs
  rw [splitGo_eq]
  rfl

theorem collapseWs_eq (ws : Char → Bool) (s : Str) : collapseWs ws s = normalizeSpace ws ' ' s := by
  induction s using collapseWs.induct (ws := ws) with
  | case1 => simp [collapseWs, normalizeSpace, runs]
  | case2 c => simp [collapseWs, normalizeSpace, runs_cons, runs_nil]
  | case3 c d rest h ih =>
    rw [collapseWs, if_pos h, ih]
    rw [Bool.and_eq_true] at h
    unfold normalizeSpace
    rw [runs_ws h.1, List.takeWhile_cons_of_pos h.2, List.dropWhile_cons_of_pos h.2, List.flatMap_cons,
      if_pos]
    · rfl
    · refine ⟨by simp, ?_⟩
      simp only [List.all_cons, h.1, h.2, Bool.true_and, List.all_eq_true]
      exact fun x hx => mem_takeWhile hx
  | case4 c d rest h ih =>
    rw [collapseWs, if_neg h, ih]
    unfold normalizeSpace
    cases hc : ws c with
    | true =>
      have hd : ws d = false := by simpa [hc] using h
      rw [runs_ws hc, List.takeWhile_cons_of_neg (by simp [hd]), List.dropWhile_cons_of_neg (by simp [hd]),
        List.flatMap_cons, if_neg (by simp)]
      rfl
    | false =>
      cases hd : ws d with
      | true =>
        rw [runs_word hc, List.takeWhile_cons_of_neg (by simp [hd]),
          List.dropWhile_cons_of_neg (by simp [hd]), List.flatMap_cons, if_neg (by simp)]
        rfl
      | false =>
        rw [runs_word hc, List.takeWhile_cons_of_pos (by simp [hd]),
          List.dropWhile_cons_of_pos (by simp [hd]), runs_word hd, List.flatMap_cons, List.flatMap_cons,
          if_neg (by simp [hd]), if_neg (by simp [hc])]
        rfl

theorem wbSizes_eq (w : Str) (hw : w ≠ []) (lo k : Nat) :
    wbSizes w (List.range' lo k) = wordBoundary lo (lo + k - 1) w ∨ k = 0 := by
  induction k generalizing lo with
  | zero => exact .inr rfl
  | succ k ih =>
    left
    have hpos : 0 < w.length := List.length_pos_iff.2 hw
    rw [List.range'_succ]
    unfold wbSizes wbWindows
    by_cases hs : w.length - lo = 0
    · simp only [hs, decide_true, if_true]
      unfold wordBoundary
      rw [ngrams_empty (by omega), if_pos (by omega)]
      have : w.length ≤ lo := by omega
      simp [pySlice, List.take_of_length_le this]
    · simp only [hs, decide_false, Bool.false_eq_true, if_false]
      have h1 : (List.range (w.length - lo + 1)).map (fun i => pySlice w i (i + lo)) = windows lo w := by
        rw [windows_eq]
        congr 2
        omega
      rw [h1]
      rcases ih (lo + 1) with h | h
      · rw [h]
        unfold wordBoundary
        have e : lo + 1 + k - 1 = lo + (k + 1) - 1 := by omega
        rw [e, ngrams_cons (lo := lo) (by omega), List.append_assoc]
        by_cases hk : k = 0
        · subst hk
          rw [if_neg (by omega), if_neg (by omega)]
        · congr 2
          by_cases hl : w.length ≤ lo + (k + 1) - 1
          · rw [if_pos (by omega), if_pos (by omega)]
          · rw [if_neg (by omega), if_neg (by omega)]
      · subst h
        unfold wordBoundary
        rw [ngrams_cons (lo := lo) (by omega), ngrams_empty (by omega), if_neg (by omega)]
        simp [wbSizes]

end PurePredict
