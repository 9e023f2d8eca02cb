/-
Specification of the text analysers: contiguous windows, runs of characters.
-/
namespace PurePredict.Spec
variable {α : Type}

/-- The contiguous windows of size `n` of a list, from left to right. -/
def windows (n : Nat) : List α → List (List α)
  | [] => if n = 0 then [[]] else []
  | a :: l => if n ≤ (a :: l).length then (a :: l).take n :: windows n l else []

/-- All windows of sizes `lo, …, hi`, in order of size then position. -/
def ngrams (lo hi : Nat) (l : List α) : List (List α) :=
  (List.range' lo (hi + 1 - lo)).flatMap fun n => windows n l

/-- The maximal runs of whitespace and of non-whitespace characters. -/
def runs (ws : α → Bool) (s : List α) : List (List α) := s.splitBy fun a b => ws a == ws b

/-- Replace every maximal run of two or more whitespace characters by one space. -/
def normalizeSpace (ws : α → Bool) (space : α) (s : List α) : List α :=
  (runs ws s).flatMap fun r => if 2 ≤ r.length ∧ r.all ws then [space] else r

/-- The words of a text: its maximal runs of non-whitespace characters. -/
def words (ws : α → Bool) (s : List α) : List (List α) :=
  (runs ws s).filter fun r => r.all fun c => !ws c

/-- Windows of sizes `lo, …, hi` of a word, where sizes at least as long as the word count once
(as the word itself). -/
def wordBoundary (lo hi : Nat) (w : List α) : List (List α) :=
  ngrams lo (min hi (w.length - 1)) w ++ if w.length ≤ hi ∧ lo ≤ hi then [w] else []

end PurePredict.Spec
