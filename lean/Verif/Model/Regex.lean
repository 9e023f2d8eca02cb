import Verif.Model.Text
/-
The fragment of Python's `re` that feature_extraction/text.py uses: character classes, greedy `+`
on a class, `\b` and concatenation, with `findall` and `sub`.  A backtracking matcher that lists
the ends of all matches at a position in order of preference (greedy first).
Standard library code, not code of the repository; called from text.py:97, 116, 170, 193, 239.
-/
namespace PurePredict

/-- Patterns. -/
inductive Re
  /-- one character of a class: `\w`, `\s`, `[^>]`, a literal -/
  | cls (p : Char → Bool)
  /-- greedy `+` on a class -/
  | plus (p : Char → Bool)
  /-- `\b` for the class `\w` -/
  | bound (w : Char → Bool)
  | seq (a b : Re)

/-- A position in the text: the character before it and the text after it. -/
abbrev RePos := Option Char × Str

/-- All ends of `p+`, longest first. -/
def plusEnds (p : Char → Bool) : Str → List RePos
  | [] => []
  | c :: cs => if p c then plusEnds p cs ++ [(some c, cs)] else []

/-- The ends of the matches of a pattern at a position, in order of preference. -/
def Re.ends : Re → RePos → List RePos
  | .cls _, (_, []) => []
  | .cls p, (_, c :: cs) => if p c then [(some c, cs)] else []
  | .plus p, (_, s) => plusEnds p s
  | .bound w, (prev, s) => if (prev.any w) != (s.head?.any w) then [(prev, s)] else []
  | .seq a b, pos => (a.ends pos).flatMap b.ends

/-- The end of the match at a position, if there is one.  Patterns that match the empty string are
outside this fragment: an empty match counts as none. -/
def Re.matchAt (r : Re) (prev : Option Char) (s : Str) : Option RePos :=
  match r.ends (prev, s) with
  | e :: _ => if e.2.length < s.length then some e else none
  | [] => none

theorem Re.matchAt_lt {r : Re} {prev : Option Char} {s : Str} {e : RePos}
    (h : r.matchAt prev s = some e) : e.2.length < s.length := by
  unfold Re.matchAt at h
  split at h
  · split at h
    · cases h; assumption
    · cases h
  · cases h

/-- `pattern.findall(s)`: the texts of the leftmost, non-overlapping matches (text.py:239-240). -/
def Re.findall (r : Re) (prev : Option Char) (s : Str) : List Str :=
  match s with
  | [] => []
  | c :: cs =>
    match _h : r.matchAt prev (c :: cs) with
    | some e => (c :: cs).take ((c :: cs).length - e.2.length) :: r.findall e.1 e.2
    | none => r.findall (some c) cs
  termination_by s.length
  decreasing_by
    · exact Re.matchAt_lt _h
    · simp

/-- `pattern.sub(repl, s)` with a plain replacement text (text.py:97, 170, 193). -/
def Re.sub (r : Re) (repl : Str) (prev : Option Char) (s : Str) : Str :=
  match s with
  | [] => []
  | c :: cs =>
    match _h : r.matchAt prev (c :: cs) with
    | some e => repl ++ r.sub repl e.1 e.2
    | none => c :: r.sub repl (some c) cs
  termination_by s.length
  decreasing_by
    · exact Re.matchAt_lt _h
    · simp

/-- scikit-learn's default `token_pattern`, `r"(?u)\b\w\w+\b"` (the attribute read at
text.py:341, 462 and compiled at text.py:239); `w` is the class `\w`. -/
def defaultTokenPattern (w : Char → Bool) : Re :=
  .seq (.bound w) (.seq (.cls w) (.seq (.plus w) (.bound w)))

/-- `re.compile(r"\s\s+")`, text.py:116. -/
def whiteSpaces (ws : Char → Bool) : Re := .seq (.cls ws) (.plus ws)

/-- text.py:95-97 `strip_tags`: `re.compile(r"<([^>]+)>").sub(" ", s)` (not called by any class) -/
def stripTags (s : Str) : Str :=
  (Re.seq (.cls (· == '<')) (.seq (.plus (· != '>')) (.cls (· == '>')))).sub [' '] none s

end PurePredict
