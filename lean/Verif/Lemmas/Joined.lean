import Verif.Spec.Joined
import Verif.Props.C33
import Verif.Props.C70
/-
Texts joined by a separator: words, windows, preprocessing.
-/
namespace PurePredict
open Spec

theorem splitGo_join {ws : Char → Bool} {c : Char} (hc : ws c = true) (a b cur : Str) :
    splitWs.go ws (a ++ c :: b) cur = splitWs.go ws a cur ++ splitWs.go ws b [] := by
  induction a generalizing cur with
  | nil =>
    simp only [List.nil_append, splitWs.go, hc, if_true]
    cases cur <;> simp
  | cons d a ih =>
    simp only [List.cons_append, splitWs.go]
    split
    · split
      · exact ih _
      · rw [ih]; rfl
    · exact ih _

theorem splitWs_join {ws : Char → Bool} {c : Char} (hc : ws c = true) (a b : Str) :
    splitWs ws (a ++ c :: b) = splitWs ws a ++ splitWs ws b := splitGo_join hc a b []

theorem words_join {ws : Char → Bool} {c : Char} (hc : ws c = true) (a b : Str) :
    words ws (a ++ c :: b) = words ws a ++ words ws b := by
  rw [← splitWs_eq, ← splitWs_eq, ← splitWs_eq, splitWs_join hc]

theorem splitGo_dropWhile (ws : Char → Bool) (s : Str) :
    splitWs.go ws (s.dropWhile ws) [] = splitWs.go ws s [] := by
  induction s with
  | nil => rfl
  | cons d s ih =>
    cases hd : ws d
    · rw [List.dropWhile_cons_of_neg (by simp [hd])]
    · rw [List.dropWhile_cons_of_pos hd, ih]
      simp [splitWs.go, hd]

theorem splitGo_collapse {ws : Char → Bool} (hs : ws ' ' = true) (s cur : Str) :
    splitWs.go ws (collapseWs ws s) cur = splitWs.go ws s cur := by
  induction s using collapseWs.induct (ws := ws) generalizing cur with
  | case1 => simp [collapseWs]
  | case2 c => simp [collapseWs]
  | case3 c d rest h ih =>
    simp only [Bool.and_eq_true] at h
    rw [collapseWs]
    simp only [h.1, h.2, Bool.and_self, if_true, splitWs.go, hs, ih, splitGo_dropWhile]
    cases cur <;> simp
  | case4 c d rest h ih =>
    rw [collapseWs, if_neg h]
    show (if ws c then (if cur.isEmpty then splitWs.go ws (collapseWs ws (d :: rest)) [] else
        cur.reverse :: splitWs.go ws (collapseWs ws (d :: rest)) [])
      else splitWs.go ws (collapseWs ws (d :: rest)) (c :: cur)) =
      (if ws c then (if cur.isEmpty then splitWs.go ws (d :: rest) [] else
        cur.reverse :: splitWs.go ws (d :: rest) []) else splitWs.go ws (d :: rest) (c :: cur))
    simp only [ih]

theorem charWb_join {ws : Char → Bool} {c : Char} (hc : ws c = true) (hs : ws ' ' = true) (lo hi : Nat)
    (a b : Str) :
    charWbNgrams ws lo hi (a ++ c :: b) = charWbNgrams ws lo hi a ++ charWbNgrams ws lo hi b := by
  have e : ∀ s, splitWs ws (collapseWs ws s) = splitWs ws s := fun s => splitGo_collapse hs s []
  simp only [charWbNgrams, e, splitWs_join hc, List.flatMap_append]

theorem default_join {w : Char → Bool} {c : Char} (hc : w c = false) (a b : Str) :
    (defaultTokenPattern w).findall none (a ++ c :: b) =
      (defaultTokenPattern w).findall none a ++ (defaultTokenPattern w).findall none b := by
  simp only [C70_default_tokens]
  rw [words_join (by simp [hc]), List.filter_append]

theorem preprocess_join {lib : TextLib} {c : Char} (h : Separator lib c) {o : VectorizerOpts} {pre : Str → Str}
    (hp : buildPreprocessor lib o = .ok pre) (a b : Str) : pre (a ++ c :: b) = pre a ++ c :: pre b := by
  have hfilt : ∀ s : Str, (∀ d ∈ s, d.toNat < 128) → (lib.nfkd s).filter (fun d => !lib.combining d) = s := by
    intro s hs
    rw [h.plain s hs, List.filter_eq_self]
    intro d hd
    simp [h.marks d (hs d hd)]
  have hu : ∀ a b : Str, stripAccentsUnicode lib.nfkd lib.combining (a ++ c :: b) =
      stripAccentsUnicode lib.nfkd lib.combining a ++ c :: stripAccentsUnicode lib.nfkd lib.combining b := by
    have hone : ∀ s : Str, stripAccentsUnicode lib.nfkd lib.combining s =
        (lib.nfkd s).filter fun d => !lib.combining d := by
      intro s
      unfold stripAccentsUnicode
      split
      · rename_i hs
        exact (hfilt s (by simpa using hs)).symm
      · rfl
    intro a b
    simp only [hone, h.nfkd, List.filter_append]
    rw [List.filter_cons_of_pos (by simp [h.marks c h.ascii])]
  have ha : ∀ a b : Str, stripAccentsAscii lib.nfkd (a ++ c :: b) =
      stripAccentsAscii lib.nfkd a ++ c :: stripAccentsAscii lib.nfkd b := by
    intro a b
    simp only [stripAccentsAscii, h.nfkd, List.filter_append]
    rw [List.filter_cons_of_pos (by simpa using h.ascii)]
  unfold buildPreprocessor at hp
  cases hk : o.stripAccents <;> simp only [hk, py_ok_bind, py_pure, Except.ok.injEq, py_error_bind, reduceCtorEq] at hp
  all_goals
    subst hp
    cases o.lowercase <;> simp [preprocess, h.lower, ha, hu]

theorem windows_join {α : Type} (n : Nat) (hn : 1 ≤ n) (l k : List α) :
    (windows n l ++ windows n k).Sublist (windows n (l ++ k)) := by
  induction l with
  | nil =>
    have : n ≠ 0 := by omega
    simp [windows, this]
  | cons x l ih =>
    simp only [List.cons_append, windows]
    by_cases h : n ≤ (x :: l).length
    · have h' : n ≤ (x :: (l ++ k)).length := by simp at h ⊢; omega
      rw [if_pos h, if_pos h', List.cons_append]
      have e : (x :: (l ++ k)).take n = (x :: l).take n := by
        rw [← List.cons_append, List.take_append_of_le_length h]
      rw [e]
      exact ih.cons₂ _
    · rw [if_neg h, List.nil_append]
      have hl : windows n l = [] := windows_short (by simp at h; omega)
      rw [hl, List.nil_append] at ih
      split
      · exact ih.trans (List.sublist_cons_self _ _)
      · rename_i h'
        rw [windows_short (n := n) (l := k) (by simp at h'; omega)]

/-- Every n-gram of two lists occurs at least as often in the joined list. -/
theorem ngrams_join {α β : Type} [BEq β] [LawfulBEq β] (f : List α → β) (lo hi : Nat) (h1 : 1 ≤ lo) (l k : List α) (g : β) :
    ((ngrams lo hi l).map f).count g + ((ngrams lo hi k).map f).count g ≤ ((ngrams lo hi (l ++ k)).map f).count g := by
  unfold ngrams
  have hm : ∀ n ∈ List.range' lo (hi + 1 - lo), 1 ≤ n := by
    intro n hn
    have := (List.mem_range'_1.1 hn).1
    omega
  revert hm
  generalize List.range' lo (hi + 1 - lo) = ns
  intro hm
  induction ns with
  | nil => simp
  | cons n ns ih =>
    have i1 := ih fun m h => hm m (by simp [h])
    have i2 := ((windows_join n (hm n (by simp)) l k).map f).count_le g
    simp only [List.flatMap_cons, List.map_append, List.count_append] at i1 i2 ⊢
    omega

end PurePredict
