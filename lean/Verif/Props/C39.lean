import Verif.Props.C38
/-
C39: hashing accumulates.  False of the code: `row[index] = value` overwrites (_hash.py:112).
-/
namespace PurePredict
open Spec

section
variable {F : Type} [Arith F]

/-- The contributions of a feature list to column `j`, in order. -/
def contributions (utf8 : Str → List (BitVec 8)) (n : Nat) (alt : Bool) (x : List (Str × FeatVal F))
    (j : Nat) : List F :=
  ((x.filterMap (contribution utf8 n alt)).filter fun p => decide (p.1 = j)).map Prod.snd

/-- All feature names of a list are shorter than 4 GiB when encoded. -/
def ShortNames (utf8 : Str → List (BitVec 8)) (x : List (Str × FeatVal F)) : Prop :=
  ∀ fv ∈ x, (utf8 (effective fv).1).length < 2 ^ 32

/-- The claim of C39: every column holds the sum of its contributions. -/
def Accumulates (utf8 : Str → List (BitVec 8)) (n : Nat) (alt : Bool) : Prop :=
  ∀ (x : List (Str × FeatVal F)) (j : Nat), ShortNames utf8 x → j < n →
    entry (ofInt 0) (hashRow (fun f => nats (utf8 f)) n alt x) j =
      pySum (contributions utf8 n alt x j)

theorem hashFold_get? (utf8 : Str → List (BitVec 8)) {n : Nat}
    (hn : 0 < n) (hn' : n ≤ 2147483647) (alt : Bool) (x : List (Str × FeatVal F)) (hlen : ShortNames utf8 x)
    (d : Dict Int F) (j : Nat) :
    (x.foldl (hashStep (fun f => nats (utf8 f)) n alt 0) d).get? (j : Int) =
      match (contributions utf8 n alt x j).getLast? with
      | some v => some v
      | none => d.get? (j : Int) := by
  induction x generalizing d with
  | nil => simp [contributions]
  | cons a x ih =>
    rw [List.foldl_cons, ih (fun fv h => hlen fv (List.mem_cons_of_mem _ h)),
      C38_step utf8 hn hn' _ _ _ (hlen a (by simp))]
    cases hc : contribution utf8 n alt a with
    | none =>
      have : contributions utf8 n alt (a :: x) j = contributions utf8 n alt x j := by
        simp [contributions, hc]
      rw [this]
    | some p =>
      obtain ⟨c, v⟩ := p
      simp only
      by_cases hcj : c = j
      · subst hcj
        have : contributions utf8 n alt (a :: x) c = v :: contributions utf8 n alt x c := by
          simp [contributions, hc]
        rw [this, List.getLast?_cons, Dict.get?_set, if_pos rfl]
        cases (contributions utf8 n alt x c).getLast? <;> rfl
      · have : contributions utf8 n alt (a :: x) j = contributions utf8 n alt x j := by
          simp [contributions, hc, hcj]
        rw [this, Dict.get?_set, if_neg (by exact_mod_cast hcj)]

/-- **C39**, what the code does: a column holds the *last* contribution to it. -/
theorem C39_last_partial (utf8 : Str → List (BitVec 8)) {n : Nat}
    (hn : 0 < n) (hn' : n ≤ 2147483647) (alt : Bool) (x : List (Str × FeatVal F)) (hlen : ShortNames utf8 x)
    (j : Nat) :
    entry (ofInt 0) (hashRow (fun f => nats (utf8 f)) n alt x) j =
      (contributions utf8 n alt x j).getLast?.getD (ofInt 0) := by
  rw [entry_eq_get?, hashRow, hashFold_get? utf8 hn hn' _ _ hlen]
  cases (contributions utf8 n alt x j).getLast? <;> rfl

end

/-- **C39**, exact arithmetic: the claim holds for a column with at most one contribution. -/
theorem C39_no_collision_partial (utf8 : Str → List (BitVec 8))
    {n : Nat} (hn : 0 < n) (hn' : n ≤ 2147483647) (alt : Bool) (x : List (Str × FeatVal Ex))
    (hlen : ShortNames utf8 x) (j : Nat)
    (h1 : (contributions utf8 n alt x j).length ≤ 1)
    (hfin : ∀ v ∈ contributions utf8 n alt x j, ∃ r, v = XR.fin r) :
    entry (ofInt 0) (hashRow (fun f => nats (utf8 f)) n alt x) j = pySum (contributions utf8 n alt x j) := by
  rw [C39_last_partial utf8 hn hn' _ _ hlen]
  generalize contributions utf8 n alt x j = l at h1 hfin
  match l with
  | [] => rfl
  | [v] =>
    obtain ⟨r, rfl⟩ := hfin v (by simp)
    simp [pySum]
  | a :: b :: l => simp at h1

/-- A token with value 1. -/
noncomputable def tok (t : Str) : Str × FeatVal Ex := (t, .num (ofInt 1))

/-- The signed contribution of a token. -/
noncomputable def tokSign (utf8 : Str → List (BitVec 8)) (alt : Bool) (t : Str) : ℝ :=
  if alt then (if 0 ≤ refHash utf8 t then 1 else -1) else 1

theorem contribution_tok (utf8 : Str → List (BitVec 8)) (n : Nat) (alt : Bool) (t : Str) :
    contribution utf8 n alt (tok t) = some (refColumn (refHash utf8 t) n, .fin (tokSign utf8 alt t)) := by
  have h1 : ((ofInt 1 : Ex) ==ₚ ofInt 0) = false := by simp
  simp only [contribution, tok, effective, h1]
  cases alt with
  | false => simp [tokSign]
  | true =>
    by_cases h0 : 0 ≤ refHash utf8 t <;> simp [tokSign, h0]

theorem tokSign_ne (utf8 : Str → List (BitVec 8)) (alt : Bool) (t : Str) : tokSign utf8 alt t ≠ 0 := by
  unfold tokSign
  cases alt
  · simp
  · by_cases h0 : 0 ≤ refHash utf8 t <;> simp [h0]

/-- **C39 is false** for every encoding, every number of columns and both sign settings: a token
occurring twice (here `t`) counts once. -/
theorem C39_false (utf8 : Str → List (BitVec 8)) (t : Str) (hlen : (utf8 t).length < 2 ^ 32) {n : Nat}
    (hn : 0 < n) (hn' : n ≤ 2147483647) (alt : Bool) : ¬ Accumulates (F := Ex) utf8 n alt := by
  intro h
  set c := refColumn (refHash utf8 t) n with hc
  have hcn : c < n := by
    rw [hc, ← C38_column _ hn hn']
    exact C38_range _ hn
  have hs : ShortNames utf8 [tok t, tok t] := by
    intro fv h; simp only [List.mem_cons, List.not_mem_nil, or_false, or_self] at h; subst h; exact hlen
  have h2 := h [tok t, tok t] c hs hcn
  have hcon : contributions utf8 n alt [tok t, tok t] c =
      [.fin (tokSign utf8 alt t), .fin (tokSign utf8 alt t)] := by
    simp [contributions, contribution_tok, ← hc]
  rw [C39_last_partial utf8 hn hn' _ _ hs, hcon] at h2
  have hne := tokSign_ne utf8 alt t
  simp [pySum] at h2
  exact hne (by linarith)

/-- Non-vacuity of `C39_no_collision_partial`: a document of one token. -/
example (utf8 : Str → List (BitVec 8)) (t : Str) (hlen : (utf8 t).length < 2 ^ 32) :
    entry (ofInt 0) (hashRow (fun f => nats (utf8 f)) 8 true [tok t]) (refColumn (refHash utf8 t) 8) =
      .fin (tokSign utf8 true t) := by
  have hcon : contributions utf8 8 true [tok t] (refColumn (refHash utf8 t) 8) =
      [.fin (tokSign utf8 true t)] := by simp [contributions, contribution_tok]
  rw [C39_no_collision_partial utf8 (by omega) (by omega) true _ (by
      intro fv h; simp only [List.mem_cons, List.not_mem_nil, or_false] at h; subst h; exact hlen) _ (by rw [hcon]; simp)
    (by rw [hcon]; simp), hcon]
  simp [pySum]

end PurePredict
