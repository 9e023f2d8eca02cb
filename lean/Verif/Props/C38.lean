import Verif.Props.C37
import Verif.Lemmas.Sparse
import Verif.Lemmas.XR
/-
C38: hashing columns and signs.
-/
namespace PurePredict
open Spec

/-- **C38**: the column is in range. -/
theorem C38_range (h : Int) {n : Nat} (hn : 0 < n) : hashIndex h n < n := Nat.mod_lt _ hn

/-- **C38**: the column is the reference hasher's, for every signed 32-bit hash (including -2^31)
and every accepted `n_features`. -/
theorem C38_column (h : Int) {n : Nat} (hn : 0 < n) (hn' : n ≤ 2147483647) :
    hashIndex h n = refColumn h n := by
  unfold hashIndex refColumn
  by_cases hh : h = -2147483648
  · rw [if_pos hh, hh]
    have e : (2147483647 - (n - 1)) = 2147483648 - n := by omega
    rw [e]
    have : (-2147483648 : Int).natAbs = 2147483648 := rfl
    rw [this]
    have h1 : 2147483648 = (2147483648 - n) + n := by omega
    conv_lhs => rw [h1]
    exact Nat.add_mod_right _ _
  · rw [if_neg hh]

section
variable {F : Type} [Arith F]

/-- Name and value of a feature: a string value `v` makes the feature `name=v` with value 1. -/
def effective (fv : Str × FeatVal F) : Str × F :=
  match fv.2 with
  | .str s => (fv.1 ++ '=' :: s, ofInt 1)
  | .num v => (fv.1, v)

/-- The reference hash of a feature name, given its UTF-8 bytes. -/
def refHash (utf8 : Str → List (BitVec 8)) (f : Str) : Int := (murmur3 (utf8 f) 0#32).toInt

/-- What one feature contributes: column and signed value (nothing if its value is 0). -/
def contribution (utf8 : Str → List (BitVec 8)) (n : Nat) (alt : Bool) (fv : Str × FeatVal F) :
    Option (Nat × F) :=
  let p := effective fv
  if p.2 ==ₚ ofInt 0 then none
  else some (refColumn (refHash utf8 p.1) n,
    if alt then p.2 *ₚ ofInt (if 0 ≤ refHash utf8 p.1 then 1 else -1) else p.2)

/-- **C38**: one feature is written to the reference hasher's column with the sign of its hash. -/
theorem C38_step (utf8 : Str → List (BitVec 8)) {n : Nat}
    (hn : 0 < n) (hn' : n ≤ 2147483647) (alt : Bool) (row : Dict Int F) (fv : Str × FeatVal F)
    (hlen : (utf8 (effective fv).1).length < 2 ^ 32) :
    hashStep (fun f => nats (utf8 f)) n alt 0 row fv =
      match contribution utf8 n alt fv with
      | none => row
      | some (c, v) => row.set (c : Int) v := by
  have hm : murmur (nats (utf8 (effective fv).1)) 0 = refHash utf8 (effective fv).1 :=
    C37_murmur _ 0#32 hlen
  obtain ⟨f, v⟩ := fv
  cases v with
  | num v =>
    simp only [effective] at hm
    simp only [hashStep, contribution, effective, hm, C38_column _ hn hn']
    by_cases hv : (v ==ₚ ofInt 0) = true
    · simp [hv]
    · simp only [hv]
      by_cases h0 : 0 ≤ refHash utf8 f <;> cases alt <;> simp [h0]
  | str s =>
    simp only [effective] at hm
    simp only [hashStep, contribution, effective, hm, C38_column _ hn hn']
    by_cases hv : ((ofInt 1 : F) ==ₚ ofInt 0) = true
    · simp [hv]
    · simp only [hv]
      by_cases h0 : 0 ≤ refHash utf8 (f ++ '=' :: s) <;> cases alt <;> simp [h0]

/-- The row computed for a feature list. -/
def hashRow (encode : Str → List Nat) (n : Nat) (alt : Bool) (x : List (Str × FeatVal F)) : Dict Int F :=
  x.foldl (hashStep encode n alt 0) []

theorem hashStep_valid (encode : Str → List Nat) {n : Nat} (hn : 0 < n) (alt : Bool) {row : Dict Int F}
    (hr : ValidRow n row) (fv : Str × FeatVal F) : ValidRow n (hashStep encode n alt 0 row fv) := by
  have hset : ∀ (h : Int) (v : F), ValidRow n (row.set (hashIndex h n : Int) v) := by
    intro h v
    constructor
    · exact Dict.nodup_keys_set (d := row) hr.1
    · intro p hp
      have hk : p.1 ∈ Dict.keys (row.set (hashIndex h n : Int) v) := List.mem_map.2 ⟨p, hp, rfl⟩
      rcases Dict.mem_keys_set.1 hk with hk | hk
      · obtain ⟨q, hq, hqp⟩ := List.mem_map.1 hk
        rw [← hqp]; exact hr.2 q hq
      · rw [hk]
        have := C38_range h hn
        omega
  obtain ⟨f, v⟩ := fv
  cases v <;> simp only [hashStep] <;> split <;> first | exact hr | exact hset _ _

/-- **C38**, through `_hashing_transform`: a sparse matrix with `n_features` columns, every stored
column in `[0, n_features)`. -/
theorem C38_transform (encode : Str → List Nat) {n : Nat} (hn : 0 < n) (dt : DType) (alt : Bool)
    {X : List (List (Str × FeatVal F))} (hX : X ≠ []) :
    hashingTransform encode X n dt alt = .ok (.sparse (X.map (hashRow encode n alt)) (some n) dt) ∧
      ∀ x ∈ X, ValidRow n (hashRow encode n alt x : Dict Int F) := by
  constructor
  · have h := sparseList_dicts (ds := X.map (hashRow encode n alt)) (by simpa using hX) (some n) dt
    rw [List.map_map] at h
    unfold hashingTransform
    rw [if_neg (by omega)]
    exact h
  · intro x hx
    clear hx
    unfold hashRow
    have : ∀ (d : Dict Int F), ValidRow n d → ValidRow n (x.foldl (hashStep encode n alt 0) d) := by
      induction x with
      | nil => exact fun d hd => hd
      | cons a x ih => exact fun d hd => ih _ (hashStep_valid encode hn alt hd a)
    exact this [] ⟨by simp, by simp⟩

/-- `n_features` outside `[1, 2^31)` is refused. -/
theorem C38_validate (n : Int) : (validateNFeatures n = .error .valueError ↔ n < 1 ∨ 2147483648 ≤ n) ∧
    (∀ m, validateNFeatures n = .ok m ↔ (1 ≤ n ∧ n ≤ 2147483647 ∧ m = n.toNat)) := by
  unfold validateNFeatures
  constructor
  · split
    · rename_i h; simp; omega
    · rename_i h; simp; omega
  · intro m
    split
    · rename_i h; simp; omega
    · rename_i h
      simp only [Except.ok.injEq]
      omega

end

/-- Non-vacuity: the special hash -2^31 with 10 columns is column 8 in both. -/
example : hashIndex (-2147483648) 10 = 8 ∧ refColumn (-2147483648) 10 = 8 := by decide

/-- Non-vacuity of `C38_step`: one token. -/
example (utf8 : Str → List (BitVec 8)) (hlen : (utf8 "a".toList).length < 2 ^ 32) :
    hashStep (fun f => nats (utf8 f)) 16 true 0 ([] : Dict Int Ex) ("a".toList, .num (ofInt 1)) =
      [((refColumn (refHash utf8 "a".toList) 16 : Int),
        ofInt 1 *ₚ ofInt (if 0 ≤ refHash utf8 "a".toList then 1 else -1))] := by
  rw [C38_step utf8 (by omega) (by omega) _ _ _ (by exact hlen)]
  have : ((ofInt 1 : Ex) ==ₚ ofInt 0) = false := by simp
  simp [contribution, effective, Dict.set]

end PurePredict
