import Verif.Spec.Utf8
import Verif.Model.Hash
import Verif.Lemmas.Murmur
import Mathlib.Tactic.IntervalCases
/-
The encoder of the model in arithmetic form, and against Lean's core library.
-/
namespace PurePredict
open Spec

theorem or_add (a k x : Nat) (h : x < 2 ^ k) : (a * 2 ^ k) ||| x = a * 2 ^ k + x := by
  rw [Nat.mul_comm, Nat.two_pow_add_eq_or_of_lt h]

theorem or_c0 (x : Nat) (h : x < 32) : 0xC0 ||| x = 0xC0 + x := or_add 6 5 x h
theorem or_e0 (x : Nat) (h : x < 16) : 0xE0 ||| x = 0xE0 + x := or_add 14 4 x h
theorem or_f0 (x : Nat) (h : x < 8) : 0xF0 ||| x = 0xF0 + x := or_add 30 3 x h
theorem or_80 (x : Nat) (h : x < 64) : 0x80 ||| x = 0x80 + x := or_add 2 6 x h
theorem and_3f (x : Nat) : x &&& 0x3F = x % 64 := Nat.and_two_pow_sub_one_eq_mod x 6
theorem or_80_and (x : Nat) : 0x80 ||| (x &&& 0x3F) = 0x80 + x % 64 := by
  rw [and_3f, or_80 _ (Nat.mod_lt _ (by decide))]

theorem char_lt (c : Char) : c.toNat < 0x110000 := by
  have := c.valid
  rcases this with h | h
  · exact lt_of_lt_of_le h (by decide)
  · exact h.2

/-- The encoder in arithmetic form. -/
theorem utf8Char_eq (c : Char) : utf8Char c =
    if c.toNat < 128 then [c.toNat]
    else if c.toNat < 2048 then [192 + c.toNat / 64, 128 + c.toNat % 64]
    else if c.toNat < 65536 then [224 + c.toNat / 4096, 128 + c.toNat / 64 % 64, 128 + c.toNat % 64]
    else [240 + c.toNat / 262144, 128 + c.toNat / 4096 % 64, 128 + c.toNat / 64 % 64, 128 + c.toNat % 64] := by
  have hc := char_lt c
  unfold utf8Char
  simp only [or_80_and, Nat.shiftRight_eq_div_pow]
  split
  · rfl
  · split
    · rw [or_c0 _ (by omega)]
    · split
      · rw [or_e0 _ (by omega)]
      · rw [or_f0 _ (by omega)]

theorem core_char (c : Char) : nats ((String.utf8EncodeChar c).map UInt8.toBitVec) = utf8Char c := by
  have hc := char_lt c
  rw [utf8Char_eq]
  have hv : c.val.toNat = c.toNat := rfl
  unfold String.utf8EncodeChar nats
  simp only [hv]
  split
  · rename_i h
    rw [if_pos (by omega)]
    simp; omega
  · split
    · rename_i h1 h
      rw [if_neg (by omega), if_pos (by omega)]
      simp; omega
    · split
      · rename_i h1 h2 h
        rw [if_neg (by omega), if_neg (by omega), if_pos (by omega)]
        simp; omega
      · rename_i h1 h2 h
        rw [if_neg (by omega), if_neg (by omega), if_neg (by omega)]
        simp; omega

theorem nats_coreUtf8 (s : Str) : nats (coreUtf8 s) = utf8 s := by
  unfold coreUtf8 utf8
  induction s with
  | nil => rfl
  | cons c s ih =>
    rw [List.flatMap_cons, List.flatMap_cons, List.map_append, ← ih, ← core_char]
    simp [nats]

theorem utf8Char_length (c : Char) : 1 ≤ (utf8Char c).length ∧ (utf8Char c).length ≤ 4 := by
  rw [utf8Char_eq]
  split
  · simp
  · split
    · simp
    · split <;> simp

theorem utf8_length (s : Str) : s.length ≤ (utf8 s).length ∧ (utf8 s).length ≤ 4 * s.length := by
  unfold utf8
  induction s with
  | nil => simp
  | cons c s ih =>
    have := utf8Char_length c
    rw [List.flatMap_cons, List.length_append, List.length_cons]
    omega

theorem readChar_utf8 (c : Char) (l : List Nat) : readChar (utf8Char c ++ l) = some (c.toNat, l) := by
  have hc := char_lt c
  rw [utf8Char_eq]
  split
  · rename_i h; simp [readChar, h]
  · split
    · rename_i h1 h
      simp only [readChar, List.cons_append, List.nil_append]
      rw [if_neg (by omega), if_neg (by omega), if_pos (by omega)]
      simp; omega
    · split
      · rename_i h1 h2 h
        simp only [readChar, List.cons_append, List.nil_append]
        rw [if_neg (by omega), if_neg (by omega), if_neg (by omega), if_pos (by omega)]
        simp; omega
      · rename_i h1 h2 h
        simp only [readChar, List.cons_append, List.nil_append]
        rw [if_neg (by omega), if_neg (by omega), if_neg (by omega), if_neg (by omega)]
        simp; omega

end PurePredict
