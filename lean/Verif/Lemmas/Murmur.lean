import Verif.Spec.Murmur
import Verif.Model.Hash
import Mathlib.Data.Nat.Bitwise
import Mathlib.Tactic.Positivity
/-
The Python hash on unbounded integers against 32-bit words.
-/
namespace PurePredict
open Spec

theorem and_mask32 (n : Nat) : n &&& mask32 = n % 2 ^ 32 := Nat.and_two_pow_sub_one_eq_mod n 32

theorem rot_toNat (x : BitVec 32) (r : Nat) (hr : r < 32) :
    ((x.toNat <<< r) ||| (x.toNat >>> (32 - r))) &&& mask32 = (x.rotateLeft r).toNat := by
  rw [BitVec.toNat_rotateLeft, Nat.mod_eq_of_lt hr, Nat.and_or_distrib_right, and_mask32, and_mask32]
  congr 1
  apply Nat.mod_eq_of_lt
  exact lt_of_le_of_lt (by rw [Nat.shiftRight_eq_div_pow]; exact Nat.div_le_self _ _) x.isLt

theorem rotl15_toNat (x : BitVec 32) : rotl15 x.toNat = (x.rotateLeft 15).toNat :=
  rot_toNat x 15 (by omega)

theorem rotl13_toNat (x : BitVec 32) : rotl13 x.toNat = (x.rotateLeft 13).toNat :=
  rot_toNat x 13 (by omega)

theorem mul_mask (x c : BitVec 32) : (x.toNat * c.toNat) &&& mask32 = (x * c).toNat := by
  rw [and_mask32, BitVec.toNat_mul]

theorem mul_mask' (x c : BitVec 32) : (c.toNat * x.toNat) &&& mask32 = (x * c).toNat := by
  rw [Nat.mul_comm, mul_mask]

theorem c1_toNat : c1 = (0xcc9e2d51#32).toNat := rfl
theorem c2_toNat : c2 = (0x1b873593#32).toNat := rfl

theorem mixK_toNat (k : BitVec 32) :
    (rotl15 ((k.toNat * c1) &&& mask32) * c2) &&& mask32 = (mixK k).toNat := by
  rw [c1_toNat, c2_toNat, mul_mask, rotl15_toNat, mul_mask]
  rfl

theorem load_toNat (b0 b1 b2 b3 : BitVec 8) :
    (b3.toNat <<< 24) ||| (b2.toNat <<< 16) ||| (b1.toNat <<< 8) ||| b0.toNat =
      (load b0 b1 b2 b3).toNat := by
  simp only [load, BitVec.toNat_append, Nat.shiftLeft_or_distrib, ← Nat.shiftLeft_add]

theorem hashBlock_toNat (h : BitVec 32) (b0 b1 b2 b3 : BitVec 8) :
    hashBlock h.toNat b0.toNat b1.toNat b2.toNat b3.toNat = (mixH h (mixK (load b0 b1 b2 b3))).toNat := by
  unfold hashBlock
  simp only [load_toNat]
  rw [Nat.mul_comm c1, Nat.mul_comm c2, mixK_toNat, ← BitVec.toNat_xor, rotl13_toNat]
  rw [and_mask32, mixH, BitVec.toNat_add, BitVec.toNat_mul]
  simp

theorem word_shift (b : BitVec 8) (s : Nat) (hs : s ≤ 24) : (word b <<< s).toNat = b.toNat <<< s := by
  rw [BitVec.toNat_shiftLeft, word, BitVec.toNat_setWidth]
  have hb := b.isLt
  rw [Nat.mod_eq_of_lt (a := b.toNat) (by omega), Nat.mod_eq_of_lt]
  rw [Nat.shiftLeft_eq]
  calc b.toNat * 2 ^ s < 2 ^ 8 * 2 ^ s := Nat.mul_lt_mul_of_pos_right hb (by positivity)
    _ = 2 ^ (8 + s) := (Nat.pow_add 2 8 s).symm
    _ ≤ 2 ^ 32 := Nat.pow_le_pow_right (by omega) (by omega)

theorem word_toNat (b : BitVec 8) : (word b).toNat = b.toNat := by
  rw [word, BitVec.toNat_setWidth]
  have hb := b.isLt
  exact Nat.mod_eq_of_lt (by omega)

theorem fmix_toNat (h : BitVec 32) : fmix h.toNat = (fmix32 h).toNat := by
  have h1 : (0x85EBCA6B : Nat) = (0x85ebca6b#32).toNat := rfl
  have h2 : (0xC2B2AE35 : Nat) = (0xc2b2ae35#32).toNat := rfl
  unfold fmix fmix32
  simp only
  rw [h1, h2, ← BitVec.toNat_ushiftRight, ← BitVec.toNat_xor, mul_mask, ← BitVec.toNat_ushiftRight,
    ← BitVec.toNat_xor, mul_mask, ← BitVec.toNat_ushiftRight, ← BitVec.toNat_xor]
  rfl

theorem signed_toNat (u : BitVec 32) :
    (if u.toNat &&& 0x80000000 = 0 then (u.toNat : Int) else -(((u.toNat ^^^ mask32) + 1 : Nat) : Int)) =
      u.toInt := by
  have hx : u.toNat ^^^ mask32 = 2 ^ 32 - 1 - u.toNat := by
    have h1 : mask32 = (BitVec.allOnes 32).toNat := rfl
    rw [h1, ← BitVec.toNat_xor, BitVec.xor_allOnes, BitVec.toNat_not]
  have hb : u.toNat &&& 0x80000000 = (u.toNat.testBit 31).toNat * 2 ^ 31 := Nat.and_two_pow u.toNat 31
  have hlt := u.isLt
  rw [BitVec.toInt_eq_toNat_cond, hx, hb, Nat.testBit_eq_decide_div_mod_eq]
  by_cases h : 2 * u.toNat < 2 ^ 32
  · rw [if_pos h, if_pos]
    have : ¬ u.toNat / 2 ^ 31 % 2 = 1 := by omega
    rw [decide_eq_false this]
    rfl
  · rw [if_neg h, if_neg]
    · omega
    · have : u.toNat / 2 ^ 31 % 2 = 1 := by omega
      rw [decide_eq_true this]
      decide

/-- The bytes of a key as natural numbers. -/
def nats (key : List (BitVec 8)) : List Nat := key.map BitVec.toNat

theorem byteAt_nats {key : List (BitVec 8)} {i : Nat} (h : i < key.length) :
    byteAt (nats key) i = (key[i]).toNat := by
  simp [byteAt, nats, h]

theorem and_three (n : Nat) : n &&& 3 = n % 4 := Nat.and_two_pow_sub_one_eq_mod n 2

theorem byteAt_append (a b : List Nat) (i : Nat) : byteAt (a ++ b) (a.length + i) = byteAt b i := by
  simp [byteAt, List.getD_eq_getElem?_getD, List.getElem?_append]

theorem hashBlocks_cons (a b c d h : Nat) (rest : List Nat) :
    hashBlocks (a :: b :: c :: d :: rest) h = hashBlocks rest (hashBlock h a b c d) := by
  unfold hashBlocks
  have : (a :: b :: c :: d :: rest).length / 4 = rest.length / 4 + 1 := by simp; omega
  rw [this, List.range_succ_eq_map, List.foldl_cons, List.foldl_map]
  have e : ∀ i j, byteAt (a :: b :: c :: d :: rest) (4 * (i + 1) + j) = byteAt rest (4 * i + j) := by
    intro i j
    have : 4 * (i + 1) + j = [a, b, c, d].length + (4 * i + j) := by simp; omega
    rw [this]
    exact byteAt_append [a, b, c, d] rest (4 * i + j)
  have e0 : ∀ i, byteAt (a :: b :: c :: d :: rest) (4 * (i + 1)) = byteAt rest (4 * i) := fun i => e i 0
  simp only [Nat.succ_eq_add_one, e, e0]
  rfl

theorem hashTail_cons (a b c d h : Nat) (rest : List Nat) :
    hashTail (a :: b :: c :: d :: rest) h = hashTail rest h := by
  unfold hashTail
  have h1 : (a :: b :: c :: d :: rest).length / 4 * 4 = rest.length / 4 * 4 + 4 := by simp; omega
  have h2 : (a :: b :: c :: d :: rest).length &&& 3 = rest.length &&& 3 := by
    rw [and_three, and_three]; simp only [List.length_cons]; omega
  have e : ∀ j, byteAt (a :: b :: c :: d :: rest) (rest.length / 4 * 4 + 4 + j) =
      byteAt rest (rest.length / 4 * 4 + j) := by
    intro j
    have : rest.length / 4 * 4 + 4 + j = [a, b, c, d].length + (rest.length / 4 * 4 + j) := by simp; omega
    rw [this]
    exact byteAt_append [a, b, c, d] rest _
  have e0 : byteAt (a :: b :: c :: d :: rest) (rest.length / 4 * 4 + 4) =
      byteAt rest (rest.length / 4 * 4) := e 0
  simp only [h1, h2, e, e0]

theorem tail3 (a b c h : Nat) : hashTail [a, b, c] h =
    h ^^^ ((rotl15 ((((c <<< 16) ^^^ (b <<< 8) ^^^ a) * c1) &&& mask32) * c2) &&& mask32) := by
  simp [hashTail, byteAt]

theorem tail2 (a b h : Nat) : hashTail [a, b] h =
    h ^^^ ((rotl15 ((((b <<< 8) ^^^ a) * c1) &&& mask32) * c2) &&& mask32) := by
  simp [hashTail, byteAt]

theorem tail1 (a h : Nat) : hashTail [a] h =
    h ^^^ ((rotl15 ((a * c1) &&& mask32) * c2) &&& mask32) := by
  simp [hashTail, byteAt]

theorem body_cons (h : BitVec 32) (b0 b1 b2 b3 : BitVec 8) (rest : List (BitVec 8)) :
    body h (b0 :: b1 :: b2 :: b3 :: rest) = body (mixH h (mixK (load b0 b1 b2 b3))) rest := by
  by_cases ht : (chunks load rest).2 = [] <;> simp [body, chunks, ht]
theorem body_three (h : BitVec 32) (b0 b1 b2 : BitVec 8) : body h [b0, b1, b2] =
    h ^^^ mixK ((word b2 <<< 16) ^^^ (word b1 <<< 8) ^^^ word b0) := by simp [body, chunks, tailWord]
theorem body_two (h : BitVec 32) (b0 b1 : BitVec 8) : body h [b0, b1] =
    h ^^^ mixK ((word b1 <<< 8) ^^^ word b0) := by simp [body, chunks, tailWord]
theorem body_one (h : BitVec 32) (b0 : BitVec 8) : body h [b0] = h ^^^ mixK (word b0) := by
  simp [body, chunks, tailWord]

theorem blocks_step (h : BitVec 32) (b0 b1 b2 b3 : BitVec 8) (rest : List (BitVec 8)) :
    hashTail (nats (b0 :: b1 :: b2 :: b3 :: rest)) (hashBlocks (nats (b0 :: b1 :: b2 :: b3 :: rest)) h.toNat) =
      hashTail (nats rest) (hashBlocks (nats rest) (mixH h (mixK (load b0 b1 b2 b3))).toNat) := by
  simp only [nats, List.map_cons]
  rw [hashBlocks_cons, hashTail_cons, hashBlock_toNat]

theorem blocksTail_toNat (h : BitVec 32) : (key : List (BitVec 8)) →
    hashTail (nats key) (hashBlocks (nats key) h.toNat) = (body h key).toNat
  | b0 :: b1 :: b2 :: b3 :: rest => by
    rw [blocks_step, blocksTail_toNat _ rest, body_cons]
  | [b0, b1, b2] => by
    have hb : hashBlocks (nats [b0, b1, b2]) h.toNat = h.toNat := by simp [hashBlocks, nats]
    rw [hb]
    simp only [nats, List.map_cons, List.map_nil, tail3, body_three]
    rw [← word_shift b2 16 (by omega), ← word_shift b1 8 (by omega), ← word_toNat b0, ← BitVec.toNat_xor,
      ← BitVec.toNat_xor, mixK_toNat, BitVec.toNat_xor]
  | [b0, b1] => by
    have hb : hashBlocks (nats [b0, b1]) h.toNat = h.toNat := by simp [hashBlocks, nats]
    rw [hb]
    simp only [nats, List.map_cons, List.map_nil, tail2, body_two]
    rw [← word_shift b1 8 (by omega), ← word_toNat b0, ← BitVec.toNat_xor, mixK_toNat, BitVec.toNat_xor]
  | [b0] => by
    have hb : hashBlocks (nats [b0]) h.toNat = h.toNat := by simp [hashBlocks, nats]
    rw [hb]
    simp only [nats, List.map_cons, List.map_nil, tail1, body_one]
    rw [← word_toNat b0, mixK_toNat, BitVec.toNat_xor]
  | [] => by simp [hashTail, hashBlocks, nats, body, chunks]

end PurePredict
