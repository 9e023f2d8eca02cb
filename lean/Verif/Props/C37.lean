import Verif.Lemmas.Murmur
/-
C37: the hash is MurmurHash3_x86_32.
-/
namespace PurePredict
open Spec

/-- **C37**: for every byte string shorter than 2^32 bytes and every 32-bit seed, `_hash` returns
MurmurHash3_x86_32 as a signed integer. -/
theorem C37_murmur (key : List (BitVec 8)) (seed : BitVec 32) (hlen : key.length < 2 ^ 32) :
    murmur (nats key) seed.toNat = (murmur3 key seed).toInt := by
  have hl : (nats key).length = (BitVec.ofNat 32 key.length).toNat := by
    rw [BitVec.toNat_ofNat, Nat.mod_eq_of_lt hlen]
    simp [nats]
  unfold murmur
  simp only
  rw [blocksTail_toNat, hl, ← BitVec.toNat_xor, fmix_toNat, signed_toNat]
  rfl

/-- **C37**: the result is a signed 32-bit integer. -/
theorem C37_range (key : List (BitVec 8)) (seed : BitVec 32) (hlen : key.length < 2 ^ 32) :
    -2 ^ 31 ≤ murmur (nats key) seed.toNat ∧ murmur (nats key) seed.toNat < 2 ^ 31 := by
  rw [C37_murmur key seed hlen]
  exact ⟨BitVec.le_toInt _, BitVec.toInt_lt⟩

/-- Non-vacuity, and a check of the specification against the published test vectors:
MurmurHash3_x86_32("", 0) = 0, ("", 1) = 0x514E28B7, ("aaaa", 0x9747b28c) = 0x5A97808A,
("aaa", 0x9747b28c) = 0x283E0130. -/
example : murmur3 [] 0#32 = 0#32 := by decide
example : murmur3 [] 1#32 = 0x514E28B7#32 := by decide
example : murmur3 [0x61#8, 0x61#8, 0x61#8, 0x61#8] 0x9747b28c#32 = 0x5A97808A#32 := by decide
example : murmur3 [0x61#8, 0x61#8, 0x61#8] 0x9747b28c#32 = 0x283E0130#32 := by decide

example : murmur (nats [0x61#8, 0x62#8]) (0#32).toNat = (murmur3 [0x61#8, 0x62#8] 0#32).toInt :=
  C37_murmur _ _ (by decide)

end PurePredict
