/-
MurmurHash3_x86_32 (Austin Appleby's reference, on 32-bit words), and the reference feature
hasher's column rule.
-/
namespace PurePredict.Spec

/-- `k1 *= c1; k1 = ROTL32(k1,15); k1 *= c2;` -/
def mixK (k : BitVec 32) : BitVec 32 := ((k * 0xcc9e2d51#32).rotateLeft 15) * 0x1b873593#32

/-- `h1 ^= k1; h1 = ROTL32(h1,13); h1 = h1*5+0xe6546b64;` -/
def mixH (h k : BitVec 32) : BitVec 32 := ((h ^^^ k).rotateLeft 13) * 5#32 + 0xe6546b64#32

/-- `fmix32` -/
def fmix32 (h : BitVec 32) : BitVec 32 :=
  let h := (h ^^^ (h >>> 16)) * 0x85ebca6b#32
  let h := (h ^^^ (h >>> 13)) * 0xc2b2ae35#32
  h ^^^ (h >>> 16)

/-- A byte as a 32-bit word. -/
def word (b : BitVec 8) : BitVec 32 := b.setWidth 32

/-- Little-endian load of four bytes. -/
def load (b0 b1 b2 b3 : BitVec 8) : BitVec 32 := b3 ++ b2 ++ b1 ++ b0

/-- Split a byte string into whole blocks of four bytes and the zero to three remaining bytes. -/
def chunks {α β : Type} (f : α → α → α → α → β) : List α → List β × List α
  | b0 :: b1 :: b2 :: b3 :: rest => (f b0 b1 b2 b3 :: (chunks f rest).1, (chunks f rest).2)
  | rest => ([], rest)

/-- The tail: `k1 ^= tail[2] << 16; k1 ^= tail[1] << 8; k1 ^= tail[0]`. -/
def tailWord : List (BitVec 8) → BitVec 32
  | [b0, b1, b2] => (word b2 <<< 16) ^^^ (word b1 <<< 8) ^^^ word b0
  | [b0, b1] => (word b1 <<< 8) ^^^ word b0
  | [b0] => word b0
  | _ => 0

/-- Body and tail. -/
def body (h : BitVec 32) (key : List (BitVec 8)) : BitVec 32 :=
  let (ks, tail) := chunks load key
  let h := ks.foldl (fun h k => mixH h (mixK k)) h
  if tail = [] then h else h ^^^ mixK (tailWord tail)

/-- MurmurHash3_x86_32. -/
def murmur3 (key : List (BitVec 8)) (seed : BitVec 32) : BitVec 32 :=
  fmix32 (body seed key ^^^ BitVec.ofNat 32 key.length)

/-- The column of a signed 32-bit hash in the reference hasher (scikit-learn's
`_hashing_fast.pyx`), which special-cases `-2^31` because its absolute value is not an int32. -/
def refColumn (h : Int) (n : Nat) : Nat :=
  if h = -2147483648 then (2147483647 - (n - 1)) % n else h.natAbs % n

end PurePredict.Spec
