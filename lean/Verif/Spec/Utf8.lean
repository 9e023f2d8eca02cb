import Verif.Py.Core
/-
UTF-8, described by decoding: how a character is read back from the beginning of a byte string.
-/
namespace PurePredict.Spec

/-- Read one code point: the first byte tells the number of bytes, every further byte carries six
bits. -/
def readChar : List Nat → Option (Nat × List Nat)
  | [] => none
  | a :: l =>
    if a < 128 then some (a, l)
    else if a < 192 then none
    else if a < 224 then
      match l with
      | b :: l => some ((a - 192) * 64 + (b - 128), l)
      | _ => none
    else if a < 240 then
      match l with
      | b :: c :: l => some ((a - 224) * 4096 + (b - 128) * 64 + (c - 128), l)
      | _ => none
    else
      match l with
      | b :: c :: d :: l => some ((a - 240) * 262144 + (b - 128) * 4096 + (c - 128) * 64 + (d - 128), l)
      | _ => none

/-- The bytes of a character string in UTF-8, from Lean's core library. -/
def coreUtf8 (s : List Char) : List (BitVec 8) := (s.flatMap String.utf8EncodeChar).map UInt8.toBitVec

end PurePredict.Spec
