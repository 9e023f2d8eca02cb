import Verif.Model.Text
/-
Specification of joined texts: two texts with a separating character between them.
-/
namespace PurePredict.Spec

/-- `c` separates: lower-casing, unicode normalisation and the token pattern treat what stands before `c`
and what stands behind it as two texts.  (`c` is an ASCII character; ASCII characters are their own normal
form and no combining marks.) -/
structure Separator (lib : TextLib) (c : Char) : Prop where
  lower : ∀ a b, lib.lower (a ++ c :: b) = lib.lower a ++ c :: lib.lower b
  nfkd : ∀ a b, lib.nfkd (a ++ c :: b) = lib.nfkd a ++ c :: lib.nfkd b
  ascii : c.toNat < 128
  plain : ∀ s : Str, (∀ d ∈ s, d.toNat < 128) → lib.nfkd s = s
  marks : ∀ d : Char, d.toNat < 128 → lib.combining d = false
  tokens : ∀ a b, lib.findall (a ++ c :: b) = lib.findall a ++ lib.findall b

/-- Settings of a vectorizer whose features never reach over a separator: single words, or character
n-grams inside words. -/
inductive WithinWords (lib : TextLib) (o : VectorizerOpts) (c : Char) : Prop
  | words (h : o.analyzer = .word) (h1 : o.maxN = 1)
  | charWb (h : o.analyzer = .charWb) (hc : lib.ws c = true) (hs : lib.ws ' ' = true)

/-- The same text `n + 1` times, separated by `c`. -/
def repeated (c : Char) (a : List Char) : Nat → List Char
  | 0 => a
  | n + 1 => a ++ c :: repeated c a n

end PurePredict.Spec
