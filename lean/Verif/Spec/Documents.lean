import Verif.Model.Documents
/-
What a raw document says, and why it is refused.
-/
namespace PurePredict.Spec

/-- The text of a raw document: itself, its decoded bytes, or the contents of the file. -/
inductive Says (io : DocIO) : InputKind → RawDoc → Str → Prop
  | text (s) : Says io .content (.text s) s
  | bytes {b s} : io.codec b = .ok s → Says io .content (.bytes b) s
  | file {c s} : Says io .content c s → Says io .file (.reader c) s
  | filename {d b s} : io.openRead d = .ok b → io.codec b = .ok s → Says io .filename d s

/-- The error with which a document that has no text is refused. -/
inductive Refused (io : DocIO) (vo : VectorizerOpts) : InputKind → RawDoc → PyErr → Prop
  | undecodable {b e} : io.codec b = .error e → Refused io vo .content (.bytes b) e
  | nan : Refused io vo .content (.number true) .valueError
  | numberAttribute : vo.lowercase = true ∨ vo.stripAccents = .unicode →
      Refused io vo .content (.number false) .attributeError
  | numberType : vo.lowercase = false → vo.stripAccents ≠ .unicode → Refused io vo .content (.number false) .typeError
  | huge : Refused io vo .content .hugeInt .overflowError
  | reader (c) : Refused io vo .content (.reader c) .typeError
  | other : Refused io vo .content .other .typeError
  | file {c e} : Refused io vo .content c e → Refused io vo .file (.reader c) e
  | noRead {d} : (∀ c, d ≠ .reader c) → Refused io vo .file d .attributeError
  | noFile {d e} : io.openRead d = .error e → Refused io vo .filename d e
  | fileUndecodable {d b e} : io.openRead d = .ok b → io.codec b = .error e → Refused io vo .filename d e

/-- The stop words do not survive their own analysis: some token of a stop word is not a stop word. -/
def Inconsistent (lib : TextLib) (pre : Str → Str) (sw : List Str) : Prop :=
  ∃ w ∈ sw, ∃ t ∈ lib.findall (pre w), t ∉ sw

end PurePredict.Spec
