import Verif.Model.Hash
/-
`_FeatureHasherPure.transform` as `HashingVectorizerPure` calls it.
-/
namespace PurePredict
variable {F : Type} [Arith F]

theorem featureHasher_string (encode : Str → List Nat) (n : Nat) (dt : DType) (alt : Bool)
    (docs : List Str) (an : Str → List Str) :
    featureHasher (F := F) encode .string n dt alt (.strings (docs.map an)) =
      hashingTransform encode (docs.map fun d => (an d).map fun f => (f, FeatVal.num (ofInt 1))) n dt alt := by
  unfold featureHasher
  simp only [List.map_map]
  rfl

end PurePredict
