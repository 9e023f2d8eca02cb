import Verif.Spec.Gauge
/-
Specification: linear classifiers with their classes in another order, on requests whose records are all decided by the scores.
-/
namespace PurePredict.Spec
variable (lib : String → TextLib) (encode : Str → List Nat)

/-- `Relisted w π P o o'`: the second object ends in the same linear classifier as the first, with its `w` classes arranged as `π`; on the
requests in `P` the classifier's scores decide every record. -/
inductive Relisted (w : Nat) (π : List Nat) : (Data Ex → Prop) → SkObj (Attrs Ex) (PVal Ex) Ex → SkObj (Attrs Ex) (PVal Ex) Ex → Prop
  | linear {c v a a' k m m'} : Learned c a (.linear k m) → Learned c a' (.linear k m') → Reordered w π (.linear k m) (.linear k m') →
      Relisted w π (fun X => ∀ A S, X = .arr A → m.decisionFunction A = .ok S → Decided S) (.leaf c v a) (.leaf c v a')
  | inPipeline {P v steps n o o'} : Relisted w π P o o' →
      Relisted w π (fun X => ∀ Y, Reaches lib encode steps X Y → P Y) (.pipeline v (steps ++ [(n, o)])) (.pipeline v (steps ++ [(n, o')]))

end PurePredict.Spec
