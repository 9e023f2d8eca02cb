import Verif.Spec.MemberOrder
/-
Specification: members that answer a request with numbers.
-/
namespace PurePredict.Spec

/-- The object answers this request of `n` records with the numbers `t`. -/
def Numbers (lib : String → TextLib) (encode : Str → List Nat) (X : Arr (XR FP.binary64)) (n : Nat)
    (o : SkObj (Attrs (XR FP.binary64)) (PVal (XR FP.binary64)) (XR FP.binary64)) (t : Nat → ℝ) : Prop :=
  ∃ f p, Behaves lib encode o f ∧ f.predict = some p ∧ p (.arr X) = .ok ((List.range n).map fun i => .float (.fin (t i)))

/-- The object answers this request of `n` records with probabilities from which boosting with two classes starts at the doubles `I`. -/
def StartsAt (lib : String → TextLib) (encode : Str → List Nat) (X : Arr (XR FP.binary64)) (n : Nat)
    (o : SkObj (Attrs (XR FP.binary64)) (PVal (XR FP.binary64)) (XR FP.binary64)) (I : Nat → ℝ) : Prop :=
  (∃ f q P, Behaves lib encode o f ∧ f.predictProba = some q ∧ q (.arr X) = .ok P ∧ Loss.initRaw .binomial P = .ok (mat n 1 fun i _ => .fin (I i))) ∧
  ∀ i < n, FP.binary64.rnd (I i) = (I i : EReal)

end PurePredict.Spec
