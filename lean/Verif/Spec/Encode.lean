/-
Specification of category encodings.
-/
namespace PurePredict.Spec
variable {F C : Type} [DecidableEq C]

/-- Indicator vector of a value over a list of categories (all `zero` if it is not one of them). -/
def indicator (zero one : F) (cats : List C) (v : C) : List F :=
  cats.map fun c => if c = v then one else zero

/-- One-hot encoding of a record: the concatenation of the indicators of its values. -/
def oneHot (zero one : F) (cats : List (List C)) (x : List C) : List F :=
  (List.zipWith (indicator zero one) cats x).flatten

/-- `codes` are positions at which the category lists show the values of the record `x`. -/
def Decodes (cats : List (List C)) (codes : List Nat) (x : List C) : Prop :=
  codes.length = x.length ∧ cats.length = x.length ∧
    ∀ i : Nat, ∀ v, x[i]? = some v → ∃ ks k, cats[i]? = some ks ∧ codes[i]? = some k ∧ ks[k]? = some v

/-- Every value of the record is a known category. -/
def Known (cats : List (List C)) (x : List C) : Prop :=
  ∀ i : Nat, ∀ v ks, x[i]? = some v → cats[i]? = some ks → v ∈ ks

end PurePredict.Spec
