import Mathlib.Order.Defs.LinearOrder
/-
Specification of "the k best labels above a threshold".
-/
namespace PurePredict.Spec
variable {α : Type} [LinearOrder α]

/-- `sel` lists the (at most) `k` best positions of `s` whose score is at least `t`, best first. -/
structure TopK (s : Nat → α) (n : Nat) (t : α) (k : Nat) (sel : List Nat) : Prop where
  nodup : sel.Nodup
  valid : ∀ i ∈ sel, i < n
  threshold : ∀ i ∈ sel, t ≤ s i
  atMost : sel.length ≤ k
  sorted : sel.Pairwise fun i j => s j ≤ s i
  /-- nothing better is left out … -/
  best : ∀ i < n, t ≤ s i → i ∉ sel → ∀ j ∈ sel, s i ≤ s j
  /-- … and nothing is left out while there is room -/
  full : ∀ i < n, t ≤ s i → i ∉ sel → sel.length = k

end PurePredict.Spec
