import Verif.Spec.MemberOrder
/-
Specification: ensembles of ensembles, and ensembles with repeated members.
-/
namespace PurePredict.Spec

/-- An ensemble of these `n` members, each reading all columns. -/
inductive Averages {α V F : Type} (n : Nat) : SkObj α V F → List (SkObj α V F) → Prop
  | mk {k v cs ms} : ms.length = n → Averages n (.ensemble k v none cs ms) ms

/-- `Regrouped o o'`: the second object is the first with ensembles of equally large ensembles replaced by one ensemble of all members, or
with repetitions of all members left out; anywhere in a composition. -/
inductive Regrouped : SkObj (Attrs Ex) (PVal Ex) Ex → SkObj (Attrs Ex) (PVal Ex) Ex → Prop
  | same {o} : Regrouped o o
  | trans {a b c} : Regrouped a b → Regrouped b c → Regrouped a c
  /-- an ensemble of ensembles of `n` members each -/
  | flat {k v cs os mss n} : 0 < n → List.Forall₂ (Averages n) os mss → Regrouped (.ensemble k v none cs os) (.ensemble k v none cs mss.flatten)
  /-- every member occurs `j` times -/
  | once {k v cs ms j} : 0 < j → 2 ≤ ms.length → Regrouped (.ensemble k v none cs (List.replicate j ms).flatten) (.ensemble k v none cs ms)
  | inPipeline {v steps n o o'} : Regrouped o o' → Regrouped (.pipeline v (steps ++ [(n, o)])) (.pipeline v (steps ++ [(n, o')]))
  | inEnsemble {k v fs cs ms ms'} : ms.length = ms'.length → (∀ p ∈ ms.zip ms', Regrouped p.1 p.2) →
      Regrouped (.ensemble k v fs cs ms) (.ensemble k v fs cs ms')
  | inStart {v cs stages init init' loss args} : Regrouped init init' →
      Regrouped (.boosting v cs stages init loss args) (.boosting v cs stages init' loss args)

end PurePredict.Spec
