import Verif.Model.Convert
import Verif.Spec.Convert
import Verif.Spec.Loss
import Mathlib.Data.List.Forall2
/-
What converting a compound estimator should do: every part at every depth is converted, the names,
the order and the nesting are kept.
-/
namespace PurePredict.Spec
variable {α β V F : Type}

/-- The estimators (or other objects) an object directly holds. -/
def parts : SkObj α V F → List (SkObj α V F)
  | .none => []
  | .str _ => []
  | .leaf _ _ _ => []
  | .pipeline _ steps => steps.map Prod.snd
  | .union _ steps _ => steps.map Prod.snd
  | .ensemble _ _ _ _ ms => ms
  | .boosting _ _ stages init _ _ => stages.flatten ++ [init]

/-- `Within o c`: `c` is `o` itself or held by it at some depth. -/
inductive Within : SkObj α V F → SkObj α V F → Prop
  | refl (o) : Within o o
  | step {o p c} : p ∈ parts o → Within p c → Within o c

/-- `r` is built like `o`: same nesting, same names, same order, same weights, feature lists and
labels; `single c v s n b` says that the object `b` of class `n` is the counterpart of a single
estimator. -/
inductive Mirrors (single : String → Option (List Char) → α → List Char → β → Prop) :
    SkObj α V F → PureEst β V F → Prop
  | leaf {c v s n b} : single c v s n b → Mirrors single (.leaf c v s) (.leaf n b)
  | pipeline {v} {steps : List (String × SkObj α V F)} {steps' : List (String × PureEst β V F)} :
      steps'.map Prod.fst = steps.map Prod.fst →
      List.Forall₂ (Mirrors single) (steps.map Prod.snd) (steps'.map Prod.snd) →
      Mirrors single (.pipeline v steps) (.pipeline steps')
  | union {v ws} {steps : List (String × SkObj α V F)} {steps' : List (String × PureEst β V F)} :
      steps'.map Prod.fst = steps.map Prod.fst →
      List.Forall₂ (Mirrors single) (steps.map Prod.snd) (steps'.map Prod.snd) →
      Mirrors single (.union v steps ws) (.union steps' ws)
  | ensemble {k v fs cs ms ms'} : List.Forall₂ (Mirrors single) ms ms' →
      Mirrors single (.ensemble k v fs cs ms) (.ensemble k fs cs ms')
  | boosting {v cs stages init loss hyper stages' init' l} :
      stages'.map List.length = stages.map List.length →
      List.Forall₂ (Mirrors single) stages.flatten stages'.flatten →
      Mirrors single init init' →
      lossOf loss cs.length = some l →
      Mirrors single (.boosting v cs stages init loss hyper) (.boosting cs stages' init' l hyper)

end PurePredict.Spec
