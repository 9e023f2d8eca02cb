import Verif.Model.Heap
/-
Specification of the aliasing property: histories of calls and caller mutations.
-/
namespace PurePredict.Spec
open Heap
variable {F : Type}

/-- Histories.  From the store `h0` the caller may call any method in `calls`, create lists of
their own, and mutate in any way any list they were given or created (`own`); `Hist calls h0 h own`
says that this can lead to the store `h`. -/
inductive Hist (calls : Call F → Prop) (h0 : Store F) : Store F → List Addr → Prop
  | start : Hist calls h0 h0 []
  | call {h h' : Store F} {own as : List Addr} {c : Call F} : Hist calls h0 h own → calls c →
      c h = .ok (h', as) → Hist calls h0 h' (as ++ own)
  | create {h : Store F} {own : List Addr} (l : List F) : Hist calls h0 h own →
      Hist calls h0 (alloc h l).1 ((alloc h l).2 :: own)
  | mutate {h : Store F} {own : List Addr} {a : Addr} (f : List F → List F) : Hist calls h0 h own →
      a ∈ own → Hist calls h0 (mutate h a f) own

/-- After every history, every call shows the caller what it showed at the start. -/
def Stable (calls : Call F → Prop) (h0 : Store F) : Prop :=
  ∀ h own, Hist calls h0 h own → ∀ c, calls c → c.value h = c.value h0

end PurePredict.Spec
