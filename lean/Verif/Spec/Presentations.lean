import Verif.Spec.BatchChain
import Verif.Model.Base
/-
How matrices are presented: dense of a width, sparse of a size.
-/
namespace PurePredict

/-- Dense requests of a width. -/
def Spec.Form.denseOf (F : Type) (w : Nat) : Spec.Form (Arr F) where
  Rec := List F
  Ok r := r.length = w
  emb := Arr.ofMat

/-- Sparse requests of a size. -/
def Spec.Form.sparseOf (F : Type) (w : Nat) (dt : DType) : Spec.Form (Arr F) where
  Rec := Dict Int F
  Ok _ := True
  emb ds := .sparse ds (some w) dt

/-- How the results of a transformer are presented: dense of a width, or sparse of a size. -/
inductive Spec.Kind
  | dense (w : Nat)
  | sparse (w : Nat) (dt : DType)

/-- The presentation. -/
def Spec.Kind.form (F : Type) : Spec.Kind → Spec.Form (Arr F)
  | .dense w => .denseOf F w
  | .sparse w dt => .sparseOf F w dt

/-- Number of columns. -/
def Spec.Kind.width : Spec.Kind → Nat
  | .dense w => w
  | .sparse w _ => w

/-- Whether the results are sparse. -/
def Spec.Kind.isSparse : Spec.Kind → Bool
  | .dense _ => false
  | .sparse _ _ => true

end PurePredict
