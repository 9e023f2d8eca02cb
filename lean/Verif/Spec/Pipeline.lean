import Verif.Spec.Matrix
/-
Independent vocabulary for pipelines and unions: running functions one after the other, laying
blocks side by side.
-/
namespace PurePredict.Spec

/-- `Runs fs x y`: feeding `x` to the functions in order, every one succeeds and the last gives `y`. -/
inductive Runs {D : Type} : List (D → Py D) → D → D → Prop
  | nil (x) : Runs [] x x
  | cons {f fs x y z} : f x = .ok y → Runs fs y z → Runs (f :: fs) x z

/-- `Fails fs x e`: some function raises `e` on the value the previous ones produced. -/
inductive Fails {D : Type} : List (D → Py D) → D → PyErr → Prop
  | here {f fs x e} : f x = .error e → Fails (f :: fs) x e
  | later {f fs x y e} : f x = .ok y → Fails fs y e → Fails (f :: fs) x e

/-- `Denotes z A w M`: the array object `A`, a 2-D list or a `sparse_list`, represents the non-empty
matrix `M` with `w` columns (`z` fills the columns a sparse row does not store). -/
inductive Denotes {F : Type} (z : F) : Arr F → Nat → List (List F) → Prop
  | dense {M : List (List F)} {w : Nat} : M ≠ [] → (∀ r ∈ M, r.length = w) → Denotes z (.ofMat M) w M
  | sparse {ds : List (Dict Int F)} {w : Nat} {dt : DType} : ds ≠ [] → (∀ d ∈ ds, ValidRow w d) →
      Denotes z (.sparse ds (some w) dt) w (ds.map (Spec.dense z w))

/-- Row `i` of the horizontal concatenation of dense blocks. -/
def hrow {F : Type} (blocks : List (List (List F))) (i : Nat) : List F :=
  (blocks.map fun B => (B[i]?).getD []).flatten

end PurePredict.Spec
