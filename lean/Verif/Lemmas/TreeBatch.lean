import Verif.Model.Ensemble
import Verif.Lemmas.RowWise
/-
Trees and dummy estimators treat records independently.
-/
namespace PurePredict
open Spec
variable {F C : Type} [Arith F]

/-- Any function of the reached leaf is batch independent. -/
theorem Tree.leaf_batch {β : Type} (t : Tree F C) (k : Int → Py β) :
    BatchIndependent (fun _ => True) fun A => (do
      let X ← checkArray (.ofMat A) .allow
      let leaves ← (← X.rows).mapM t.getLeafNode
      leaves.mapM k) := by
  apply BatchIndependent.of_rowwise (g := fun x => t.getLeafNode (.list x) >>= k)
  intro A hA _
  simp only [checkArray_ofMat hA, py_ok_bind, rows_ofMat]
  rw [mapM_map']
  exact OkEq.mapM_comp _ _ _

theorem Tree.predictReg_batch (t : Tree F C) :
    BatchIndependent (fun _ => True) fun A => t.predictReg (.ofMat A) :=
  t.leaf_batch fun nd => do pyGet (← pyGet t.value nd) 0

theorem Tree.predictProba_batch (t : Tree F C) :
    BatchIndependent (fun _ => True) fun A => t.predictProba (.ofMat A) :=
  t.leaf_batch t.probaFromLeaf

theorem Tree.predict_batch (t : Tree F C) :
    BatchIndependent (fun _ => True) fun A => t.predict (.ofMat A) := by
  have := Spec.BatchIndependent.bind_mapM (t.leaf_batch t.predFromLeaf)
    (k := fun ps => ps.mapM fun (p : Nat) => pyGet t.classes (p : Int))
    (g := fun (p : Nat) => pyGet t.classes (p : Int)) fun _ _ _ _ _ => OkEq.refl _
  refine this.congr fun A hA _ => OkEq.of_eq ?_
  simp only [Tree.predict, checkArray_ofMat hA, py_ok_bind, rows_ofMat]
  cases List.mapM t.getLeafNode (List.map Row.list A) with
  | error e => rfl
  | ok l => rfl

theorem Tree.predictLogProba_batch (t : Tree F C) :
    BatchIndependent (fun _ => True) fun A => t.predictLogProba (.ofMat A) :=
  Spec.BatchIndependent.bind_mapM t.predictProba_batch fun _ _ _ _ _ => OkEq.refl _

theorem Spec.BatchIndependent.weaken {ρ β : Type} {P Q : ρ → Prop} {f : List ρ → Py (List β)}
    (h : BatchIndependent P f) (hQ : ∀ r, Q r → P r) : BatchIndependent Q f :=
  ⟨fun A B hA hB hPA hPB => h.1 A B hA hB (fun r hr => hQ r (hPA r hr)) fun r hr => hQ r (hPB r hr),
    fun A hA hP => h.2 A hA fun r hr => hQ r (hP r hr)⟩

theorem Dummy.predictProba_batch (d : Dummy F) :
    BatchIndependent (fun _ => True) fun A => d.predictProba (.ofMat A) := by
  apply BatchIndependent.of_rowwise (g := fun _ => .ok d.classPrior)
  intro A hA _
  simp only [Dummy.predictProba, len_ofMat, py_ok_bind]
  apply OkEq.of_eq
  rw [mapM_ok_map (g := fun _ => d.classPrior) fun _ _ => rfl]
  simp

theorem Dummy.predict_batch (d : Dummy F) :
    BatchIndependent (fun _ => True) fun A => d.predict (.ofMat A) := by
  apply BatchIndependent.of_rowwise (g := fun _ => argmax d.classPrior)
  intro A hA _ c
  simp only [Dummy.predict, len_ofMat, py_ok_bind]
  cases h : argmax d.classPrior with
  | error e =>
    obtain ⟨x, hx⟩ := List.exists_mem_of_ne_nil A hA
    obtain ⟨e', he'⟩ := mapM_error (f := fun _ : List F => (Except.error e : Py Nat)) hx rfl
    simp [he']
  | ok i =>
    rw [mapM_ok_map (g := fun _ => i) fun _ _ => rfl]
    simp

end PurePredict
