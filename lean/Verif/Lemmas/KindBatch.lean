import Verif.Lemmas.LeafRecord
import Verif.Lemmas.EnsembleBatch
import Verif.Props.C03
/-
Predictors on dense and sparse matrices: the records of a batch are treated independently.
-/
namespace PurePredict
open Spec
variable {F C : Type} [Arith F]

/-- The row of a record. -/
def Spec.Kind.row : (k : Kind) → (k.form F).Rec → Row F
  | .dense _, r => Row.list r
  | .sparse _ _, r => Row.dict r

omit [Arith F] in
theorem kind_rows (k : Kind) (xs : List (k.form F).Rec) : ((k.form F).emb xs).rows = .ok (xs.map k.row) := by
  cases k with
  | dense w => exact rows_ofMat (show List (List F) from xs)
  | sparse w dt => rfl

omit [Arith F] in
theorem kind_check (k : Kind) {xs : List (k.form F).Rec} (h : xs ≠ []) :
    checkArray ((k.form F).emb xs) .allow = .ok ((k.form F).emb xs) := by
  cases k with
  | dense w => exact checkArray_ofMat (M := xs) h .allow
  | sparse w dt => rfl

omit [Arith F] in
theorem kind_len (k : Kind) (xs : List (k.form F).Rec) : ((k.form F).emb xs).len = .ok xs.length := by
  cases k with
  | dense w => exact len_ofMat (M := xs)
  | sparse w dt =>
    show (Arr.sparse xs (some w) dt).len = _
    simp only [Arr.len, Arr.rows, py_ok_bind, py_pure]
    exact congrArg Except.ok (List.length_map ..)

/-- Any function of the reached leaf is batch independent. -/
theorem Tree.leaf_kind {β : Type} (t : Tree F C) (g : Int → Py β) (k : Kind) :
    BatchIndependent (k.form F).Ok fun A => (do
      let X ← checkArray ((k.form F).emb A) .allow
      let leaves ← (← X.rows).mapM t.getLeafNode
      leaves.mapM g) := by
  apply BatchIndependent.of_rowwise (g := fun x => t.getLeafNode (k.row x) >>= g)
  intro A hA _
  simp only [kind_check k hA, py_ok_bind, kind_rows]
  rw [mapM_map']
  exact OkEq.mapM_comp _ _ _

theorem Tree.predictReg_kind (t : Tree F C) (k : Kind) :
    BatchIndependent (k.form F).Ok fun A => t.predictReg ((k.form F).emb A) :=
  t.leaf_kind (fun nd => do pyGet (← pyGet t.value nd) 0) k

theorem Tree.predictProba_kind (t : Tree F C) (k : Kind) :
    BatchIndependent (k.form F).Ok fun A => t.predictProba ((k.form F).emb A) :=
  t.leaf_kind t.probaFromLeaf k

theorem Tree.predict_kind (t : Tree F C) (k : Kind) :
    BatchIndependent (k.form F).Ok fun A => t.predict ((k.form F).emb A) := by
  have := Spec.BatchIndependent.bind_mapM (t.leaf_kind t.predFromLeaf k)
    (k := fun ps => ps.mapM fun (p : Nat) => pyGet t.classes (p : Int))
    (g := fun (p : Nat) => pyGet t.classes (p : Int)) fun _ _ _ _ _ => OkEq.refl _
  refine this.congr fun A hA _ => OkEq.of_eq ?_
  simp only [Tree.predict, kind_check k hA, py_ok_bind, kind_rows]
  cases List.mapM t.getLeafNode (List.map k.row A) <;> rfl

theorem Tree.predictLogProba_kind (t : Tree F C) (k : Kind) :
    BatchIndependent (k.form F).Ok fun A => t.predictLogProba ((k.form F).emb A) :=
  Spec.BatchIndependent.bind_mapM (t.predictProba_kind k) fun _ _ _ _ _ => OkEq.refl _

theorem Dummy.predictProba_kind (d : Dummy F) (k : Kind) :
    BatchIndependent (k.form F).Ok fun A => d.predictProba ((k.form F).emb A) := by
  apply BatchIndependent.of_rowwise (g := fun _ => .ok d.classPrior)
  intro A hA _
  simp only [Dummy.predictProba, kind_len, py_ok_bind]
  apply OkEq.of_eq
  rw [mapM_ok_map (g := fun _ => d.classPrior) fun _ _ => rfl]
  simp

theorem Dummy.predictLogProba_kind (d : Dummy F) (k : Kind) :
    BatchIndependent (k.form F).Ok fun A => d.predictLogProba ((k.form F).emb A) :=
  Spec.BatchIndependent.bind_mapM (d.predictProba_kind k) fun _ _ _ P _ => OkEq.of_eq (apply2d_ofMat P _)

theorem Dummy.predict_kind (d : Dummy F) (k : Kind) :
    BatchIndependent (k.form F).Ok fun A => d.predict ((k.form F).emb A) := by
  apply BatchIndependent.of_rowwise (g := fun _ => argmax d.classPrior)
  intro A hA _ c
  simp only [Dummy.predict, kind_len, py_ok_bind]
  cases h : argmax d.classPrior with
  | error e =>
    obtain ⟨x, hx⟩ := List.exists_mem_of_ne_nil A hA
    obtain ⟨e', he'⟩ := mapM_error (f := fun _ : (k.form F).Rec => (Except.error e : Py Nat)) hx rfl
    simp [he']
  | ok i =>
    rw [mapM_ok_map (g := fun _ => i) fun _ _ => rfl]
    simp

theorem Linear.kind (m : Linear F C) (k : Kind) (hc : m.coef ≠ []) (hw : ∀ r ∈ m.coef, r.length = k.width) :
    m.BatchIndep (k.form F).Ok (k.form F).emb := by
  cases k with
  | dense w => exact C03_linear_batch_independence m w hc hw
  | sparse w dt => exact C03_linear_batch_independence_sparse m w hc hw dt

/-- Naive Bayes on dense matrices as the likelihoods, on sparse ones never. -/
theorem nb_kind {jll : Arr F → Py (List (List F))} (h : BatchIndependent (fun _ => True) fun A => jll (.ofMat A))
    (cs : List C) (k : Kind) :
    (BatchIndependent (k.form F).Ok fun A => nbPredict jll cs ((k.form F).emb A)) ∧
    (BatchIndependent (k.form F).Ok fun A => nbPredictProba jll ((k.form F).emb A)) ∧
    BatchIndependent (k.form F).Ok fun A => nbPredictLogProba jll ((k.form F).emb A) := by
  cases k with
  | dense w =>
    exact ⟨(nbPredict_batch h cs).weaken fun _ _ => trivial, (nbPredictProba_batch h).weaken fun _ _ => trivial,
      (nbPredictLogProba_batch h).weaken fun _ _ => trivial⟩
  | sparse w dt =>
    have e : ∀ A : List (Dict Int F), nbPredictLogProba jll (.sparse A (some w) dt) = .error .valueError :=
      fun A => rfl
    exact ⟨BatchIndependent.of_error fun A _ _ => ⟨.valueError, rfl⟩,
      BatchIndependent.of_error fun A _ _ => ⟨.valueError, rfl⟩,
      BatchIndependent.of_error fun A _ _ => ⟨.valueError, rfl⟩⟩

/-- Boosters on dense matrices, on sparse ones never. -/
theorem Xgb.kind (m : Xgb F C) (k : Kind) :
    (BatchIndependent (k.form F).Ok fun A => m.predict ((k.form F).emb A)) ∧
    BatchIndependent (k.form F).Ok fun A => m.predictProba ((k.form F).emb A) := by
  cases k with
  | dense w => exact ⟨m.predict_batch.weaken fun _ _ => trivial, m.predictProba_batch.weaken fun _ _ => trivial⟩
  | sparse w dt =>
    exact ⟨BatchIndependent.of_error fun A _ _ => ⟨.valueError, rfl⟩,
      BatchIndependent.of_error fun A _ _ => ⟨.valueError, rfl⟩⟩

end PurePredict
