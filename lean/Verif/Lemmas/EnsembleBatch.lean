import Verif.Lemmas.BatchTools
import Verif.Model.NaiveBayes
/-
Bagging ensembles, XGBoost and naive Bayes treat the records of a batch independently.
-/
namespace PurePredict
open Spec
variable {F C : Type} [Arith F]

/-! ### Bagging and forests -/

/-- What bagging needs of its members: records are treated independently and every row of
probabilities has `k` entries. -/
structure Bagging.Parts (b : Bagging F C) (k : Nat) : Prop where
  batch : ∀ e ∈ b.estimators, BatchIndependent (fun _ => True) fun A => e.predictProba (.ofMat A)
  width : ∀ e ∈ b.estimators, ∀ A P, e.predictProba (.ofMat A) = .ok P → Rect k P

namespace Bagging
variable {b : Bagging F C} {k : Nat}

theorem memberProba_batch (h : b.Parts k) (idx : Nat) :
    BatchIndependent (fun _ => True) fun A => b.memberProba (.ofMat A) idx := by
  unfold memberProba
  refine Spec.BatchIndependent.of_const _ fun e he => ?_
  refine Spec.BatchIndependent.of_const _ fun feats _ => ?_
  have hb := h.batch e (pyGet_ok_mem he)
  cases feats with
  | none =>
    refine hb.congr fun A _ _ => OkEq.of_eq ?_
    rfl
  | some fs =>
    have := Spec.BatchIndependent.comap (P := fun _ => True) hb
      (h := fun r : List F => fs.mapM fun i => (Row.list r).getItem i) fun _ _ _ _ => trivial
    refine this.congr fun A _ _ => OkEq.of_eq ?_
    simp only [featSlice, rows_ofMat, py_ok_bind]
    rw [mapM_map']
    cases (List.mapM (fun r : List F => fs.mapM fun i => (Row.list r).getItem i) A) <;> rfl

theorem memberProba_rect (h : b.Parts k) {idx : Nat} {A P : List (List F)}
    (hP : b.memberProba (.ofMat A) idx = .ok P) : Rect k P := by
  obtain ⟨e, he, hP⟩ := bind_ok_iff.1 hP
  obtain ⟨feats, -, hP⟩ := bind_ok_iff.1 hP
  obtain ⟨X, hX, hP⟩ := bind_ok_iff.1 hP
  cases feats with
  | none => cases hX; exact h.width e (pyGet_ok_mem he) _ _ hP
  | some fs =>
    obtain ⟨rs, -, hX⟩ := bind_ok_iff.1 hX
    obtain ⟨M, -, hX⟩ := bind_ok_iff.1 hX
    cases hX
    exact h.width e (pyGet_ok_mem he) _ _ hP

theorem rect_zipWith {op : F → F → F} {p q : List (List F)} (hp : Rect k p) (hq : Rect k q) :
    Rect k (List.zipWith (List.zipWith op) p q) := by
  induction p generalizing q with
  | nil => intro r hr; simp at hr
  | cons a p ih =>
    cases q with
    | nil => intro r hr; simp at hr
    | cons b q =>
      intro r hr
      simp only [List.zipWith_cons_cons, List.mem_cons] at hr
      rcases hr with rfl | hr
      · simp [hp a (by simp), hq b (by simp)]
      · exact ih (fun r hr => hp r (by simp [hr])) (fun r hr => hq r (by simp [hr])) r hr

theorem length_of_batch {ρ β : Type} {P : ρ → Prop} {f : List ρ → Py (List β)}
    (h : BatchIndependent P f) {A : List ρ} (hA : A ≠ []) (hP : ∀ r ∈ A, P r) {c : List β}
    (hc : f A = .ok c) : c.length = A.length :=
  ((h.2 A hA hP c).1 hc).length_eq.symm

theorem accumulate_on {ρ : Type} {P : ρ → Prop} {emb : List ρ → Arr F}
    (hm : ∀ idx, BatchIndependent P fun A => b.memberProba (emb A) idx)
    (hw : ∀ idx A Q, b.memberProba (emb A) idx = .ok Q → Rect k Q) (idxs : List Nat)
    {f0 : List ρ → Py (List (List F))} (h0 : BatchIndependent P f0)
    (hr : ∀ A Q, f0 A = .ok Q → Rect k Q) :
    BatchIndependent P fun A => f0 A >>= b.accumulate (emb A) idxs := by
  induction idxs generalizing f0 with
  | nil =>
    refine h0.congr fun A _ _ => OkEq.of_eq ?_
    cases f0 A <;> rfl
  | cons idx idxs ih =>
    have hm' := hm idx
    have h1 := ih (h0.zipWith hm' (List.zipWith Arith.add)) (by
      intro A P hP
      obtain ⟨p, hp, hP⟩ := bind_ok_iff.1 hP
      obtain ⟨q, hq, hP⟩ := bind_ok_iff.1 hP
      cases hP
      exact rect_zipWith (hr _ _ hp) (hw _ _ _ hq))
    refine h1.congr fun A hA hP => OkEq.of_eq ?_
    cases e1 : f0 A with
    | error e => rfl
    | ok p =>
      simp only [py_ok_bind, accumulate]
      cases e2 : b.memberProba (emb A) idx with
      | error e => rfl
      | ok q =>
        have l1 := length_of_batch h0 hA hP e1
        have l2 := length_of_batch hm' hA hP e2
        have hpos := List.length_pos_iff.2 hA
        simp only [py_ok_bind]
        rw [operate2d_ofMat Arith.add (List.length_pos_iff.1 (by omega))
          (List.length_pos_iff.1 (by omega)) (by omega) (hr _ _ e1) (hw _ _ _ e2)]
        rfl

/-- Probabilities, on any presentation on which the members treat the records independently. -/
theorem predictProba_on {ρ : Type} {P : ρ → Prop} {emb : List ρ → Arr F}
    (hm : ∀ idx, BatchIndependent P fun A => b.memberProba (emb A) idx)
    (hw : ∀ idx A Q, b.memberProba (emb A) idx = .ok Q → Rect k Q) :
    BatchIndependent P fun A => b.predictProba (emb A) := by
  have h1 := accumulate_on hm hw ((List.range b.estimators.length).drop 1) (hm 0)
    fun A P hP => hw _ _ _ hP
  have h2 := Spec.BatchIndependent.bind_mapM h1
    (k := fun P => apply2d (.ofMat P) fun x => x /ₚ ofInt b.estimators.length)
    fun A _ _ P _ => OkEq.of_eq (apply2d_ofMat P _)
  refine h2.congr fun A _ _ => OkEq.of_eq ?_
  simp only [predictProba, bind_assoc]

theorem predictProba_batch (h : b.Parts k) :
    BatchIndependent (fun _ => True) fun A => b.predictProba (.ofMat A) :=
  predictProba_on (memberProba_batch h) fun _ _ _ hQ => memberProba_rect h hQ

/-- Labels from probabilities. -/
theorem predict_on {ρ : Type} {P : ρ → Prop} {emb : List ρ → Arr F}
    (h : BatchIndependent P fun A => b.predictProba (emb A)) :
    BatchIndependent P fun A => b.predict (emb A) := by
  refine Spec.BatchIndependent.bind_mapM h
    (g := fun a => argmax a >>= fun (i : Nat) => pyGet b.classes (i : Int)) fun A _ _ P _ => ?_
  exact OkEq.mapM_comp _ _ _

/-- Log-probabilities from probabilities. -/
theorem predictLogProba_on {ρ : Type} {P : ρ → Prop} {emb : List ρ → Arr F}
    (h : BatchIndependent P fun A => b.predictProba (emb A)) :
    BatchIndependent P fun A => b.predictLogProba (emb A) :=
  Spec.BatchIndependent.bind_mapM h fun _ _ _ P _ => OkEq.of_eq (apply2d_ofMat P _)

theorem predict_batch (h : b.Parts k) :
    BatchIndependent (fun _ => True) fun A => b.predict (.ofMat A) :=
  predict_on (predictProba_batch h)

theorem predictLogProba_batch (h : b.Parts k) :
    BatchIndependent (fun _ => True) fun A => b.predictLogProba (.ofMat A) :=
  predictLogProba_on (predictProba_batch h)

/-- The members of a forest are trees whose leaves all have `k` values. -/
theorem parts_of_trees {features : Option (List (List Int))} {classes : List C} {D : Type}
    {trees : List (Tree F D)} (hv : ∀ t ∈ trees, ∀ v ∈ t.value, v.length = k) :
    Bagging.Parts (⟨features, classes, trees.map fun t => ⟨t.predictProba⟩⟩ : Bagging F C) k := by
  constructor
  · intro e he
    obtain ⟨t, -, rfl⟩ := List.mem_map.1 he
    exact t.predictProba_batch
  · intro e he A P hP
    obtain ⟨t, ht, rfl⟩ := List.mem_map.1 he
    obtain ⟨X, -, hP⟩ := bind_ok_iff.1 hP
    obtain ⟨rs, -, hP⟩ := bind_ok_iff.1 hP
    obtain ⟨ls, -, hP⟩ := bind_ok_iff.1 hP
    intro p hp
    obtain ⟨nd, -, hnd⟩ := mapM_mem hP hp
    obtain ⟨v, hv', hnd⟩ := bind_ok_iff.1 hnd
    rw [mapM_length hnd, hv t ht v (pyGet_ok_mem hv')]

end Bagging

/-! ### XGBoost -/

namespace Xgb

theorem zeros_batch : BatchIndependent (fun _ : List F => True) fun A =>
    (.ok (List.replicate A.length (ofInt 0)) : Py (List F)) := by
  apply BatchIndependent.of_rowwise (g := fun _ => .ok (ofInt 0))
  intro A _ _
  rw [mapM_ok_map (g := fun _ => ofInt 0) fun _ _ => rfl]
  simp
  exact OkEq.refl _

theorem addTrees_batch (ts : List (Tree F C)) :
    BatchIndependent (fun _ => True) fun A =>
      ts.foldlM (addTree (.ofMat A)) (List.replicate A.length (ofInt 0)) := by
  have := Spec.BatchIndependent.foldlM_zipWith Arith.add ts
    (f := fun t A => t.predictReg (.ofMat A)) (fun t _ => t.predictReg_batch)
    (zeros_batch (F := F))
  exact this

theorem predictBinary_batch (m : Xgb F C) :
    BatchIndependent (fun _ => True) fun A => m.predictBinary (.ofMat A) := by
  simp only [predictBinary, len_ofMat, py_ok_bind]
  cases m.trees with
  | binary ts => exact addTrees_batch ts
  | multi rounds =>
    cases h : rounds.isEmpty with
    | true =>
      simp only [h, if_true]
      exact zeros_batch (F := F)
    | false =>
      exact BatchIndependent.of_error fun A _ _ => ⟨.attributeError, by simp [h]⟩

/-- The raw scores of class `c`. -/
def column (m : Xgb F C) (X : Arr F) (c : Nat) : Py (List F) := do
  let n ← X.len
  (List.range m.nEstimators).foldlM (fun acc (e : Nat) => do
    match m.trees with
    | .binary ts => let _ ← pyGet ts (e : Int); .error .typeError
    | .multi rounds => addTree X acc (← pyGet (← pyGet rounds (e : Int)) (c : Int)))
    (List.replicate n (ofInt 0))

theorem predict_columns (m : Xgb F C) (X : Arr F) :
    m.predict_ X = (List.range m.nClasses).mapM (m.column X) := rfl

theorem column_batch (m : Xgb F C) (c : Nat) :
    BatchIndependent (fun _ => True) fun A => m.column (.ofMat A) c := by
  simp only [column, len_ofMat, py_ok_bind]
  cases m.trees with
  | binary ts =>
    cases hn : m.nEstimators with
    | zero => exact zeros_batch (F := F)
    | succ n =>
      refine BatchIndependent.of_error fun A _ _ => ?_
      rw [List.range_succ_eq_map, List.foldlM_cons]
      simp only []
      cases pyGet ts ((0 : Nat) : Int) with
      | error e => exact ⟨e, rfl⟩
      | ok t => exact ⟨.typeError, rfl⟩
  | multi rounds =>
    have := Spec.BatchIndependent.foldlM_zipWith Arith.add (List.range m.nEstimators)
      (f := fun (e : Nat) A => (do
        let t ← (do pyGet (← pyGet rounds (e : Int)) (c : Int) : Py (Tree F C))
        t.predictReg (.ofMat A)))
      (fun e _ => Spec.BatchIndependent.of_const _ fun t _ => t.predictReg_batch)
      (zeros_batch (F := F))
    refine this.congr fun A _ _ => OkEq.of_eq ?_
    simp only [py_ok_bind, addTree, bind_assoc]

theorem predictProba_batch (m : Xgb F C) :
    BatchIndependent (fun _ => True) fun A => m.predictProba (.ofMat A) := by
  cases ho : m.objective with
  | multiSoftprob =>
    have h1 := Spec.BatchIndependent.columns (List.range m.nClasses)
      (f := fun c A => m.column (.ofMat A) c) fun c _ => m.column_batch c
    have h2 := Spec.BatchIndependent.bind_mapM h1 (k := fun rs => rs.mapM sfmax)
      (g := sfmax) fun _ _ _ _ _ => OkEq.refl _
    refine h2.congr fun A hA _ => ?_
    simp only [predictProba, checkArray_ofMat hA, py_ok_bind, ho, predict_columns, len_ofMat, bind_assoc]
    refine OkEq.bind (OkEq.refl _) fun preds hp => ?_
    refine OkEq.trans (OkEq.of_eq ?_) (OkEq.mapM_comp _ _ _).symm
    apply mapM_congr
    intro j _
    congr 1
    have hl : preds.length = m.nClasses := by rw [mapM_length hp]; simp
    have : preds.mapM (fun c => pyGet c (j : Int)) =
        ((List.range preds.length).mapM fun (i : Nat) => pyGet preds (i : Int)) >>=
          fun ps => ps.mapM fun c => pyGet c (j : Int) := by
      rw [range_mapM_pyGet, py_ok_bind]
    have e : (List.range m.nClasses).mapM (fun (i : Nat) => do
        pyGet (← pyGet preds (i : Int)) (j : Int)) = preds.mapM fun c => pyGet c (j : Int) := by
      have hr : preds = (List.range m.nClasses).attach.map fun i =>
          preds[i.1]'(by rw [hl]; exact List.mem_range.1 i.2) := by
        apply List.ext_getElem
        · simp [hl]
        · intro i h1 h2; simp
      conv_rhs => rw [hr, mapM_map']
      conv_lhs => rw [← List.attach_map_subtype_val (List.range m.nClasses), mapM_map']
      apply mapM_congr
      intro i _
      rw [pyGet_lt (by rw [hl]; exact List.mem_range.1 i.2), py_ok_bind]
    exact e
  | binaryLogistic =>
    have h2 := Spec.BatchIndependent.bind_mapM m.predictBinary_batch
      (k := fun (preds : List F) => (do
        let out ← preds.mapM expit
        return out.map fun x => [ofInt 1 -ₚ x, x] : Py (List (List F))))
      (g := fun p => (do return [ofInt 1 -ₚ (← expit p), ← expit p] : Py (List F))) (by
        intro A _ _ ys _
        refine OkEq.trans (OkEq.mapM_map _ _ _) (OkEq.mapM fun x _ => OkEq.of_eq ?_)
        cases expit x <;> rfl)
    refine h2.congr fun A hA _ => OkEq.of_eq ?_
    simp only [predictProba, checkArray_ofMat hA, py_ok_bind, ho]

theorem predict_batch (m : Xgb F C) :
    BatchIndependent (fun _ => True) fun A => m.predict (.ofMat A) :=
  Spec.BatchIndependent.bind_mapM m.predictProba_batch fun _ _ _ _ _ => OkEq.refl _

end Xgb

/-! ### Naive Bayes -/

theorem DiscreteNB.multinomial_batch (m : DiscreteNB F C) :
    BatchIndependent (fun _ => True) fun A => m.jllMultinomial (.ofMat A) := by
  apply BatchIndependent.of_rowwise (g := fun r => (do
    let d ← dot (.list r) m.featureLogProb
    (List.range m.classes.length).mapM fun (i : Nat) => do
      return (← pyGet d (i : Int)) +ₚ (← pyGet m.classLogPrior (i : Int)) : Py (List F)))
  intro A _ _
  simp only [DiscreteNB.jllMultinomial, rows_ofMat, py_ok_bind]
  rw [mapM_map']
  exact OkEq.refl _

theorem DiscreteNB.complement_batch (m : DiscreteNB F C) :
    BatchIndependent (fun _ => True) fun A => m.jllComplement (.ofMat A) := by
  have h1 : BatchIndependent (fun _ => True) fun A : List (List F) =>
      (A.mapM fun r => dot (.list r) m.featureLogProb) :=
    BatchIndependent.of_rowwise fun A _ _ => OkEq.refl _
  cases h : m.classes.length == 1 with
  | true =>
    have := Spec.BatchIndependent.bind_mapM h1
      (k := fun jll => jll.mapM fun x =>
        (do return [(← pyGet x 0) +ₚ (← pyGet m.classLogPrior 0)] : Py (List F)))
      fun _ _ _ _ _ => OkEq.refl _
    refine this.congr fun A _ _ => OkEq.of_eq ?_
    simp only [DiscreteNB.jllComplement, rows_ofMat, py_ok_bind, h, if_true]
    rw [mapM_map']
  | false =>
    refine h1.congr fun A _ _ => OkEq.of_eq ?_
    simp only [DiscreteNB.jllComplement, rows_ofMat, py_ok_bind, h, Bool.false_eq_true, if_false]
    rw [mapM_map']
    cases (A.mapM fun r => dot (.list r) m.featureLogProb) <;> rfl

theorem GaussianNB.column_batch (m : GaussianNB F C) (i : Nat) :
    BatchIndependent (fun _ => True) fun A : List (List F) => m.column (A.map Row.list) i := by
  unfold GaussianNB.column
  refine Spec.BatchIndependent.of_const _ fun p _ => ?_
  refine Spec.BatchIndependent.of_const _ fun jointi _ => ?_
  refine Spec.BatchIndependent.of_const _ fun sig _ => ?_
  refine Spec.BatchIndependent.of_const _ fun logs _ => ?_
  have h1 : BatchIndependent (fun _ => True) fun A : List (List F) =>
      (A.mapM fun r => (do GaussianNB.terms (← pyGet m.theta (i : Int)) sig (.list r))) :=
    BatchIndependent.of_rowwise fun A _ _ => OkEq.refl _
  have h2 := Spec.BatchIndependent.bind_mapM h1
    (k := fun jll => (.ok ((jll.map fun a => ofRat 1 2 *ₚ pySum a).map fun a =>
      (Arith.neg (ofRat 1 2) *ₚ pySum logs -ₚ a) +ₚ jointi) : Py (List F)))
    (g := fun a => .ok ((Arith.neg (ofRat 1 2) *ₚ pySum logs -ₚ (ofRat 1 2 *ₚ pySum a)) +ₚ jointi))
    (by
      intro A _ _ ys _
      apply OkEq.of_eq
      rw [List.map_map]
      exact (mapM_ok_map fun _ _ => rfl).symm)
  refine h2.congr fun A _ _ => OkEq.of_eq ?_
  rw [mapM_map']
  rfl

theorem mapM_rows_zipStar {cols : List (List F)} {n : Nat} (hc : cols ≠ []) (hw : Rect n cols) :
    ((List.range n).mapM fun (j : Nat) => cols.mapM fun c => pyGet c (j : Int)) =
      .ok (zipStar cols) := by
  have e := eq_mat hw (ofInt 0)
  generalize (fun i j => (cols.getD i []).getD j (ofInt 0)) = f at e
  rw [e, zipStar_mat (List.length_pos_iff.2 hc)]
  unfold mat
  apply mapM_ok_map
  intro j hj
  rw [mapM_map']
  apply mapM_ok_map
  intro i _
  rw [pyGet_lt (by simpa using hj)]
  simp

theorem GaussianNB.jll_batch (m : GaussianNB F C) (hc : m.classes ≠ []) :
    BatchIndependent (fun _ => True) fun A => m.jll (.ofMat A) := by
  have h1 := Spec.BatchIndependent.columns (List.range m.classes.length)
    (f := fun i (A : List (List F)) => m.column (A.map Row.list) i) fun i _ => m.column_batch i
  refine h1.congr fun A hA hP => ?_
  simp only [GaussianNB.jll, rows_ofMat, py_ok_bind]
  refine OkEq.bind (OkEq.refl _) fun cols hcols => OkEq.of_eq ?_
  rw [transpose_ofMat, mapM_rows_zipStar]
  · intro e
    subst e
    have := mapM_length hcols
    simp at this
    exact hc (List.length_eq_zero_iff.1 this.symm)
  · intro col hcol
    obtain ⟨i, -, hi⟩ := mapM_mem hcols hcol
    exact Bagging.length_of_batch (m.column_batch i) hA hP hi

/-- The three prediction methods over any batch independent joint log likelihood. -/
theorem nbPredict_batch {jll : Arr F → Py (List (List F))} {P : List F → Prop}
    (h : BatchIndependent P fun A => jll (.ofMat A)) (classes : List C) :
    BatchIndependent P fun A => nbPredict jll classes (.ofMat A) := by
  have := Spec.BatchIndependent.bind_mapM h
    (k := fun j => j.mapM fun a => (do pyGet classes (← argmax a) : Py C))
    fun _ _ _ _ _ => OkEq.refl _
  refine this.congr fun A hA _ => OkEq.of_eq ?_
  simp only [nbPredict, checkArray_ofMat hA, py_ok_bind]

theorem nbPredictLogProba_batch {jll : Arr F → Py (List (List F))} {P : List F → Prop}
    (h : BatchIndependent P fun A => jll (.ofMat A)) :
    BatchIndependent P fun A => nbPredictLogProba jll (.ofMat A) := by
  have := Spec.BatchIndependent.bind_mapM h
    (k := fun j => j.mapM logNormalize) fun _ _ _ _ _ => OkEq.refl _
  refine this.congr fun A hA _ => OkEq.of_eq ?_
  simp only [nbPredictLogProba, checkArray_ofMat hA, py_ok_bind]

theorem nbPredictProba_batch {jll : Arr F → Py (List (List F))} {P : List F → Prop}
    (h : BatchIndependent P fun A => jll (.ofMat A)) :
    BatchIndependent P fun A => nbPredictProba jll (.ofMat A) :=
  Spec.BatchIndependent.bind_mapM (nbPredictLogProba_batch h) fun _ _ _ _ _ => OkEq.refl _

end PurePredict
