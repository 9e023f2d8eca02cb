import Verif.Lemmas.Linear
/-
C03: batch independence of linear models, in any arithmetic.
-/
namespace PurePredict
open Spec Linear
variable {F C : Type} [Arith F]

/-- One cell of a `decision_function` result per record: a number (1-D result) or a row. -/
def Scores.cells : Scores F → List (F ⊕ List F)
  | .flat s => s.map .inl
  | .mat s => s.map .inr

/-- All list-valued methods of the linear classifiers on a family of requests `emb`. -/
structure Linear.BatchIndep {ρ : Type} (m : Linear F C) (P : ρ → Prop) (emb : List ρ → Arr F) :
    Prop where
  decision : BatchIndependent P fun A => do return (← m.decisionFunction (emb A)).cells
  predict : BatchIndependent P fun A => m.predict (emb A)
  probaLr : BatchIndependent P fun A => m.predictProbaLr (emb A)
  proba : BatchIndependent P fun A => m.predictProba (emb A)
  logProba : BatchIndependent P fun A => m.predictLogProba (emb A)
  sgdProba : BatchIndependent P fun A => m.sgdPredictProba (emb A)
  sgdLogProba : BatchIndependent P fun A => m.sgdPredictLogProba (emb A)

theorem Linear.sgdProba_cases (m : Linear F C) :
    (∃ e, ∀ X, m.sgdPredictProba X = .error e) ∨ (∀ X, m.sgdPredictProba X = m.predictProbaLr X) := by
  simp only [Linear.sgdPredictProba, Linear.sgdPredictProba_]
  cases h1 : m.checkProba with
  | error e => exact .inl ⟨e, fun _ => rfl⟩
  | ok u =>
    cases h2 : attr m.loss with
    | error e => exact .inl ⟨e, fun _ => rfl⟩
    | ok l =>
      simp only [py_ok_bind]
      by_cases h : l == "log"
      · exact .inr fun X => by simp [h]
      · exact .inl ⟨.notImplementedError, fun X => by simp [h]⟩

theorem Linear.sgdLogProba_cases (m : Linear F C) :
    (∃ e, ∀ X, m.sgdPredictLogProba X = .error e) ∨
      (∀ X, m.sgdPredictLogProba X =
        m.predictProbaLr X >>= fun p => p.mapM fun a => a.mapM safeLog) := by
  have := m.sgdProba_cases
  simp only [Linear.sgdPredictLogProba]
  cases h1 : m.checkProba with
  | error e => exact .inl ⟨e, fun _ => rfl⟩
  | ok u =>
    rcases this with ⟨e, he⟩ | h
    · exact .inl ⟨e, fun X => by rw [he]; rfl⟩
    · exact .inr fun X => by rw [h]; rfl

theorem Linear.batchIndep_of_accepts {ρ : Type} (m : Linear F C) (P : ρ → Prop)
    (emb : List ρ → Arr F) (row : ρ → Row F)
    (h : ∀ A : List ρ, A ≠ [] → (∀ r ∈ A, P r) → m.Accepts (emb A) (A.map row)) :
    m.BatchIndep P emb := by
  cases hb : m.intercept with
  | none =>
    have hd : ∀ A : List ρ, A ≠ [] → (∀ r ∈ A, P r) → ∃ e, m.decisionFunction (emb A) = .error e :=
      fun A hA hP => decision_no_intercept (h A hA hP) hb
    have hlr : ∀ A : List ρ, A ≠ [] → (∀ r ∈ A, P r) → ∃ e, m.predictProbaLr (emb A) = .error e := by
      intro A hA hP
      obtain ⟨e, he⟩ := hd A hA hP
      exact ⟨e, by simp [predictProbaLr, he]⟩
    have hpr : ∀ A : List ρ, A ≠ [] → (∀ r ∈ A, P r) → ∃ e, m.predictProba (emb A) = .error e := by
      intro A hA hP
      obtain ⟨e, he⟩ := hd A hA hP
      simp only [predictProba, predictProbaLr, he]
      cases m.isOvr with
      | error e => exact ⟨e, rfl⟩
      | ok b => cases b <;> exact ⟨e, rfl⟩
    constructor <;> apply BatchIndependent.of_error <;> intro A hA hP
    · obtain ⟨e, he⟩ := hd A hA hP; exact ⟨e, by simp [he]⟩
    · obtain ⟨e, he⟩ := hd A hA hP; exact ⟨e, by simp [Linear.predict, he]⟩
    · exact hlr A hA hP
    · exact hpr A hA hP
    · obtain ⟨e, he⟩ := hpr A hA hP; exact ⟨e, by simp [predictLogProba, he]⟩
    · rcases m.sgdProba_cases with ⟨e, he⟩ | h'
      · exact ⟨e, he _⟩
      · rw [h']; exact hlr A hA hP
    · rcases m.sgdLogProba_cases with ⟨e, he⟩ | h'
      · exact ⟨e, he _⟩
      · rw [h']; obtain ⟨e, he⟩ := hlr A hA hP; exact ⟨e, by simp [he]⟩
  | some b =>
    have hlr : ∀ A : List ρ, A ≠ [] → (∀ r ∈ A, P r) → OkEq (m.predictProbaLr (emb A))
        (A.mapM fun x => m.rowScores (row x) >>= rowProbaLr) := by
      intro A hA hP
      have := predictProbaLr_rowwise (h A hA hP) hb
      rwa [mapM_map'] at this
    refine ⟨?_, ?_, ?_, ?_, ?_, ?_, ?_⟩
    · apply BatchIndependent.of_rowwise (g := fun x => m.rowScores (row x) >>= fun s =>
        (Except.ok (match s with | [y] => Sum.inl y | s => Sum.inr s) : Py (F ⊕ List F)))
      intro A hA hP
      have := decision_bind (h A hA hP) hb (k := fun s => .ok s.cells)
        (g := fun s => (Except.ok (match s with | [y] => Sum.inl y | s => Sum.inr s)
          : Py (F ⊕ List F))) ?_ ?_
      · rwa [mapM_map'] at this
      · intro s
        rw [mapM_map']
        exact OkEq.of_eq (mapM_ok_map fun _ _ => rfl).symm
      · intro s hs
        refine OkEq.of_eq (Eq.symm (mapM_ok_map ?_))
        intro r hr
        have := hs r hr
        split
        · simp at this
        · rfl
    · apply BatchIndependent.of_rowwise (g := fun x => m.rowScores (row x) >>= m.rowLabel)
      intro A hA hP
      have := predict_rowwise (h A hA hP) hb
      rwa [mapM_map'] at this
    · exact BatchIndependent.of_rowwise hlr
    · apply BatchIndependent.of_rowwise (g := fun x => m.rowScores (row x) >>= m.rowProba)
      intro A hA hP
      have := predictProba_rowwise (h A hA hP) hb
      rwa [mapM_map'] at this
    · apply BatchIndependent.of_rowwise
        (g := fun x => (m.rowScores (row x) >>= m.rowProba) >>= fun a => a.mapM safeLog)
      intro A hA hP
      have := predictLogProba_rowwise (h A hA hP) hb
      rwa [mapM_map'] at this
    · rcases m.sgdProba_cases with ⟨e, he⟩ | h'
      · exact BatchIndependent.of_error fun A _ _ => ⟨e, he _⟩
      · simp only [h']; exact BatchIndependent.of_rowwise hlr
    · rcases m.sgdLogProba_cases with ⟨e, he⟩ | h'
      · exact BatchIndependent.of_error fun A _ _ => ⟨e, he _⟩
      · simp only [h']
        apply BatchIndependent.of_rowwise
          (g := fun x => (m.rowScores (row x) >>= rowProbaLr) >>= fun a => a.mapM safeLog)
        intro A hA hP
        exact OkEq.trans (OkEq.bind (hlr A hA hP) fun _ _ => OkEq.refl _) (OkEq.mapM_comp _ _ _)

/-- **C03**, dense requests: for every linear classifier with a rectangular coefficient matrix of
width `w`, in any arithmetic (NaN, infinities, rounding), all methods are batch independent on
records of width `w`. -/
theorem C03_linear_batch_independence (m : Linear F C) (w : Nat) (hc : m.coef ≠ [])
    (hcw : Rect w m.coef) : m.BatchIndep (fun r : List F => r.length = w) Arr.ofMat :=
  m.batchIndep_of_accepts _ _ Row.list fun _ hA hP => accepts_dense hc hcw hA hP

/-- **C03**, sparse requests (of the fitted size): no condition on the rows at all. -/
theorem C03_linear_batch_independence_sparse (m : Linear F C) (w : Nat) (hc : m.coef ≠ [])
    (hcw : Rect w m.coef) (dt : DType) :
    m.BatchIndep (fun _ : Dict Int F => True) (fun ds => .sparse ds (some w) dt) :=
  m.batchIndep_of_accepts _ _ Row.dict fun _ hA _ => accepts_sparse hc hcw hA dt

/-- Non-vacuity: predictions really are returned — a binary model with one feature maps the batch
`[[3],[-3]]` to `["b","a"]`, and so each record alone. -/
example (m : Linear Ex String)
    (hm : m = ⟨[[.fin 2]], ["a", "b"], some [.fin 0], none, none, none⟩) :
    m.predict (.ofMat [[.fin 3], [.fin (-3)]]) = .ok ["b", "a"] ∧
    m.predict (.ofMat [[.fin 3]]) = .ok ["b"] ∧ m.predict (.ofMat [[.fin (-3)]]) = .ok ["a"] := by
  have h : m.predict (.ofMat [[.fin 3], [.fin (-3)]]) = .ok ["b", "a"] := by
    have hacc := accepts_dense (m := m) (d := 1) (by simp [hm])
      (by intro r hr; simp [hm] at hr; simp [hr]) (M := [[.fin 3], [.fin (-3)]]) (by simp)
      (by intro r hr; simp at hr; rcases hr with rfl | rfl <;> rfl)
    apply (predict_rowwise hacc (b := [.fin 0]) (by simp [hm]) _).2
    simp [hm, rowScores, dot, dotList, attr, rowLabel, pySum, pyGet]
    norm_num
  refine ⟨h, ?_⟩
  have hb := (C03_linear_batch_independence m 1 (by simp [hm])
    (by intro r hr; simp [hm] at hr; simp [hr])).predict.2
      [[.fin 3], [.fin (-3)]] (by simp) (by intro r hr; simp at hr; rcases hr with rfl | rfl <;> rfl)
      ["b", "a"]
  have := hb.1 h
  simp only [List.forall₂_cons] at this
  exact ⟨this.1, this.2.1⟩

end PurePredict
