import Verif.Lemmas.LinearExact
/-
C07: a wrong feature count is rejected.  The full statement is false of the code: only the first
record's width is checked.
-/
namespace PurePredict
open Spec Linear
variable {F C : Type} [Arith F]

/-- The full claim: any dense request containing a record of the wrong width raises ValueError. -/
def RejectsWrongWidth (m : Linear F C) (w : Nat) : Prop :=
  ∀ M : List (List F), (∃ r ∈ M, r.length ≠ w) → m.predict (.ofMat M) = .error .valueError

theorem decision_error_of_width {m : Linear F C} {X : Arr F} {e : PyErr}
    (h : m.decisionFunction X = .error e) : m.predict X = .error e := by
  simp [Linear.predict, h]

/-- **C07 (part)**: if the *first* record has the wrong width, `decision_function` and `predict`
raise ValueError, in any arithmetic.  In particular a request all of whose records have the wrong
width is rejected.  Missing: wrong widths in later records (see `C07_later_records_not_checked`). -/
theorem C07_wrong_width_rejected_partial (m : Linear F C) (w : Nat) (hc : m.coef ≠ [])
    (hcw : Rect w m.coef) (r : List F) (M : List (List F)) (hr : r.length ≠ w) :
    m.decisionFunction (.ofMat (r :: M)) = .error .valueError ∧
    m.predict (.ofMat (r :: M)) = .error .valueError ∧
    m.predictProbaLr (.ofMat (r :: M)) = .error .valueError := by
  have hd : m.decisionFunction (.ofMat (r :: M)) = .error .valueError := by
    simp only [decisionFunction, checkArray_ofMat_cons, py_ok_bind, checkWidth,
      width_ofMat hc hcw, width_ofMat_cons]
    simp [hr]
  exact ⟨hd, by simp [Linear.predict, hd], by simp [predictProbaLr, hd]⟩

/-- **C07 (part)**, sparse requests: a `sparse_list` whose size is not the fitted width is rejected
whatever its rows are. -/
theorem C07_wrong_sparse_size_rejected_partial (m : Linear F C) (w n : Nat) (hc : m.coef ≠ [])
    (hcw : Rect w m.coef) (ds : List (Dict Int F)) (hds : ds ≠ []) (dt : DType) (hn : n ≠ w) :
    m.decisionFunction (.sparse ds (some n) dt) = .error .valueError ∧
    m.predict (.sparse ds (some n) dt) = .error .valueError := by
  have hd : m.decisionFunction (.sparse ds (some n) dt) = .error .valueError := by
    simp only [decisionFunction, checkArray, py_ok_bind, checkWidth,
      width_ofMat hc hcw, width_sparse hds]
    simp [hn]
  exact ⟨hd, decision_error_of_width hd⟩

/-- A `sparse_list` without a size (e.g. built from dicts) raises TypeError instead. -/
theorem C07_sparse_no_size (m : Linear F C) (w : Nat) (hc : m.coef ≠ [])
    (hcw : Rect w m.coef) (ds : List (Dict Int F)) (hds : ds ≠ []) (dt : DType) :
    m.decisionFunction (.sparse ds none dt) = .error .typeError := by
  simp only [decisionFunction, checkArray, py_ok_bind, checkWidth,
    width_ofMat hc hcw, width_sparse hds]
  rfl

/-- What happens instead: for every linear model with an intercept, a request whose first record
has the fitted width gets a score for every record, whatever the other records' widths. -/
theorem C07_later_records_not_checked (m : Linear F C) (w : Nat) (hc : m.coef ≠ [])
    (hcw : Rect w m.coef) (b : List F) (hb : m.intercept = some b) (r : List F)
    (hr : r.length = w) (M : List (List F)) :
    ∃ s, m.decisionFunction (.ofMat (r :: M)) = .ok s := by
  have hacc : m.Accepts (.ofMat (r :: M)) ((r :: M).map Row.list) := by
    refine ⟨checkArray_ofMat_cons _ _ _, ?_, rfl, by simp⟩
    simp [checkWidth, width_ofMat hc hcw, width_ofMat_cons, hr]
  rw [decision_eq hacc hb]
  have : ∃ ss, ((r :: M).map Row.list).mapM m.rowScores = .ok ss := by
    apply mapM_total
    intro x hx
    obtain ⟨y, _, rfl⟩ := List.mem_map.1 hx
    simp only [rowScores, dot_list, py_ok_bind, hb, attr]
    exact ⟨_, rfl⟩
  obtain ⟨ss, hss⟩ := this
  rw [hss]
  simp only [py_ok_bind]
  split <;> exact ⟨_, rfl⟩

/-- **C07 is false of the code**: a model for which requests with a record of the wrong width are
answered: an extra feature is silently dropped, a missing feature counts as 0. -/
theorem C07_false : ∃ m : Linear Ex String, m.coef ≠ [] ∧ Rect 2 m.coef ∧
    m.predict (.ofMat [[.fin 1, .fin 1], [.fin (-1)], [.fin (-3), .fin 1, .fin 7]]) =
      .ok ["b", "a", "a"] ∧
    ¬ RejectsWrongWidth m 2 := by
  let m : Linear Ex String := ⟨[[.fin 1, .fin 1]], ["a", "b"], some [.fin 0], none, none, none⟩
  have hc : m.coef ≠ [] := by simp [m]
  have hr : Rect 2 m.coef := by intro r hr; simp [m] at hr; simp [hr]
  have hacc : m.Accepts (.ofMat [[.fin 1, .fin 1], [.fin (-1)], [.fin (-3), .fin 1, .fin 7]])
      ([[.fin 1, .fin 1], [.fin (-1)], [.fin (-3), .fin 1, .fin 7]].map Row.list) := by
    refine ⟨checkArray_ofMat_cons _ _ _, ?_, rfl, by simp⟩
    simp [checkWidth, width_ofMat hc hr, width_ofMat_cons]
  have hp : m.predict (.ofMat [[.fin 1, .fin 1], [.fin (-1)], [.fin (-3), .fin 1, .fin 7]]) =
      .ok ["b", "a", "a"] := by
    apply (predict_rowwise hacc (b := [.fin 0]) rfl _).2
    simp [m, rowScores, dot, dotList, attr, rowLabel, pySum, pyGet]
    norm_num
  refine ⟨m, hc, hr, hp, ?_⟩
  intro h
  rw [h _ ⟨[.fin (-1)], by simp, by simp⟩] at hp
  cases hp

/-- Non-vacuity of the partial theorem. -/
example : (⟨[[.fin 1, .fin 1]], ["a", "b"], some [.fin 0], none, none, none⟩ :
    Linear Ex String).predict (.ofMat [[.fin 1], [.fin 1, .fin 2]]) = .error .valueError :=
  (C07_wrong_width_rejected_partial _ 2 (by simp) (by intro r hr; simp at hr; simp [hr]) _ _
    (by simp)).2.1

end PurePredict
