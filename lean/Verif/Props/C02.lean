import Verif.Lemmas.Linear
import Verif.Lemmas.Dot
/-
C02: for every linear classifier, `decision_function`, `predict` and `predict_proba` on a
`sparse_list` give the same result as on its `todense()` form.
-/
namespace PurePredict
open Spec
variable {C : Type}

/-- Everything a linear classifier computes from a request: all six classes of
linear_model/*.py and svm/_classes.py. -/
def Linear.SameOutputs {F : Type} [Arith F] (m : Linear F C) (X Y : Arr F) : Prop :=
  m.decisionFunction X = m.decisionFunction Y ∧ m.predict X = m.predict Y ∧
  m.predictProbaLr X = m.predictProbaLr Y ∧
  m.predictProba X = m.predictProba Y ∧ m.predictLogProba X = m.predictLogProba Y ∧
  m.sgdPredictProba X = m.sgdPredictProba Y ∧ m.sgdPredictLogProba X = m.sgdPredictLogProba Y

theorem Linear.sameOutputs_of_decision {F : Type} [Arith F] {m : Linear F C} {X Y : Arr F}
    (h : m.decisionFunction X = m.decisionFunction Y) : m.SameOutputs X Y := by
  refine ⟨h, ?_, ?_, ?_, ?_, ?_, ?_⟩ <;>
  simp only [Linear.predict, Linear.predictProba, Linear.predictProbaLr, Linear.predictLogProba,
    Linear.sgdPredictProba, Linear.sgdPredictProba_, Linear.sgdPredictLogProba, h]

theorem Linear.decision_congr {F : Type} [Arith F] {m : Linear F C} {X Y : Arr F}
    {rs rs' : List (Row F)} (hX : m.Accepts X rs) (hY : m.Accepts Y rs')
    (h : rs.mapM m.rowScores = rs'.mapM m.rowScores) :
    m.decisionFunction X = m.decisionFunction Y := by
  simp only [Linear.decisionFunction, hX.array, hY.array, py_ok_bind, hX.width, hY.width, hX.rows,
    hY.rows, h]

theorem Linear.sparse_dense_of_dot {F : Type} [Arith F] {m : Linear F C} {w : Nat} {z : F}
    (hcd : Rect w m.coef) {ds : List (Dict Int F)}
    (hne : ds ≠ []) (dt : DType)
    (h : ∀ d ∈ ds, ∀ b ∈ m.coef, dotDict d b = .ok (dotList (dense z w d) b)) :
    m.decisionFunction (.sparse ds (some w) dt) =
      m.decisionFunction (.ofMat (ds.map (dense z w))) := by
  have hrect : Rect w (ds.map (dense z w)) := by
    intro r hr
    obtain ⟨d, _, rfl⟩ := List.mem_map.1 hr
    exact dense_length _ _ _
  by_cases hc : m.coef = []
  · have hd : (Arr.ofMat m.coef).width = .error .indexError := by rw [hc]; rfl
    have e1 : checkArray (.sparse ds (some w) dt) .allow = .ok (.sparse ds (some w) dt) := rfl
    simp only [Linear.decisionFunction, checkArray_ofMat (M := ds.map (dense z w))
      (by simpa using hne), Linear.checkWidth, hd, e1, py_ok_bind, py_error_bind]
  · refine Linear.decision_congr (accepts_sparse hc hcd hne dt)
      (accepts_dense hc hcd (by simpa using hne) hrect) ?_
    rw [List.map_map, mapM_map', mapM_map']
    apply mapM_congr
    intro d hd
    have : dot (.dict d) m.coef = dot (.list (dense z w d)) m.coef := by
      rw [dot_list]
      apply mapM_ok_map
      intro b hb
      exact h d hd b hb
    simp only [Linear.rowScores, Function.comp, this]

/-- **C02**, exact arithmetic: for every coefficient matrix of finite numbers and every non-empty
well-formed sparse matrix with finite entries (stored in any order, explicit zeros allowed),
`todense` succeeds and every linear classifier computes the same thing on both forms. -/
theorem C02_sparse_dense_agree (m : Linear Ex C) (w : Nat) (W : List (List ℝ))
    (hW : m.coef = W.map fins) (hrect : Rect w W)
    (ds : List (Dict Int ℝ)) (hne : ds ≠ []) (hv : ∀ d ∈ ds, ValidRow w d) (dt : DType) :
    ∃ D, todense (.sparse (ds.map finD) (some w) dt) = .ok D ∧
      m.SameOutputs (.sparse (ds.map finD) (some w) dt) D := by
  refine ⟨_, todense_sparse (castTo_zero_exact dt), Linear.sameOutputs_of_decision ?_⟩
  apply Linear.sparse_dense_of_dot
  · rw [hW]
    intro r hr
    obtain ⟨r', hr', rfl⟩ := List.mem_map.1 hr
    simpa using hrect r' hr'
  · simpa using hne
  · rw [hW]
    intro d hd b hb
    obtain ⟨d', hd', rfl⟩ := List.mem_map.1 hd
    obtain ⟨b', hb', rfl⟩ := List.mem_map.1 hb
    exact dotDict_exact (hv d' hd') (hrect b' hb')

/-- **C02**, floating point: in every sound rounded arithmetic, for finite coefficients, the two
forms agree bit for bit when each sparse row is stored in increasing column order (which is how
`sparse_list` and the vectorizers store them; stored values may be infinite or NaN). -/
theorem C02_sparse_dense_agree_rounded (fp : FP) (hs : fp.Sound) (m : Linear (XR fp) C) (w : Nat)
    (hfin : ∀ b ∈ m.coef, ∀ x ∈ b, ∃ r, x = .fin r) (hrect : Rect w m.coef)
    (ds : List (Dict Int (XR fp))) (hne : ds ≠ []) (hv : ∀ d ∈ ds, ValidRow w d)
    (hsort : ∀ d ∈ ds, (d.map Prod.fst).Pairwise (· < ·)) :
    ∃ D, todense (.sparse ds (some w) .float) = .ok D ∧
      m.SameOutputs (.sparse ds (some w) .float) D := by
  refine ⟨_, todense_sparse (z := .fin 0) ?_, Linear.sameOutputs_of_decision ?_⟩
  · show Except.ok (ofInt 0 : XR fp) = _
    rw [XR.ofInt_zero hs]
  · exact Linear.sparse_dense_of_dot hrect hne _ fun d hd b hb =>
      dotDict_eq_dotList_rounded hs (hv d hd) (hsort d hd) (hrect b hb) (hfin b hb)

/-- Without the well-formedness hypothesis the claim fails: a stored column index beyond the
declared size raises IndexError on the sparse side only. -/
theorem C02_out_of_range_index (m : Linear Ex C) (w : Nat) (W : List (List ℝ)) (hWne : W ≠ [])
    (hW : m.coef = W.map fins) (hrect : Rect w W) :
    m.decisionFunction (.sparse [[((w : Int), .fin 1)]] (some w) .float) = .error .indexError := by
  cases W with
  | nil => exact absurd rfl hWne
  | cons b W =>
    have hc : m.coef ≠ [] := by rw [hW]; simp
    have hcd : Rect w m.coef := by
      rw [hW]
      intro r hr
      obtain ⟨r', hr', rfl⟩ := List.mem_map.1 hr
      simpa using hrect r' hr'
    have hacc := Linear.accepts_sparse hc hcd
      (ds := [[((w : Int), (.fin 1 : Ex))]]) (by simp) .float
    simp only [Linear.decisionFunction, hacc.array, hacc.width, hacc.rows, py_ok_bind]
    have hb : pyGet (fins b) (w : Int) = .error .indexError :=
      pyGet_ge (by simpa using (hrect b (by simp)).le)
    simp [Linear.rowScores, hW, dot, dotDict, hb]

/-- Non-vacuity: a two-class-row model with 3 features, entries stored out of order. -/
example : ∃ D, todense (.sparse ([[(2, 5), (0, -1)], []].map finD) (some 3) .float) = .ok D ∧
    (⟨[[1, 2, 3], [4, 5, 6]].map fins, ["a", "b"], some (fins [0, 1]), none, none, none⟩ :
      Linear Ex String).SameOutputs
      (.sparse ([[(2, 5), (0, -1)], []].map finD) (some 3) .float) D := by
  refine C02_sparse_dense_agree _ 3 [[1, 2, 3], [4, 5, 6]] rfl ?_ _ (by simp) ?_ _
  · intro r hr; simp at hr; rcases hr with rfl | rfl <;> rfl
  · intro d hd
    simp at hd
    rcases hd with rfl | rfl
    · exact ⟨by decide, by simp⟩
    · exact ⟨by simp, by simp⟩

end PurePredict
