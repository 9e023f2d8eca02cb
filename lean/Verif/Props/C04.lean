import Verif.Lemmas.LinearExact
/-
C04: linear `predict` is the decision rule.
-/
namespace PurePredict
open Spec Linear
variable {C : Type}

/-- **C04**, binary: one score per record, the inner product plus intercept; the label is
`classes_[1]` iff the score is strictly positive. -/
theorem C04_binary (m : Linear Ex C) (w : Nat) (W : List (List ℝ)) (b : List ℝ)
    (h : m.IsExact w 1 W b) (c0 c1 : C) (hc : m.classes = [c0, c1]) (R : List (List ℝ))
    (hR : R ≠ []) (hRw : Rect w R) :
    m.decisionFunction (.ofMat (R.map fins)) =
      .ok (.flat (fins (R.map fun x => linScore w W b x 0))) ∧
    m.predict (.ofMat (R.map fins)) =
      .ok (R.map fun x => if 0 < linScore w W b x 0 then c1 else c0) := by
  refine ⟨h.decision_one hR hRw, ?_⟩
  simp only [Linear.predict, h.decision_one hR hRw, py_ok_bind, hc]
  rw [fins, List.map_map, mapM_map']
  apply mapM_ok_map
  intro x _
  by_cases hp : 0 < linScore w W b x 0 <;> simp [hp, pyGet]

/-- **C04**, multi-class: one row of `k ≥ 2` scores per record, and the label is that of the first
class of maximal score.  Prediction always succeeds. -/
theorem C04_multiclass (m : Linear Ex C) (w k : Nat) (W : List (List ℝ)) (b : List ℝ)
    (h : m.IsExact w k W b) (hk : 2 ≤ k) (hc : m.classes.length = k) (R : List (List ℝ))
    (hR : R ≠ []) (hRw : Rect w R) :
    m.decisionFunction (.ofMat (R.map fins)) =
      .ok (.mat (R.map fun x => fins ((List.range k).map (linScore w W b x)))) ∧
    ∃ labels, m.predict (.ofMat (R.map fins)) = .ok labels ∧
      List.Forall₂ (fun x l => ∃ i, IsFirstMax ((List.range k).map (linScore w W b x)) i ∧
        m.classes[i]? = some l) R labels := by
  have hd := h.decision_many (by omega) hR hRw
  refine ⟨hd, ?_⟩
  have hrow : ∀ x, ∃ l i, argmax (fins ((List.range k).map (linScore w W b x))) = .ok i ∧
      IsFirstMax ((List.range k).map (linScore w W b x)) i ∧ m.classes[i]? = some l ∧
      pyGet m.classes (i : Int) = .ok l := by
    intro x
    obtain ⟨i, hi⟩ := argmax_total (l := fins ((List.range k).map (linScore w W b x)))
      (by simp [fins]; omega)
    have hlt := argmax_lt hi
    have hlt' : i < m.classes.length := by rw [hc]; simpa using hlt
    exact ⟨m.classes[i], i, hi, argmax_fins.1 hi, by simp [hlt'], pyGet_lt hlt'⟩
  choose l i h1 h2 h3 h4 using hrow
  refine ⟨R.map l, ?_, ?_⟩
  · simp only [Linear.predict, hd, py_ok_bind]
    rw [mapM_map']
    exact mapM_ok_map fun x _ => by simp [h1, h4]
  · rw [List.forall₂_map_right_iff, List.forall₂_same]
    exact fun x _ => ⟨i x, h2 x, h3 x⟩

/-- **C04**, any arithmetic, any request: every predicted label is one of `classes_`. -/
theorem C04_labels_in_classes {F : Type} [Arith F] (m : Linear F C) (X : Arr F) (ls : List C)
    (h : m.predict X = .ok ls) : ∀ l ∈ ls, l ∈ m.classes := by
  intro l hl
  simp only [Linear.predict] at h
  obtain ⟨s, _, h⟩ := bind_ok_iff.1 h
  cases s with
  | flat s =>
    obtain ⟨x, _, hx⟩ := mapM_mem h hl
    exact pyGet_ok_mem hx
  | mat s =>
    obtain ⟨x, _, hx⟩ := mapM_mem h hl
    obtain ⟨i, _, hx⟩ := bind_ok_iff.1 hx
    exact pyGet_ok_mem hx

/-- **C04**, any arithmetic: one label per record. -/
theorem C04_one_label_per_record {F : Type} [Arith F] (m : Linear F C) (w : Nat) (hc : m.coef ≠ [])
    (hcw : Rect w m.coef) (M : List (List F)) (hM : M ≠ []) (hMw : Rect w M) (ls : List C)
    (h : m.predict (.ofMat M) = .ok ls) : ls.length = M.length := by
  have hacc := accepts_dense hc hcw hM hMw
  cases hb : m.intercept with
  | none =>
    obtain ⟨e, he⟩ := decision_no_intercept hacc hb
    simp [Linear.predict, he] at h
  | some b =>
    have := mapM_length ((predict_rowwise hacc hb ls).1 h)
    simpa using this

/-- **C04**, floating point: under any rounding, whenever the computed scores contain no NaN, the
multi-class label is that of the first class whose computed score is maximal. -/
theorem C04_multiclass_rounded (fp : FP) (m : Linear (XR fp) C) (X : Arr (XR fp))
    (S : List (List (XR fp))) (hd : m.decisionFunction X = .ok (.mat S))
    (hn : ∀ s ∈ S, XR.nan ∉ s) (ls : List C) :
    m.predict X = .ok ls ↔
      List.Forall₂ (fun s l => ∃ i, IsFirstMax (s.map XR.toE) i ∧ m.classes[i]? = some l) S ls := by
  simp only [Linear.predict, hd, py_ok_bind]
  rw [mapM_ok_iff]
  apply forall₂_congr_mem
  intro s hs l
  rw [bind_ok_iff]
  constructor
  · rintro ⟨i, hi, hg⟩
    exact ⟨i, (argmax_iff XR.toE (XR.ordOn_toE (hn s hs))).1 hi, pyGet_ok_nat.1 hg⟩
  · rintro ⟨i, hi, hg⟩
    exact ⟨i, (argmax_iff XR.toE (XR.ordOn_toE (hn s hs))).2 hi, pyGet_ok_nat.2 hg⟩

/-- Non-vacuity: three classes, two features, a tie resolved towards the first class. -/
example : ∃ labels, (⟨[[1, 0], [0, 1], [0, 0]].map fins, ["a", "b", "c"], some (fins [0, 0, 0]),
      none, none, none⟩ : Linear Ex String).predict (.ofMat ([[1, 1], [0, 2]].map fins)) = .ok labels := by
  obtain ⟨-, l, hl, -⟩ := C04_multiclass (⟨[[1, 0], [0, 1], [0, 0]].map fins, ["a", "b", "c"],
    some (fins [0, 0, 0]), none, none, none⟩ : Linear Ex String) 2 3 [[1, 0], [0, 1], [0, 0]]
    [0, 0, 0] ⟨rfl, by intro r hr; simp at hr; rcases hr with rfl | rfl | rfl <;> rfl, rfl, rfl,
      rfl, by norm_num⟩ (by norm_num) rfl [[1, 1], [0, 2]] (by simp)
    (by intro r hr; simp at hr; rcases hr with rfl | rfl <;> rfl)
  exact ⟨l, hl⟩

end PurePredict
