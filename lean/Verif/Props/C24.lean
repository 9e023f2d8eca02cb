import Verif.Props.C22
/-
C24: MaxAbsScaler.
-/
namespace PurePredict
open Spec

/-- **C24** in rounded arithmetic: each value is the rounded quotient by its column scale. -/
theorem C24_transform_rounded (fp : FP) (w : Nat) (scale : Nat → ℝ) (hsc : ∀ j < w, scale j ≠ 0)
    (ma : Option (List (XR fp))) (M : List (List (XR fp))) (hM : M ≠ []) (hw : Rect w M) :
    (⟨some ((List.range w).map fun j => .fin (scale j)), ma⟩ : MaxAbsScaler (XR fp)).transform
        (.ofMat M) =
      .ok (.ofMat (onColumns (.fin 0) w (fun j x => XR.quot x (scale j)) M)) := by
  have hck : checkArray (Arr.ofMat M) .allow = .ok (.list (M.map Row.list)) :=
    checkArray_ofMat hM .allow
  have hrows : (Arr.list (M.map Row.list) : Arr (XR fp)).rows = .ok (M.map Row.list) := rfl
  simp only [MaxAbsScaler.transform, hck, py_ok_bind, hrows, notNone]
  rw [columnwise_ok hw (by simp) (.fin 0) (g := fun j x => XR.quot x (scale j))]
  · rfl
  · intro r _ i hi
    have : ((List.range w).map fun j => (XR.fin (scale j) : XR fp)).getD i (.fin 0) =
        .fin (scale i) := by
      simp [List.getD_eq_getElem?_getD, hi]
    rw [this, XR.div_quot _ (hsc i hi)]

/-- **C24**, formula over the reals. -/
theorem C24_transform_formula (w : Nat) (scale : Nat → ℝ) (hsc : ∀ j < w, scale j ≠ 0)
    (ma : Option (List Ex)) (R : List (List ℝ)) (hR : R ≠ []) (hw : Rect w R) :
    (⟨some (fins ((List.range w).map scale)), ma⟩ : MaxAbsScaler Ex).transform (.ofMat (R.map fins)) =
      .ok (.ofMat ((onColumns 0 w (maxAbsEntry scale) R).map fins)) := by
  have h := C24_transform_rounded FP.exact w scale hsc ma (R.map fins) (by simpa using hR)
    (rect_fins hw)
  rw [onColumns_fins w (maxAbsEntry scale)] at h
  · simp only [fins_def, List.map_map] at h ⊢
    exact h
  · intro j x
    simp [maxAbsEntry]

/-- **C24**, zeros and bounds under rounding: a zero stays exactly zero, and a value whose absolute
value is at most the fitted maximum lands in [-1, 1]. -/
theorem C24_zero_and_range (fp : FP) (hs : fp.Sound) (w : Nat) (scale : Nat → ℝ)
    (hsc : ∀ j < w, 0 < scale j) (ma : Option (List (XR fp)))
    (R : List (List ℝ)) (hR : R ≠ []) (hw : Rect w R) :
    ∃ Y : List (List (XR fp)),
      (⟨some ((List.range w).map fun j => .fin (scale j)), ma⟩ : MaxAbsScaler (XR fp)).transform
        (.ofMat (R.map fun x => x.map .fin)) = .ok (.ofMat Y) ∧ Y.length = R.length ∧
      ∀ (i : Nat) (x : List ℝ), R[i]? = some x → ∀ j < w, ∃ y : List (XR fp), Y[i]? = some y ∧ y.length = w ∧
        (x[j]? = some 0 → y[j]? = some (.fin 0)) ∧
        (∀ a, x[j]? = some a → |a| ≤ scale j → ∃ r, y[j]? = some (.fin r) ∧ |r| ≤ 1) := by
  refine ⟨_, C24_transform_rounded fp w scale (fun j hj => (hsc j hj).ne') ma _ (by simpa using hR)
    (by intro r hr; obtain ⟨x, hx, rfl⟩ := List.mem_map.1 hr; simp [hw x hx]), by simp [onColumns], ?_⟩
  intro i x hx j hj
  have hlen : x.length = w := hw x (List.mem_of_getElem? hx)
  refine ⟨(List.range w).map fun k => XR.quot ((x.map XR.fin).getD k (.fin 0)) (scale k), ?_, ?_, ?_, ?_⟩
  · simp [onColumns, hx]
  · simp
  · intro h0
    simp [hj, List.getD_eq_getElem?_getD, h0, XR.quot_zero hs]
  · intro a ha hle
    obtain ⟨r, h1, h2⟩ := XR.quot_abs_le_one hs (hsc j hj) hle
    exact ⟨r, by simp [hj, List.getD_eq_getElem?_getD, ha, h1], h2⟩

/-- **C24**, sparse and dense agree in every sound arithmetic. -/
theorem C24_sparse_agrees (fp : FP) (hs : fp.Sound) (w : Nat) (scale : Nat → ℝ)
    (hsc : ∀ j < w, scale j ≠ 0) (ma : Option (List (XR fp)))
    (ds : List (Dict Int (XR fp))) (hds : ds ≠ []) (hd : ∀ d ∈ ds, ValidRow w d) (dt : DType) :
    let s : MaxAbsScaler (XR fp) := ⟨some ((List.range w).map fun j => .fin (scale j)), ma⟩
    ∃ ds', s.transform (.sparse ds (some w) dt) = .ok (.sparse ds' (some w) dt) ∧
      (∀ d ∈ ds', ValidRow w d) ∧
      s.transform (.ofMat (ds.map (dense (.fin 0) w))) =
        .ok (.ofMat (ds'.map (dense (.fin 0) w))) := by
  intro s
  have hS : ((List.range w).map scale).length = w := by simp
  have hne : ∀ x ∈ (List.range w).map scale, x ≠ 0 := by
    intro x hx
    obtain ⟨j, hj, rfl⟩ := List.mem_map.1 hx
    exact hsc j (List.mem_range.1 hj)
  have hSeq : ((List.range w).map fun j => (XR.fin (scale j) : XR fp)) =
      ((List.range w).map scale).map XR.fin := by rw [List.map_map]; rfl
  refine ⟨ds.map fun d => d.map fun kv =>
    (kv.1, XR.quot kv.2 (((List.range w).map scale).getD kv.1.toNat 1)), ?_, ?_, ?_⟩
  · simp only [s, MaxAbsScaler.transform, checkArray, py_ok_bind, hSeq, scaleDicts_ok hS hne hd]
    exact sparseList_dicts (by simpa using hds) _ _
  · intro d hdm
    obtain ⟨d', hd', rfl⟩ := List.mem_map.1 hdm
    exact validRow_mapKV (g := fun k v => XR.quot v (((List.range w).map scale).getD k.toNat 1))
      (hd d' hd')
  · have hrect : Rect w (ds.map (dense (XR.fin 0 : XR fp) w)) := by
      intro r hr
      obtain ⟨d, _, rfl⟩ := List.mem_map.1 hr
      exact dense_length _ _ _
    rw [C24_transform_rounded fp w scale hsc ma _ (by simpa using hds) hrect]
    congr 2
    unfold onColumns
    rw [List.map_map, List.map_map]
    apply List.map_congr_left
    intro d _
    simp only [Function.comp]
    unfold dense
    apply List.map_congr_left
    intro i hi
    have hi := List.mem_range.1 hi
    rw [entry_scaled hs]
    simp only [List.getD_eq_getElem?_getD]
    rw [List.getElem?_map, List.getElem?_map, List.getElem?_range hi]
    rfl

/-- Non-vacuity: scale 4 sends the row [-2] to [-1/2]. -/
example : (⟨some (fins [4]), none⟩ : MaxAbsScaler Ex).transform
    (.ofMat ([[-2]].map fins)) = .ok (.ofMat ([[-1/2]].map fins)) := by
  have h := C24_transform_formula 1 (fun _ => 4) (fun _ _ => by norm_num) none [[-2]] (by simp)
    (by intro r hr; simp at hr; subst hr; rfl)
  simp only [List.range_succ, List.range_zero, List.nil_append, List.map_cons, List.map_nil,
    onColumns, maxAbsEntry] at h
  simp only [List.map_cons, List.map_nil]
  rw [h]
  norm_num

end PurePredict
