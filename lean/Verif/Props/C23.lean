import Verif.Props.C22
/-
C23: MinMaxScaler.
-/
namespace PurePredict
open Spec

/-- **C23** in any arithmetic: every value is multiplied by its column's scale, then shifted. -/
theorem C23_transform {F : Type} [Arith F] (w : Nat) (scale min : Nat → F)
    (M : List (List F)) (hM : M ≠ []) (hw : Rect w M) (d : F) :
    (⟨some ((List.range w).map scale), some ((List.range w).map min)⟩ : MinMaxScaler F).transform
        (.ofMat M) =
      .ok (.ofMat (onColumns d w (fun j x => (x *ₚ scale j) +ₚ min j) M)) := by
  have hck : checkArray (Arr.ofMat M) = .ok (.list (M.map Row.list)) := checkArray_ofMat hM _
  have hrows : (Arr.list (M.map Row.list) : Arr F).rows = .ok (M.map Row.list) := rfl
  have hsp : (Arr.ofMat M : Arr F).issparse = false := rfl
  simp only [MinMaxScaler.transform, hsp, Bool.false_eq_true, if_false, hck, py_ok_bind, hrows,
    notNone, List.length_map, List.length_range]
  rw [mapM_map', mapM_ok_map (g := fun r => (List.range w).map fun j => (r.getD j d *ₚ scale j)
    +ₚ min j)]
  · rfl
  · intro r hr
    apply range_mapM
    intro i hi
    have h1 : i < r.length := by rw [hw r hr]; exact hi
    have hs : pyGet ((List.range w).map scale) (i : Int) = .ok (scale i) := by
      rw [pyGet_lt (by simpa using hi)]; simp
    have hm : pyGet ((List.range w).map min) (i : Int) = .ok (min i) := by
      rw [pyGet_lt (by simpa using hi)]; simp
    simp only [Row.getItem, pyGet_lt h1, py_ok_bind, hs, hm, py_pure,
      List.getD_eq_getElem?_getD, List.getElem?_eq_getElem h1, Option.getD_some]

/-- **C23**, formula over the reals. -/
theorem C23_transform_formula (w : Nat) (scale min : Nat → ℝ)
    (R : List (List ℝ)) (hR : R ≠ []) (hw : Rect w R) :
    (⟨some (fins ((List.range w).map scale)), some (fins ((List.range w).map min))⟩ :
        MinMaxScaler Ex).transform (.ofMat (R.map fins)) =
      .ok (.ofMat ((onColumns 0 w (minMaxEntry scale min) R).map fins)) := by
  have h := C23_transform w (fun j => (.fin (scale j) : Ex)) (fun j => .fin (min j))
    (R.map fins) (by simpa using hR) (rect_fins hw) (.fin 0)
  rw [onColumns_fins w (minMaxEntry scale min)] at h
  · simp only [fins_def, List.map_map] at h ⊢
    exact h
  · intro j x
    simp [minMaxEntry, XR.mul_exact, XR.add_exact]

/-- The parameters `MinMaxScaler.fit` stores for a column with data range [lo, hi] and
`feature_range = (a, b)`: `scale_ = (b-a)/(hi-lo)`, `min_ = a - lo*scale_` (with `hi - lo`
replaced by 1 for a constant column). -/
def FittedMinMax (a b lo hi scale min : ℝ) : Prop :=
  scale = (b - a) / (if hi - lo = 0 then 1 else hi - lo) ∧ min = a - lo * scale

/-- **C23**, range: a value inside the fitted data range lands inside `feature_range`; the lower end
goes to the lower end, and, unless the column was constant, the upper end to the upper end. -/
theorem C23_range (a b lo hi : Nat → ℝ) (scale min : Nat → ℝ) (j : Nat)
    (hf : FittedMinMax (a j) (b j) (lo j) (hi j) (scale j) (min j)) (hab : a j ≤ b j)
    (x : ℝ) (h1 : lo j ≤ x) (h2 : x ≤ hi j) :
    a j ≤ minMaxEntry scale min j x ∧ minMaxEntry scale min j x ≤ b j ∧
      minMaxEntry scale min j (lo j) = a j ∧
      (lo j < hi j → minMaxEntry scale min j (hi j) = b j) := by
  obtain ⟨e1, e2⟩ := hf
  unfold minMaxEntry
  rw [e2]
  by_cases hc : hi j - lo j = 0
  · have hx : x = lo j := by linarith
    refine ⟨by rw [hx]; linarith, by rw [hx]; linarith, by ring, fun h => by linarith⟩
  · rw [if_neg hc] at e1
    have hpos : 0 < hi j - lo j := lt_of_le_of_ne (by linarith) (Ne.symm hc)
    have hs0 : 0 ≤ scale j := by rw [e1]; exact div_nonneg (by linarith) hpos.le
    have hs1 : scale j * (hi j - lo j) = b j - a j := by rw [e1, div_mul_cancel₀ _ hc]
    refine ⟨?_, ?_, by ring, fun _ => by linarith⟩
    · nlinarith [mul_nonneg hs0 (sub_nonneg.2 h1)]
    · nlinarith [mul_nonneg hs0 (sub_nonneg.2 h2)]

/-- **C23**: sparse input is refused. -/
theorem C23_sparse_refused {F : Type} [Arith F] (s : MinMaxScaler F) (ds : List (Dict Int F))
    (n : Option Nat) (dt : DType) : s.transform (.sparse ds n dt) = .error .typeError := by
  simp [MinMaxScaler.transform, Arr.issparse]

/-- Non-vacuity: data range [2, 6] scaled to [0, 1]; 3 goes to 1/4. -/
example : (⟨some (fins [1/4]), some (fins [-1/2])⟩ : MinMaxScaler Ex).transform
    (.ofMat ([[3]].map fins)) = .ok (.ofMat ([[1/4]].map fins)) := by
  have h := C23_transform_formula 1 (fun _ => 1/4) (fun _ => -1/2) [[3]] (by simp)
    (by intro r hr; simp at hr; subst hr; rfl)
  simp only [List.range_succ, List.range_zero, List.nil_append, List.map_cons, List.map_nil,
    onColumns, minMaxEntry] at h
  simp only [List.map_cons, List.map_nil]
  rw [h]
  norm_num
example : FittedMinMax 0 1 2 6 (1/4) (-1/2) := by
  constructor <;> norm_num

end PurePredict
