import Verif.Lemmas.Scale
/-
C22: StandardScaler.
-/
namespace PurePredict
open Spec

theorem onColumns_fins (w : Nat) (g : Nat → ℝ → ℝ) (G : Nat → Ex → Ex)
    (h : ∀ j x, G j (.fin x) = .fin (g j x)) (R : List (List ℝ)) :
    onColumns (.fin 0) w G (R.map fins) = (onColumns 0 w g R).map fins := by
  unfold onColumns
  rw [List.map_map, List.map_map]
  apply List.map_congr_left
  intro x _
  simp only [Function.comp, fins_def, List.map_map]
  apply List.map_congr_left
  intro j _
  have : (x.map XR.fin).getD j (.fin 0 : Ex) = .fin (x.getD j 0) := by
    simp only [List.getD_eq_getElem?_getD, List.getElem?_map]
    cases x[j]? <;> rfl
  simp only [this, h, Function.comp]

theorem onColumns_rect {α : Type} (d : α) (w : Nat) (f : Nat → α → α) (R : List (List α)) :
    Rect w (onColumns d w f R) := by
  intro r hr
  obtain ⟨x, _, rfl⟩ := List.mem_map.1 hr
  simp

theorem getD_fins_range {w i : Nat} (hi : i < w) (g : Nat → ℝ) :
    (fins ((List.range w).map g)).getD i (.fin 0) = .fin (g i) := by
  simp [List.getD_eq_getElem?_getD, fins_def, hi]

theorem rect_fins {w : Nat} {R : List (List ℝ)} (h : Rect w R) : Rect w (R.map fins) := by
  intro r hr
  obtain ⟨x, hx, rfl⟩ := List.mem_map.1 hr
  rw [fins_length]; exact h x hx

theorem getD_fins (x : List ℝ) (j : Nat) : (fins x).getD j (.fin 0) = .fin (x.getD j 0) := by
  simp only [fins_def, List.getD_eq_getElem?_getD, List.getElem?_map]
  cases x[j]? <;> rfl

/-- **C22**, rounded arithmetic: what the code computes for one value. -/
noncomputable def stdRounded {fp : FP} (wm ws : Bool) (mean scale : Nat → ℝ) (j : Nat) (x : XR fp) :
    XR fp :=
  let y := if wm then x -ₚ .fin (mean j) else x
  if ws then XR.quot y (scale j) else y

theorem C22_transform_rounded (fp : FP) (s : StandardScaler (XR fp)) (w : Nat)
    (mean scale : Nat → ℝ)
    (hm : s.withMean = true → s.mean = some ((List.range w).map fun j => .fin (mean j)))
    (hsc : s.withStd = true → s.scale = some ((List.range w).map fun j => .fin (scale j)) ∧
      ∀ j < w, scale j ≠ 0)
    (M : List (List (XR fp))) (hM : M ≠ []) (hw : Rect w M) :
    s.transform (.ofMat M) =
      .ok (.ofMat (onColumns (.fin 0) w (stdRounded s.withMean s.withStd mean scale) M)) := by
  obtain ⟨wm, ws, sc, mn⟩ := s
  simp only at hm hsc ⊢
  have hck : checkArray (Arr.ofMat M) .allow = .ok (.list (M.map Row.list)) :=
    checkArray_ofMat hM .allow
  have hrows : (Arr.list (M.map Row.list) : Arr (XR fp)).rows = .ok (M.map Row.list) := rfl
  have hget : ∀ (g : Nat → ℝ) i, i < w →
      ((List.range w).map fun j => (XR.fin (g j) : XR fp)).getD i (.fin 0) = .fin (g i) := by
    intro g i hi; simp [List.getD_eq_getElem?_getD, hi]
  have hmean : ∀ M : List (List (XR fp)), Rect w M → wm = true →
      columnwise ((List.range w).map fun j => (XR.fin (mean j) : XR fp))
        (fun a b => .ok (a -ₚ b)) (M.map Row.list) =
      .ok ((onColumns (.fin 0) w (fun j x => x -ₚ .fin (mean j)) M).map Row.list) := by
    intro M hw h
    exact columnwise_ok hw (by simp) (.fin 0) fun r _ i hi => by rw [hget mean i hi]
  have hstd : ∀ M : List (List (XR fp)), Rect w M → ws = true →
      columnwise ((List.range w).map fun j => (XR.fin (scale j) : XR fp))
        Arith.div (M.map Row.list) =
      .ok ((onColumns (.fin 0) w (fun j x => XR.quot x (scale j)) M).map Row.list) := by
    intro M hw h
    obtain ⟨h1, h2⟩ := hsc h
    exact columnwise_ok hw (by simp) (.fin 0) fun r _ i hi => by
      rw [hget scale i hi, XR.div_quot _ (h2 i hi)]
  have hid : onColumns (.fin 0) w (fun _ x => x) M = M := by
    unfold onColumns
    conv_rhs => rw [← List.map_id M]
    apply List.map_congr_left
    intro x hx
    apply List.ext_getElem
    · simp [hw x hx]
    · intro i h1 h2
      have h3 : i < x.length := h2
      simp [List.getD_eq_getElem?_getD, h3]
  have hcomp : ∀ f g : Nat → XR fp → XR fp, onColumns (.fin 0) w f (onColumns (.fin 0) w g M) =
      onColumns (.fin 0) w (fun j x => f j (g j x)) M := by
    intro f g
    unfold onColumns
    rw [List.map_map]
    apply List.map_congr_left
    intro x _
    apply List.map_congr_left
    intro j hj
    have := List.mem_range.1 hj
    simp [List.getD_eq_getElem?_getD, this]
  simp only [StandardScaler.transform, hck, py_ok_bind, hrows]
  cases wm <;> cases ws <;> simp only [Bool.false_eq_true, if_false, if_true]
  · have : stdRounded (fp := fp) false false mean scale = fun _ x => x := rfl
    rw [this, hid]
    rfl
  · rw [(hsc rfl).1]; simp only [notNone, py_pure, py_ok_bind]; rw [hstd M hw rfl]
    rfl
  · rw [hm rfl]; simp only [notNone, py_pure, py_ok_bind]; rw [hmean M hw rfl]
    rfl
  · rw [hm rfl, (hsc rfl).1]; simp only [notNone, py_pure, py_ok_bind]; rw [hmean M hw rfl, py_ok_bind, hstd _ (onColumns_rect _ w _ M) rfl, hcomp]
    rfl

/-- **C22**, formula: each value is centred by its column mean (if `with_mean`) and divided by its
column scale (if `with_std`). -/
theorem C22_transform_formula (s : StandardScaler Ex) (w : Nat) (mean scale : Nat → ℝ)
    (hm : s.withMean = true → s.mean = some (fins ((List.range w).map mean)))
    (hsc : s.withStd = true → s.scale = some (fins ((List.range w).map scale)) ∧
      ∀ j < w, scale j ≠ 0)
    (R : List (List ℝ)) (hR : R ≠ []) (hw : Rect w R) :
    s.transform (.ofMat (R.map fins)) =
      .ok (.ofMat ((onColumns 0 w (stdEntry s.withMean s.withStd mean scale) R).map fins)) := by
  have h := C22_transform_rounded FP.exact s w mean scale
    (fun h => by rw [hm h, fins_def, List.map_map]; rfl)
    (fun h => ⟨by rw [(hsc h).1, fins_def, List.map_map]; rfl, (hsc h).2⟩)
    (R.map fins) (by simpa using hR) (rect_fins hw)
  rw [h, onColumns_fins w (stdEntry s.withMean s.withStd mean scale)]
  intro j x
  cases s.withMean <;> cases s.withStd <;>
    simp [stdRounded, stdEntry, XR.quot_exact, XR.sub_exact]

/-- **C22**, invertible: the original value is `y * scale + mean`. -/
theorem C22_invertible (wm ws : Bool) (mean scale : Nat → ℝ) (j : Nat) (hj : scale j ≠ 0) (x : ℝ) :
    stdEntry wm ws mean scale j x * (if ws then scale j else 1) + (if wm then mean j else 0) = x := by
  unfold stdEntry
  have : (if ws then scale j else 1) ≠ 0 := by split <;> simp [hj]
  rw [div_mul_cancel₀ _ this]
  ring

/-- **C22**, monotone also under rounding: a larger input in a column never gives a smaller output
(infinities included). -/
theorem C22_monotone_rounded (fp : FP) (hs : fp.Sound) (wm ws : Bool) (mean scale : Nat → ℝ) (j : Nat)
    (hj : 0 < scale j) (x y : XR fp) (hx : x ≠ .nan) (hy : y ≠ .nan) (h : x.toE ≤ y.toE) :
    (stdRounded wm ws mean scale j x).toE ≤ (stdRounded wm ws mean scale j y).toE := by
  obtain ⟨h1, h2, h3⟩ := XR.sub_mono hs (m := mean j) hx hy h
  cases wm <;> cases ws <;> simp only [stdRounded, Bool.false_eq_true, if_false, if_true]
  · exact h
  · exact XR.quot_mono hs hj hx hy h
  · exact h1
  · exact XR.quot_mono hs hj h2 h3 h1

/-- **C22**, sparse and dense agree (no centring), in every sound arithmetic: the sparse result
denotes exactly the dense result, with the same columns stored. -/
theorem C22_sparse_agrees (fp : FP) (hs : fp.Sound) (s : StandardScaler (XR fp))
    (hwm : s.withMean = false) (hws : s.withStd = true) (w : Nat) (S : List ℝ) (hS : S.length = w)
    (hne : ∀ x ∈ S, x ≠ 0) (hsc : s.scale = some (S.map XR.fin))
    (ds : List (Dict Int (XR fp))) (hds : ds ≠ []) (hd : ∀ d ∈ ds, ValidRow w d) (dt : DType) :
    ∃ ds', s.transform (.sparse ds (some w) dt) = .ok (.sparse ds' (some w) dt) ∧
      (∀ d ∈ ds', ValidRow w d) ∧
      s.transform (.ofMat (ds.map (dense (.fin 0) w))) =
        .ok (.ofMat (ds'.map (dense (.fin 0) w))) := by
  refine ⟨ds.map fun d => d.map fun kv => (kv.1, XR.quot kv.2 (S.getD kv.1.toNat 1)), ?_, ?_, ?_⟩
  · simp only [StandardScaler.transform, checkArray, py_ok_bind, hwm, Bool.false_eq_true, if_false,
      hsc, scaleDicts_ok hS hne hd]
    exact sparseList_dicts (by simpa using hds) _ _
  · intro d hdm
    obtain ⟨d', hd', rfl⟩ := List.mem_map.1 hdm
    exact validRow_mapKV (g := fun k v => XR.quot v (S.getD k.toNat 1)) (hd d' hd')
  · have hrect : Rect w (ds.map (dense (XR.fin 0 : XR fp) w)) := by
      intro r hr
      obtain ⟨d, _, rfl⟩ := List.mem_map.1 hr
      exact dense_length _ _ _
    have hSeq : S.map (XR.fin : ℝ → XR fp) = (List.range w).map fun j => .fin (S.getD j 1) := by
      subst hS
      apply List.ext_getElem
      · simp
      · intro i h1 h2
        simp at h1
        simp [List.getD_eq_getElem?_getD, h1]
    rw [C22_transform_rounded fp s w (fun _ => 0) (fun j => S.getD j 1)
      (fun h => by rw [hwm] at h; cases h) (fun _ => ⟨by rw [hsc, hSeq], fun j hj => by
        rw [List.getD_eq_getElem?_getD, List.getElem?_eq_getElem (by rw [hS]; exact hj)]
        exact hne _ (List.getElem_mem _)⟩) _ (by simpa using hds) hrect]
    congr 2
    unfold onColumns
    rw [List.map_map, List.map_map]
    apply List.map_congr_left
    intro d _
    simp only [Function.comp]
    unfold dense
    apply List.map_congr_left
    intro i hi
    have hi := List.mem_range.1 hi
    rw [entry_scaled hs]
    simp only [stdRounded, hwm, hws, Bool.false_eq_true, if_false, if_true,
      List.getD_eq_getElem?_getD]
    rw [List.getElem?_map, List.getElem?_range hi]
    rfl

/-- **C22**: centring sparse data is refused. -/
theorem C22_sparse_centring_refused {F : Type} [Arith F] (s : StandardScaler F)
    (h : s.withMean = true) (ds : List (Dict Int F)) (n : Option Nat) (dt : DType) :
    s.transform (.sparse ds n dt) = .error .valueError := by
  simp [StandardScaler.transform, checkArray, h]

/-- Non-vacuity: mean 1, scale 2 on [[5]] gives [[2]]. -/
example : (⟨true, true, some (fins [2]), some (fins [1])⟩ : StandardScaler Ex).transform
    (.ofMat ([[5]].map fins)) = .ok (.ofMat ([[2]].map fins)) := by
  have h := C22_transform_formula ⟨true, true, some (fins [2]), some (fins [1])⟩ 1
    (fun _ => 1) (fun _ => 2) (fun _ => by simp [List.range_succ])
    (fun _ => ⟨by simp [List.range_succ], fun _ _ => by norm_num⟩) [[5]] (by simp)
    (by intro r hr; simp at hr; subst hr; rfl)
  rw [h]
  have : onColumns 0 1 (stdEntry true true (fun _ => 1) (fun _ => 2)) [[5]] = [[2]] := by
    simp only [onColumns, stdEntry, List.range_succ, List.range_zero]
    norm_num
  simp only [this]

end PurePredict
