import Verif.Props.C31
/-
C30: imputation.  The entrywise part holds in any arithmetic.  "No missing value in the output"
and "applying it twice changes nothing more" hold under the stated extra hypotheses and are false
without them.
-/
namespace PurePredict
open Spec

section
variable {F : Type} [Arith F]

theorem out_length_rect (s : SimpleImputer F) (d : F) (M : List (List F))
    (hk : ∀ j < s.statistics.length, s.keep d j = true) : Rect s.statistics.length (M.map (s.out d)) := by
  intro r hr
  obtain ⟨x, _, rfl⟩ := List.mem_map.1 hr
  have : (List.range s.statistics.length).filter (s.keep d) = List.range s.statistics.length :=
    List.filter_eq_self.2 fun j hj => hk j (List.mem_range.1 hj)
  simp [SimpleImputer.out, imputed, this]

/-- The whole of `transform` on a matrix of the right width. -/
theorem imputer_transform (s : SimpleImputer F) (d : F) {M : List (List F)} (hM : M ≠ [])
    (hw : Rect s.statistics.length M) (h0 : s.statistics ≠ []) (ind : Option (List (List F)))
    (hind : s.transformIndicator (.ofMat M) = .ok ind) :
    s.transform (.ofMat M) =
      if !s.addIndicator then .ok (.ofMat (M.map (s.out d)))
      else match ind with
        | none => .error .valueError
        | some N => do
          let out ← (M.map (s.out d)).zipIdx.mapM fun p => do return p.1 ++ (← pyGet N (p.2 : Int))
          return .ofMat out := by
  have hrows := imputer_rows s d M hw
  have he : s.statistics.isEmpty = false := by simpa using h0
  simp only [SimpleImputer.transform, checkArray_ofMat hM, py_ok_bind, hind, width_ofMat hM hw, he,
    bne_self_eq_false, Bool.false_eq_true, if_false, rows_ofMat]
  have h1 : (M.map Row.list).mapM Row.elems = .ok M := by
    rw [mapM_map']
    exact (mapM_ok_map (g := id) fun x _ => elems_list x).trans (by simp)
  simp only [h1, py_ok_bind] at hrows ⊢
  rw [hrows]
  simp only [py_ok_bind]
  cases s.addIndicator
  · rfl
  · cases ind <;> rfl

/-- **C30**, any arithmetic: `transform` returns for each record the values of the kept columns, in
order, each missing one replaced by that column's statistic and every other one unchanged.  A
column is dropped exactly if its statistic is NaN and the strategy is not "constant". -/
theorem C30_transform (s : SimpleImputer F) (d : F) {M : List (List F)} (hM : M ≠ [])
    (hw : Rect s.statistics.length M) (h0 : s.statistics ≠ []) (hi : s.addIndicator = false) :
    s.transform (.ofMat M) = .ok (.ofMat (M.map fun x =>
      imputed d s.statistics.length (fun v => toImpute v s.missing)
        (fun j => s.constant || !Arith.isnan (s.statistics.getD j d))
        (fun j => s.statistics.getD j d) x)) := by
  rw [imputer_transform s d hM hw h0 none (by simp [SimpleImputer.transformIndicator, hi])]
  simp only [hi, Bool.not_false, if_true]
  rfl

/-- **C30**: with `add_indicator` the mask columns of the original record follow. -/
theorem C30_indicator (s : SimpleImputer F) (d : F) {M : List (List F)} (hM : M ≠ [])
    (hw : Rect s.statistics.length M) (h0 : s.statistics ≠ []) (hi : s.addIndicator = true)
    {i : MissingIndicator F} (hind : s.indicator = some i) (he : i.errorOnNew = false)
    (hn : i.nFeatures = s.statistics.length)
    (hf : i.features.Nodup) (hr : ∀ j ∈ i.features, j < i.nFeatures) :
    s.transform (.ofMat M) = .ok (.ofMat (M.map fun x => s.out d x ++ i.out d x)) := by
  have hti : s.transformIndicator (.ofMat M) = .ok (some (M.map (i.out d))) := by
    simp only [SimpleImputer.transformIndicator, hi, if_true, hind]
    rw [C31_total_partial i d hM (hn ▸ hw) hf hr (.inl he)]
    rfl
  rw [imputer_transform s d hM hw h0 _ hti]
  simp only [hi, Bool.not_true, Bool.false_eq_true, if_false]
  rw [zipIdx_range _ [], mapM_map', List.length_map, range_mapM
    (g := fun k => s.out d (M.getD k []) ++ i.out d (M.getD k []))]
  · simp only [py_ok_bind, py_pure]
    congr 2
    apply List.ext_getElem
    · simp
    · intro k h1 h2
      have : k < M.length := by simpa using h1
      simp [List.getD_eq_getElem?_getD, this]
  · intro k hk
    rw [pyGet_lt (by simpa using hk)]
    simp [List.getD_eq_getElem?_getD, hk, py_ok_bind, py_pure]

/-- The converted imputer's indicator never raises because of new missing features. -/
theorem C30_indicator_converted (st : List F) (c a : Bool) (mv : F) (i : MissingIndicator F) :
    ∀ j, (SimpleImputer.ofFitted st c a mv (some i)).indicator = some j → j.errorOnNew = false := by
  intro j hj
  cases hj
  rfl

/-- **C30**: a matrix of the wrong width is rejected with ValueError. -/
theorem C30_wrong_width (s : SimpleImputer F) {M : List (List F)} (hM : M ≠ []) {w : Nat}
    (hw : Rect w M) (hne : w ≠ s.statistics.length) (h0 : s.statistics ≠ []) (hi : s.addIndicator = false) :
    s.transform (.ofMat M) = .error .valueError := by
  have he : s.statistics.isEmpty = false := by simpa using h0
  simp [SimpleImputer.transform, SimpleImputer.transformIndicator, hi, checkArray_ofMat hM,
    width_ofMat hM hw, hne, he]

/-- **C30**: with `add_indicator` but no fitted indicator, ValueError. -/
theorem C30_no_indicator (s : SimpleImputer F) {M : List (List F)} (hM : M ≠ [])
    (hi : s.addIndicator = true) (hind : s.indicator = none) :
    s.transform (.ofMat M) = .error .valueError := by
  simp [SimpleImputer.transform, SimpleImputer.transformIndicator, hi, hind, checkArray_ofMat hM]

/-- **C30**, no missing value left, provided no kept statistic is itself a missing value. -/
theorem C30_no_missing_partial (s : SimpleImputer F) (d : F)
    (hs : ∀ j < s.statistics.length, s.keep d j = true →
      toImpute (s.statistics.getD j d) s.missing = false) (x : List F) :
    ∀ v ∈ s.out d x, toImpute v s.missing = false := by
  intro v hv
  simp only [SimpleImputer.out, imputed, List.mem_map, List.mem_filter, List.mem_range] at hv
  obtain ⟨j, ⟨hj, hk⟩, rfl⟩ := hv
  cases h : toImpute (x.getD j d) s.missing with
  | true => simp only [if_true]; exact hs j hj hk
  | false => simpa using h

/-- **C30**: with the NaN marker and a strategy other than "constant" that proviso always holds. -/
theorem C30_no_missing_nan_partial (s : SimpleImputer F) (d : F) (hc : s.constant = false)
    (hm : Arith.isnan s.missing = true) (x : List F) :
    ∀ v ∈ s.out d x, Arith.isnan v = false := by
  intro v hv
  have := C30_no_missing_partial s d (by
    intro j _ hk
    simpa [SimpleImputer.keep, hc, toImpute, hm] using hk) x v hv
  simpa [toImpute, hm] using this

/-- **C30**, idempotence, provided no column is dropped. -/
theorem C30_idempotent_partial (s : SimpleImputer F) (d : F) {M : List (List F)} (hM : M ≠ [])
    (hw : Rect s.statistics.length M) (h0 : s.statistics ≠ []) (hi : s.addIndicator = false)
    (hk : ∀ j < s.statistics.length, s.keep d j = true) {Y : Arr F}
    (hY : s.transform (.ofMat M) = .ok Y) : s.transform Y = .ok Y := by
  rw [C30_transform s d hM hw h0 hi] at hY
  cases hY
  have hrect := out_length_rect s d M hk
  have hre := C30_transform s d (M := M.map (s.out d)) (by simpa using hM) hrect h0 hi
  refine hre.trans ?_
  congr 2
  rw [List.map_map]
  apply List.map_congr_left
  intro x hx
  have hfil : (List.range s.statistics.length).filter (s.keep d) = List.range s.statistics.length :=
    List.filter_eq_self.2 fun j hj => hk j (List.mem_range.1 hj)
  have hget : ∀ j < s.statistics.length, (s.out d x).getD j d =
      if toImpute (x.getD j d) s.missing then s.statistics.getD j d else x.getD j d := by
    intro j hj
    simp [SimpleImputer.out, imputed, hfil, hj]
  simp only [Function.comp, imputed]
  apply List.map_congr_left
  intro j hj
  have hj : j < s.statistics.length := List.mem_range.1 (List.mem_filter.1 hj).1
  rw [hget j hj]
  cases h : toImpute (x.getD j d) s.missing with
  | true => simp
  | false => simp only [Bool.false_eq_true, if_false, h]

/-- **C30**: if a column is dropped, applying the imputer to its own output raises ValueError. -/
theorem C30_twice_raises_partial (s : SimpleImputer F) (d : F) {M : List (List F)} (hM : M ≠ [])
    (hw : Rect s.statistics.length M) (h0 : s.statistics ≠ []) (hi : s.addIndicator = false)
    (hk : ∃ j < s.statistics.length, s.keep d j = false) {Y : Arr F}
    (hY : s.transform (.ofMat M) = .ok Y) : s.transform Y = .error .valueError := by
  rw [C30_transform s d hM hw h0 hi] at hY
  cases hY
  refine C30_wrong_width s (w := ((List.range s.statistics.length).filter (s.keep d)).length)
    (by simpa using hM) ?_ ?_ h0 hi
  · intro r hr
    obtain ⟨x, _, rfl⟩ := List.mem_map.1 hr
    simp only [imputed, List.length_map]
    rfl
  · obtain ⟨j, hj, hjk⟩ := hk
    intro h
    have := (List.length_filter_eq_length_iff (p := s.keep d) (l := List.range s.statistics.length)).1
      (by simpa using h) j (List.mem_range.2 hj)
    rw [hjk] at this
    cases this

end

/-- Marker 0, and the mean of the remaining values is 0. -/
noncomputable def zeroImputer : SimpleImputer Ex :=
  { statistics := [.fin 0], constant := false, addIndicator := false, missing := .fin 0, indicator := none }

/-- Median imputer whose first column had no value at all in fit. -/
noncomputable def droppingImputer : SimpleImputer Ex :=
  { statistics := [.nan, .fin 5], constant := false, addIndicator := false, missing := .nan,
    indicator := none }

/-- **C30 is false** without the proviso on the statistics: the output still holds the marker. -/
theorem C30_false_missing : zeroImputer.transform (.ofMat [[.fin 0]]) = .ok (.ofMat [[.fin 0]]) ∧
    toImpute (.fin 0 : Ex) zeroImputer.missing = true := by
  constructor
  · rw [C30_transform zeroImputer (.fin 0) (by simp) (by simp [Rect, zeroImputer])
      (by simp [zeroImputer]) rfl]
    have h1 : Arith.isnan (XR.fin 0 : Ex) = false := rfl
    simp [imputed, zeroImputer, List.range_succ, h1]
  · have h1 : Arith.isnan (XR.fin 0 : Ex) = false := rfl
    simp [toImpute, zeroImputer, h1]

/-- **C30 is false** when a column is dropped: the second application raises. -/
theorem C30_false_twice : ∃ Y, droppingImputer.transform (.ofMat [[.fin 1, .nan]]) = .ok Y ∧
    droppingImputer.transform Y = .error .valueError := by
  refine ⟨_, C30_transform droppingImputer (.fin 0) (by simp) (by simp [Rect, droppingImputer])
      (by simp [droppingImputer]) rfl, ?_⟩
  exact C30_twice_raises_partial droppingImputer (.fin 0) (M := [[.fin 1, .nan]]) (by simp)
    (by simp [Rect, droppingImputer]) (by simp [droppingImputer]) rfl ⟨0, by decide, rfl⟩
    (C30_transform droppingImputer (.fin 0) (by simp) (by simp [Rect, droppingImputer])
      (by simp [droppingImputer]) rfl)

/-- Non-vacuity: the second column is imputed, the first dropped. -/
example : droppingImputer.transform (.ofMat [[.fin 1, .nan], [.fin 2, .fin 3]]) =
    .ok (.ofMat [[.fin 5], [.fin 3]]) := by
  rw [C30_transform droppingImputer (.fin 0) (by simp) (by simp [Rect, droppingImputer])
      (by simp [droppingImputer]) rfl]
  have h1 : Arith.isnan (XR.nan : Ex) = true := rfl
  have h2 : Arith.isnan (XR.fin 5 : Ex) = false := rfl
  simp [imputed, droppingImputer, List.range_succ, List.filter, h1, h2, toImpute_nan, toImpute_fin]

/-- Non-vacuity of `C30_indicator` and `C30_idempotent_partial`. -/
example : (⟨[.fin 7], false, true, .nan, some ⟨false, [0], 1, .nan, false⟩⟩ : SimpleImputer Ex).transform
    (.ofMat [[.nan]]) = .ok (.ofMat [[.fin 7, ofBool true]]) := by
  rw [C30_indicator (⟨[.fin 7], false, true, .nan, some ⟨false, [0], 1, .nan, false⟩⟩ : SimpleImputer Ex)
    (.fin 0) (by simp) (by simp [Rect]) (by simp) rfl rfl rfl rfl (by simp) (by simp)]
  have h2 : Arith.isnan (XR.fin 7 : Ex) = false := rfl
  simp [SimpleImputer.out, SimpleImputer.keep, MissingIndicator.out, MissingIndicator.selected, missingMask,
    imputed, h2, List.range_succ, toImpute_nan]

example : (⟨[.fin 7], false, false, .nan, none⟩ : SimpleImputer Ex).transform
    (.ofMat [[.fin 7]]) = .ok (.ofMat [[.fin 7]]) := by
  refine C30_idempotent_partial (⟨[.fin 7], false, false, .nan, none⟩ : SimpleImputer Ex) (.fin 0)
    (M := [[.nan]]) (by simp) (by simp [Rect]) (by simp) rfl ?_ ?_
  · intro j hj
    have : j = 0 := by simpa using hj
    subst this
    rfl
  · rw [C30_transform (⟨[.fin 7], false, false, .nan, none⟩ : SimpleImputer Ex)
      (.fin 0) (by simp) (by simp [Rect]) (by simp) rfl]
    have h2 : Arith.isnan (XR.fin 7 : Ex) = false := rfl
    simp [imputed, h2, List.range_succ, toImpute_nan]

end PurePredict
