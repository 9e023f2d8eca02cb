import Verif.Lemmas.Impute
import Verif.Lemmas.XR
/-
C31: the missing indicator.  The mask part holds; the `error_on_new` part is false of the code
(impute/_base.py:73 collects the *numbers* of missing values, not the feature indices).
-/
namespace PurePredict
open Spec

section
variable {F : Type} [Arith F]

/-- The columns a missing indicator reports. -/
def MissingIndicator.selected (m : MissingIndicator F) (j : Nat) : Bool :=
  !m.missingOnly || m.features.contains j

/-- The output claimed by C31 for one record. -/
def MissingIndicator.out (m : MissingIndicator F) (d : F) (x : List F) : List F :=
  (missingMask d m.nFeatures (fun v => toImpute v m.missing) m.selected x).map ofBool

/-- A value is missing exactly if it is NaN (NaN marker) or equals the marker. -/
theorem C31_missing_iff (v m : F) : toImpute v m = true ↔
    (Arith.isnan m = true ∧ Arith.isnan v = true) ∨ (Arith.isnan m = false ∧ (v ==ₚ m) = true) := by
  unfold toImpute
  cases Arith.isnan m <;> simp

theorem mask_zipIdx (m d : F) (x : List F) (p : Nat → Bool) :
    (((fullMask m x).zipIdx.filter fun q => p q.2).map fun q => (ofBool q.1 : F)) =
      (missingMask d x.length (fun v => toImpute v m) p x).map ofBool := by
  rw [zipIdx_range _ false, List.filter_map, List.map_map, missingMask, List.map_map]
  have hl : (fullMask m x).length = x.length := by simp [fullMask]
  rw [hl]
  apply List.map_congr_left
  intro j hj
  have hj : j < x.length := List.mem_range.1 (List.mem_filter.1 hj).1
  simp [fullMask, List.getD_eq_getElem?_getD, hj]

theorem mask_all (m d : F) (x : List F) :
    (fullMask m x).map (ofBool : Bool → F) =
      (missingMask d x.length (fun v => toImpute v m) (fun _ => true) x).map ofBool := by
  rw [← mask_zipIdx]
  simp only [List.filter_true]
  rw [zipIdx_range _ false, List.map_map]
  apply List.ext_getElem
  · simp
  · intro i h1 h2
    have : i < (fullMask m x).length := by simpa using h1
    simp [List.getD_eq_getElem?_getD, this]

theorem indicator_info (m : MissingIndicator F) (d : F) {M : List (List F)} (hM : M ≠ [])
    (hw : Rect m.nFeatures M) :
    m.info (.ofMat M) = .ok (M.map (fullMask m.missing),
      if m.missingOnly then ((List.range m.nFeatures).map (countMissing m.missing d M)).filter (· != 0)
      else List.range m.nFeatures) := by
  simp only [MissingIndicator.info, issparse_ofMat, Bool.false_eq_true, if_false, rows_ofMat, py_ok_bind,
    info_mask, width_ofMat hM hw, missing_counts m.missing d hM hw]
  cases m.missingOnly <;> rfl

/-- Is some non-zero count of missing values outside `features_`? (what the code tests) -/
def MissingIndicator.rejects (m : MissingIndicator F) (d : F) (M : List (List F)) : Bool :=
  (((List.range m.nFeatures).map (countMissing m.missing d M)).filter (· != 0)).any
    fun c => !m.features.contains c

/-- What `transform` computes, for every fitted indicator and every matrix of the right width. -/
theorem indicator_transform (m : MissingIndicator F) (d : F) {M : List (List F)} (hM : M ≠ [])
    (hw : Rect m.nFeatures M) (hf : m.features.Nodup) (hr : ∀ j ∈ m.features, j < m.nFeatures) :
    m.transform (.ofMat M) =
      if m.missingOnly && m.errorOnNew && m.rejects d M then .error .valueError
      else .ok (M.map (m.out d)) := by
  have hall : ∀ x ∈ M, m.missingOnly = false ∨ ¬ m.features.length < m.nFeatures →
      (fullMask m.missing x).map (ofBool : Bool → F) = m.out d x := by
    intro x hx h
    rw [mask_all _ d, hw x hx, MissingIndicator.out]
    congr 1
    unfold missingMask
    congr 1
    apply List.filter_congr
    intro j hj
    symm
    rcases h with h | h
    · simp [MissingIndicator.selected, h]
    · have hsub : m.features ⊆ List.range m.nFeatures := fun j hj => List.mem_range.2 (hr j hj)
      have hperm : (List.range m.nFeatures) ⊆ m.features := by
        have := (hf.subperm hsub).perm_of_length_le (by simpa using h)
        exact fun a ha => this.symm.subset ha
      simp [MissingIndicator.selected, hperm hj]
  have hsome : ∀ x ∈ M, m.missingOnly = true →
      (((fullMask m.missing x).zipIdx.filter fun q => m.features.contains q.2).map
        fun q => (ofBool q.1 : F)) = m.out d x := by
    intro x hx h
    rw [mask_zipIdx _ d, hw x hx, MissingIndicator.out]
    congr 2
    funext j
    simp [MissingIndicator.selected, h]
  simp only [MissingIndicator.transform, checkArray_ofMat hM, py_ok_bind, width_ofMat hM hw,
    indicator_info m d hM hw, bne_self_eq_false, Bool.false_eq_true, if_false]
  cases hmo : m.missingOnly with
  | false =>
    simp only [Bool.false_eq_true, if_false, Bool.false_and, List.map_map]
    congr 1
    exact List.map_congr_left fun x hx => hall x hx (.inl hmo)
  | true =>
    simp only [if_true, Bool.true_and]
    have hrej : (((List.range m.nFeatures).map (countMissing m.missing d M)).filter (· != 0)).any
      (fun c => !m.features.contains c) = m.rejects d M := rfl
    rw [hrej]
    by_cases hc : (m.errorOnNew && m.rejects d M) = true
    · simp only [hc, if_true]
    · simp only [hc, if_false]
      by_cases hl : m.features.length < m.nFeatures
      · simp only [hl, if_true, List.map_map]
        exact congrArg Except.ok (List.map_congr_left fun x hx => hsome x hx hmo)
      · simp only [hl, if_false, List.map_map]
        exact congrArg Except.ok (List.map_congr_left fun x hx => hall x hx (.inr hl))

/-- **C31, mask**: unless it raises, `MissingIndicator.transform` returns for every record the
0/1 marks of exactly the missing entries, restricted to the selected features in column order. -/
theorem C31_mask_partial (m : MissingIndicator F) (d : F) {M : List (List F)} (hM : M ≠ [])
    (hw : Rect m.nFeatures M) (hf : m.features.Nodup) (hr : ∀ j ∈ m.features, j < m.nFeatures)
    {Y : List (List F)} (h : m.transform (.ofMat M) = .ok Y) : Y = M.map (m.out d) := by
  rw [indicator_transform m d hM hw hf hr] at h
  split at h
  · cases h
  · cases h; rfl

/-- **C31, mask**: without `error_on_new`, or with features="all", it never raises. -/
theorem C31_total_partial (m : MissingIndicator F) (d : F) {M : List (List F)} (hM : M ≠ [])
    (hw : Rect m.nFeatures M) (hf : m.features.Nodup) (hr : ∀ j ∈ m.features, j < m.nFeatures)
    (he : m.errorOnNew = false ∨ m.missingOnly = false) :
    m.transform (.ofMat M) = .ok (M.map (m.out d)) := by
  rw [indicator_transform m d hM hw hf hr]
  rcases he with he | he <;> simp [he]

/-- **C31**, what the `error_on_new` test really checks: some column's *number* of missing
values is not in `features_`. -/
theorem C31_error_on_new_partial (m : MissingIndicator F) (d : F) {M : List (List F)} (hM : M ≠ [])
    (hw : Rect m.nFeatures M) (hf : m.features.Nodup) (hr : ∀ j ∈ m.features, j < m.nFeatures)
    (hmo : m.missingOnly = true) (he : m.errorOnNew = true) :
    m.transform (.ofMat M) = .error .valueError ↔
      ∃ j < m.nFeatures, countMissing m.missing d M j ≠ 0 ∧ countMissing m.missing d M j ∉ m.features := by
  rw [indicator_transform m d hM hw hf hr]
  have : m.rejects d M = true ↔
      ∃ j < m.nFeatures, countMissing m.missing d M j ≠ 0 ∧ countMissing m.missing d M j ∉ m.features := by
    simp only [MissingIndicator.rejects, List.any_eq_true, List.mem_filter, List.mem_map, List.mem_range]
    constructor
    · rintro ⟨c, ⟨⟨j, hj, rfl⟩, h0⟩, h1⟩
      exact ⟨j, hj, by simpa using h0, by simpa using h1⟩
    · rintro ⟨j, hj, h0, h1⟩
      exact ⟨_, ⟨⟨j, hj, rfl⟩, by simpa using h0⟩, by simpa using h1⟩
  rw [← this]
  cases m.rejects d M <;> simp [hmo, he]

/-- **C31**: a matrix of the wrong width is rejected. -/
theorem C31_wrong_width (m : MissingIndicator F) {M : List (List F)} (hM : M ≠ []) {w : Nat}
    (hw : Rect w M) (hne : w ≠ m.nFeatures) : m.transform (.ofMat M) = .error .valueError := by
  simp [MissingIndicator.transform, checkArray_ofMat hM, width_ofMat hM hw, hne]

/-- The claim of C31 about `error_on_new`: with `error_on_new` and features="missing-only",
`transform` raises exactly when a feature outside `features_` has a missing value. -/
def RaisesOnNew (m : MissingIndicator F) (d : F) : Prop :=
  ∀ M : List (List F), M ≠ [] → Rect m.nFeatures M →
    (m.transform (.ofMat M) = .error .valueError ↔
      ∃ x ∈ M, ∃ j < m.nFeatures, j ∉ m.features ∧ toImpute (x.getD j d) m.missing = true)

/-- With at most one record, and only features 0 and 1 existing, counts coincide with indices only
by accident; the claim does hold when every feature was missing in fit and no column can have as
many missing values as there are features. -/
theorem C31_all_features_partial (m : MissingIndicator F) (d : F) {M : List (List F)} (hM : M ≠ [])
    (hw : Rect m.nFeatures M) (hf : m.features.Nodup) (hr : ∀ j ∈ m.features, j < m.nFeatures)
    (hall : ∀ j < m.nFeatures, j ∈ m.features) (hlen : M.length < m.nFeatures) :
    m.transform (.ofMat M) = .ok (M.map (m.out d)) := by
  rw [indicator_transform m d hM hw hf hr]
  have : m.rejects d M = false := by
    rw [← Bool.not_eq_true, MissingIndicator.rejects, List.any_eq_true]
    rintro ⟨c, hc, h1⟩
    obtain ⟨j, hj, rfl⟩ := List.mem_map.1 (List.mem_filter.1 hc).1
    have : countMissing m.missing d M j < m.nFeatures :=
      lt_of_le_of_lt (List.length_filter_le _ _) hlen
    simp [hall _ this] at h1
  simp [this]

end

theorem toImpute_nan : toImpute (.nan : Ex) .nan = true := rfl
theorem toImpute_fin (r : ℝ) : toImpute (.fin r : Ex) .nan = false := rfl

/-- A fitted indicator: two features, only feature `k` had missing values in fit. -/
def newIndicator (k : Nat) : MissingIndicator Ex :=
  { missingOnly := true, features := [k], nFeatures := 2, missing := .nan, errorOnNew := true }

/-- **C31 is false**: feature 0 was seen missing in fit, one record has it missing, and
`transform` raises. -/
theorem C31_false_raises : (newIndicator 0).transform (.ofMat [[.nan, .fin 1]]) = .error .valueError := by
  rw [C31_error_on_new_partial (newIndicator 0) (.fin 0) (by simp) (by simp [Rect, newIndicator])
    (by simp [newIndicator]) (by simp [newIndicator]) rfl rfl]
  exact ⟨0, by decide, by simp [countMissing, newIndicator, toImpute_nan, toImpute_fin],
    by simp [countMissing, newIndicator, toImpute_nan, toImpute_fin]⟩

/-- **C31 is false**: feature 0 was never missing in fit, one record has it missing, and
`transform` does not raise. -/
theorem C31_false_silent : (newIndicator 1).transform (.ofMat [[.nan, .fin 1]]) =
    .ok [[ofBool false]] := by
  rw [indicator_transform (newIndicator 1) (.fin 0) (by simp) (by simp [Rect, newIndicator])
    (by simp [newIndicator]) (by simp [newIndicator])]
  have : (newIndicator 1).rejects (.fin 0) [[.nan, .fin 1]] = false := by
    simp [MissingIndicator.rejects, newIndicator, countMissing, toImpute_nan, toImpute_fin, List.range_succ]
  rw [this]
  simp [MissingIndicator.out, missingMask, MissingIndicator.selected, newIndicator, toImpute_nan, toImpute_fin,
    List.range_succ]

/-- **C31 is false** of both indicators. -/
theorem C31_false : ¬ RaisesOnNew (newIndicator 0) (.fin 0) ∧ ¬ RaisesOnNew (newIndicator 1) (.fin 0) := by
  constructor
  · intro h
    obtain ⟨x, hx, j, hj, hn, ht⟩ := (h [[.nan, .fin 1]] (by simp) (by simp [Rect, newIndicator])).1
      C31_false_raises
    simp only [List.mem_singleton] at hx
    subst hx
    have hj1 : j = 1 := by
      simp only [newIndicator, List.mem_singleton] at hj hn
      omega
    subst hj1
    simp [toImpute_nan, toImpute_fin, newIndicator] at ht
  · intro h
    have := (h [[.nan, .fin 1]] (by simp) (by simp [Rect, newIndicator])).2
      ⟨_, List.mem_singleton.2 rfl, 0, by decide, by simp [newIndicator],
        by simp [toImpute_nan, toImpute_fin, newIndicator]⟩
    rw [C31_false_silent] at this
    cases this

/-- Non-vacuity of the mask theorem: three features, features 0 and 2 reported. -/
example : (⟨true, [0, 2], 3, .nan, false⟩ : MissingIndicator Ex).transform
    (.ofMat [[.nan, .fin 1, .fin 2], [.fin 3, .nan, .nan]]) =
      .ok [[ofBool true, ofBool false], [ofBool false, ofBool true]] := by
  rw [C31_total_partial (⟨true, [0, 2], 3, .nan, false⟩ : MissingIndicator Ex) (.fin 0) (by simp)
    (by simp [Rect]) (by simp) (by simp) (.inl rfl)]
  simp [MissingIndicator.out, missingMask, MissingIndicator.selected, toImpute_nan, toImpute_fin,
    List.range_succ]

/-- Non-vacuity of `C31_wrong_width`. -/
example : (newIndicator 0).transform (.ofMat [[.fin 1]]) = .error .valueError :=
  C31_wrong_width (newIndicator 0) (w := 1) (by simp) (by simp [Rect]) (by decide)

end PurePredict
