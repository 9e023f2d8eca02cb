import Verif.Lemmas.Bagging
import Verif.Props.C11
/-
C14: bagging on sparse input.  The claim is false of the code when members have feature subsets:
`_feat_slice` subscripts the dict rows, and a column that is not stored raises KeyError.
-/
namespace PurePredict
open Spec
variable {F C : Type} [Arith F]

/-- The ensemble gives the same on sparse input as on its dense form. -/
def Bagging.SparseAgrees (b : Bagging F C) (ds : List (Dict Int F)) (w : Nat) (dt : DType) : Prop :=
  ∃ D, todense (.sparse ds (some w) dt) = .ok D ∧
    b.predictProba (.sparse ds (some w) dt) = b.predictProba D ∧
    b.predict (.sparse ds (some w) dt) = b.predict D

theorem featSlice_missing {ds : List (Dict Int F)} {w : Option Nat} {dt : DType} {fs : List Int}
    {d : Dict Int F} (hd : d ∈ ds) {i : Int} (hi : i ∈ fs) (hmiss : d.get? i = none) :
    featSlice (.sparse ds w dt) (some fs) = .error .keyError := by
  have hk : ∀ (d : Dict Int F) e, (fs.mapM fun i => (Row.dict d).getItem i) = .error e →
      e = .keyError := by
    intro d e he
    obtain ⟨j, _, hj⟩ := mapM_eq_error he
    simp only [Row.getItem, Dict.getItem] at hj
    split at hj
    · cases hj
    · cases hj; rfl
  have h1 : ∃ e, (fs.mapM fun i => (Row.dict d).getItem i) = .error e := by
    refine mapM_error hi (e := .keyError) ?_
    simp only [Row.getItem, Dict.getItem, hmiss]
  obtain ⟨e, he⟩ := h1
  have he' := hk d e he
  subst he'
  have : (ds.map Row.dict).mapM (fun a => fs.mapM fun i => a.getItem i) = .error .keyError := by
    rw [mapM_map']
    exact mapM_error_same hd he fun d' _ e' he' => hk d' e' he'
  simp only [featSlice, Arr.rows, py_ok_bind, this]
  rfl

/-- **C14 is false**, in general: whenever some record does not store a column of the first
member's feature subset, `predict_proba` (and `predict`) raise KeyError, whatever the members. -/
theorem C14_unstored_column_raises (b : Bagging F C) (fs : List Int) (fss : List (List Int))
    (hfs : b.features = some (fs :: fss)) (e : Member F) (es : List (Member F))
    (hes : b.estimators = e :: es) (ds : List (Dict Int F)) (w : Option Nat) (dt : DType)
    (d : Dict Int F) (hd : d ∈ ds) (i : Int) (hi : i ∈ fs) (hmiss : d.get? i = none) :
    b.predictProba (.sparse ds w dt) = .error .keyError ∧
      b.predict (.sparse ds w dt) = .error .keyError := by
  have h : b.predictProba (.sparse ds w dt) = .error .keyError := by
    have hm : b.memberProba (.sparse ds w dt) 0 = .error .keyError := by
      simp [Bagging.memberProba, Bagging.getFeats, hfs, hes, featSlice_missing hd hi hmiss]
    simp [Bagging.predictProba, hm]
  exact ⟨h, by simp [Bagging.predict, h]⟩

/-- **C14 is false**, witness: one member on feature 0, one record `{}` of width 1.  The dense form
succeeds, the sparse one raises KeyError. -/
theorem C14_sparse_agrees_false :
    ∃ (b : Bagging Ex String) (ds : List (Dict Int Ex)) (w : Nat) (dt : DType),
      (∀ d ∈ ds, ValidRow w d) ∧ b.FeatsOk ∧ ¬ b.SparseAgrees ds w dt := by
  refine ⟨⟨some [[0]], ["a"], [⟨fun _ => .ok [[.fin 1]]⟩]⟩, [[]], 1, .float, ?_, ?_, ?_⟩
  · intro d hd
    simp at hd
    subst hd
    exact ⟨by simp, by simp⟩
  · intro fs h; cases h; rfl
  · rintro ⟨D, hD, h, _⟩
    rw [todense_sparse (castTo_zero_exact .float)] at hD
    cases hD
    rw [(C14_unstored_column_raises (⟨some [[0]], ["a"], [⟨fun _ => .ok [[.fin 1]]⟩]⟩ :
      Bagging Ex String) [0] [] rfl _ _ rfl [[]] (some 1) .float [] (by simp) 0 (by simp) rfl).1] at h
    have : (⟨some [[0]], ["a"], [⟨fun _ => .ok [[.fin 1]]⟩]⟩ : Bagging Ex String).predictProba
        (.ofMat [[.fin 0]]) = .ok [[.fin (1 / 1)]] := by
      simp [Bagging.predictProba, Bagging.memberProba, Bagging.getFeats, featSlice,
        Bagging.accumulate, apply2d_ofMat, Row.getItem, XR.div_exact]
    have e : (List.map (dense (XR.fin 0 : Ex) 1) [[]]) = [[.fin 0]] := rfl
    rw [e, this] at h
    cases h

theorem Bagging.congr_arr {b : Bagging F C} {X D : Arr F}
    (h : ∀ j, b.memberProba X j = b.memberProba D j) :
    b.predictProba X = b.predictProba D ∧ b.predict X = b.predict D := by
  have hacc : ∀ idxs P, b.accumulate X idxs P = b.accumulate D idxs P := by
    intro idxs
    induction idxs with
    | nil => intro P; rfl
    | cons j idxs ih =>
      intro P
      simp only [Bagging.accumulate, h, ih]
  have hp : b.predictProba X = b.predictProba D := by
    simp only [Bagging.predictProba, h, hacc]
  exact ⟨hp, by simp only [Bagging.predict, hp]⟩

/-- **C14**, what holds: without feature subsets (random forests, extra trees, bagging over all
features saved without `estimators_features_`) sparse and dense input give the same, provided every
member does.  Missing: ensembles with feature subsets on rows that do not store every selected
column. -/
theorem C14_no_subsets_partial (b : Bagging F C) (hf : b.features = none) (ds : List (Dict Int F))
    (w : Nat) (dt : DType) (D : Arr F) (hD : todense (.sparse ds (some w) dt) = .ok D)
    (hm : ∀ e ∈ b.estimators, e.predictProba (.sparse ds (some w) dt) = e.predictProba D) :
    b.SparseAgrees ds w dt := by
  refine ⟨D, hD, Bagging.congr_arr ?_⟩
  intro j
  simp only [Bagging.memberProba, Bagging.getFeats, hf, featSlice, py_ok_bind]
  cases he : pyGet b.estimators (j : Int) with
  | error e => rfl
  | ok e => exact hm e (pyGet_ok_mem he)

/-- **C14**, what holds: with feature subsets, if every record stores every selected column, sparse
and dense input give the same, whatever the members are. -/
theorem C14_stored_columns_partial (b : Bagging F C) (fss : List (List Int))
    (hf : b.features = some fss) (ds : List (Dict Int F)) (w : Nat) (dt : DType)
    (hz : castTo dt (ofInt 0 : F) = .ok (ofInt 0)) (hv : ∀ d ∈ ds, ValidRow w d)
    (hst : ∀ fs ∈ fss, ∀ i ∈ fs, ∀ d ∈ ds, d.get? i ≠ none) : b.SparseAgrees ds w dt := by
  refine ⟨_, todense_sparse hz, Bagging.congr_arr ?_⟩
  intro j
  simp only [Bagging.memberProba, Bagging.getFeats, hf]
  cases he : pyGet b.estimators (j : Int) with
  | error e => rfl
  | ok e =>
    cases hfs : pyGet fss (j : Int) with
    | error e => rfl
    | ok fs =>
      have : featSlice (.sparse ds (some w) dt) (some fs) =
          featSlice (.ofMat (ds.map (dense (ofInt 0) w))) (some fs) := by
        simp only [featSlice, rows_sparse, py_ok_bind, rows_ofMat]
        rw [List.map_map, mapM_map', mapM_map']
        congr 1
        apply mapM_congr
        intro d hd
        apply mapM_congr
        intro i hi
        have hst' := hst fs (pyGet_ok_mem hfs) i hi d hd
        obtain ⟨v, hval⟩ := Option.ne_none_iff_exists'.1 hst'
        obtain ⟨h0, h1⟩ := (hv d hd).2 _ (Dict.mem_of_get? hval)
        have hi' : i = ((i.toNat : Nat) : Int) := by simp at h0; omega
        simp only [Function.comp, Row.getItem, Dict.getItem, hval]
        symm
        conv_lhs => rw [hi']
        rw [pyGet_ok_nat, dense_getElem? (ofInt 0) d (by simp at h0 h1; omega), entry_eq_get?, ← hi',
          hval]
        rfl
      simp only [py_ok_bind, py_pure, this]

/-- **C14** for forests: a random forest or extra trees ensemble (trees, no feature subsets) gives
the same on sparse and on dense input. -/
theorem C14_forest_sparse_dense (trees : List (Tree F C)) (classes : List C) (w : Nat)
    (hb : ∀ t ∈ trees, t.FeaturesBelow w) (ds : List (Dict Int F)) (hne : ds ≠ []) (dt : DType)
    (hz : castTo dt (ofInt 0 : F) = .ok (ofInt 0)) :
    (⟨none, classes, trees.map fun t => ⟨t.predictProba⟩⟩ : Bagging F C).SparseAgrees ds w dt := by
  refine C14_no_subsets_partial _ rfl ds w dt _ (todense_sparse hz) ?_
  intro e he
  obtain ⟨t, ht, rfl⟩ := List.mem_map.1 he
  obtain ⟨D, hD, _, hp, _⟩ := C11_tree_sparse_dense_agree t w (hb t ht) ds hne dt hz
  rw [todense_sparse hz] at hD
  cases hD
  exact hp

/-- Non-vacuity: a forest of two copies of a stump, sparse rows with and without the tested key. -/
example : (⟨none, ["a"], [stumpOnOne, stumpOnOne].map fun t => ⟨t.predictProba⟩⟩ :
    Bagging Ex String).SparseAgrees [[(1, .fin 7)], []] 2 .float :=
  C14_forest_sparse_dense [stumpOnOne, stumpOnOne] ["a"] 2
    (by intro t ht; simp at ht; subst ht; exact stumpOnOne_below) _ (by simp) _ rfl

/-- Non-vacuity: a feature subset that is stored in the record. -/
example : (⟨some [[1]], ["a"], [⟨fun _ => .ok [[.fin 1]]⟩]⟩ : Bagging Ex String).SparseAgrees
    [[(1, .fin 7)]] 2 .float :=
  C14_stored_columns_partial _ [[1]] rfl _ _ _ rfl
    (by intro d hd; simp at hd; subst hd; exact ⟨by simp, by simp⟩)
    (by intro fs hfs i hi d hd; simp at hfs hd; subst hfs; subst hd; simp at hi; subst hi; simp)

end PurePredict
