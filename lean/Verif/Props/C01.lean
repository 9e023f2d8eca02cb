import Verif.Lemmas.Sparse
import Verif.Lemmas.XR
/-
C01: sparse/dense round trip.
-/
namespace PurePredict
open Spec

/-- C01, any arithmetic.  For every non-empty rectangular matrix with at least one column,
`tosparse` succeeds; the result stores, row by row, exactly the entries that are not `== 0`, at
in-range distinct columns; and `todense` gives back the matrix with the entries that are `== 0`
replaced by `dtype(0)`. -/
theorem C01_roundtrip_any_arith {F : Type} [Arith F] (M : List (List F)) (w : Nat) (hM : M ≠ [])
    (hw : Rect w M) (x : F) (hx : pyGet (M.headD []) 0 = .ok x) (z : F)
    (hz : castTo (Arith.typeOf x) (ofInt 0 : F) = .ok z) :
    ∃ ds, tosparse (.ofMat M) = .ok (.sparse ds (some w) (Arith.typeOf x)) ∧
      List.Forall₂ (fun r d => ValidRow w d ∧
        ∀ k v, (k, v) ∈ d ↔ ∃ i : Nat, k = i ∧ r[i]? = some v ∧ (v ==ₚ ofInt 0) = false) M ds ∧
      todense (.sparse ds (some w) (Arith.typeOf x)) =
        .ok (.ofMat (M.map fun r => r.map fun v => if v ==ₚ ofInt 0 then z else v)) := by
  refine ⟨M.map fun r => sparsePairs r w, tosparse_ofMat hM hw hx, ?_, ?_⟩
  · rw [List.forall₂_map_right_iff, List.forall₂_same]
    intro r hr
    refine ⟨sparsePairs_valid r w, fun k v => ?_⟩
    rw [mem_sparsePairs]
    constructor
    · rintro ⟨i, -, h⟩; exact ⟨i, h⟩
    · rintro ⟨i, h1, h2, h3⟩
      refine ⟨i, ?_, h1, h2, h3⟩
      have := (List.getElem?_eq_some_iff.1 h2).1
      rwa [hw r hr] at this
  · rw [todense_sparse hz, List.map_map]
    congr 2
    apply List.map_congr_left
    intro r hr
    have := dense_sparsePairs r z
    rw [hw r hr] at this
    exact this

/-- C01.  In every sound floating point arithmetic (NaN and infinities allowed as entries),
converting a non-empty rectangular dense matrix to a `sparse_list` and back returns exactly the
original matrix; the sparse form stores exactly the non-zero entries, each once, and every stored
column index lies in `[0,w)`. -/
theorem C01_sparse_dense_roundtrip (fp : FP) (hs : fp.Sound) (M : List (List (XR fp))) (w : Nat)
    (hM : M ≠ []) (hw : Rect w M) (hpos : 0 < w) :
    ∃ ds, tosparse (.ofMat M) = .ok (.sparse ds (some w) .float) ∧
      todense (.sparse ds (some w) .float) = .ok (.ofMat M) ∧
      List.Forall₂ (fun r d => ValidRow w d ∧
        ∀ k v, (k, v) ∈ d ↔ ∃ i : Nat, k = i ∧ r[i]? = some v ∧ v ≠ .fin 0) M ds := by
  have h0 : (ofInt 0 : XR fp) = .fin 0 := XR.ofInt_zero hs
  obtain ⟨x, hx⟩ : ∃ x, pyGet (M.headD []) 0 = .ok x := by
    cases M with
    | nil => exact absurd rfl hM
    | cons r M =>
      have : 0 < r.length := by rw [hw r (by simp)]; exact hpos
      exact ⟨_, pyGet_lt this⟩
  obtain ⟨ds, h1, h2, h3⟩ := C01_roundtrip_any_arith M w hM hw x hx (.fin 0)
    (by show Except.ok (ofInt 0 : XR fp) = _; rw [h0])
  refine ⟨ds, h1, ?_, ?_⟩
  · show todense (.sparse ds (some w) .float) = _
    rw [show (Arith.typeOf x) = DType.float from rfl] at h3
    rw [h3]
    congr 2
    have : ∀ r : List (XR fp),
        (r.map fun v => if v ==ₚ ofInt 0 then (.fin 0 : XR fp) else v) = r := by
      intro r
      conv_rhs => rw [← List.map_id r]
      apply List.map_congr_left
      intro v _
      split
      · rename_i h; rw [XR.eq_zero_of_eqp hs h]; rfl
      · rfl
    conv_rhs => rw [← List.map_id M]
    exact List.map_congr_left fun r _ => this r
  · refine h2.imp ?_
    rintro r d ⟨hv, hm⟩
    refine ⟨hv, fun k v => ?_⟩
    rw [hm]
    constructor
    · rintro ⟨i, a, b, c⟩
      refine ⟨i, a, b, fun hv => ?_⟩
      subst hv
      rw [h0] at c; simp at c
    · rintro ⟨i, a, b, c⟩
      refine ⟨i, a, b, ?_⟩
      by_contra hne
      exact c (XR.eq_zero_of_eqp hs (by simpa using hne))

/-- Error branch: a matrix without columns cannot be converted (IndexError on `A[0][0]`). -/
theorem C01_no_columns {F : Type} [Arith F] (M : List (List F)) (hM : M ≠ []) (hw : Rect 0 M) :
    tosparse (.ofMat M) = .error .indexError := by
  cases M with
  | nil => exact absurd rfl hM
  | cons r M =>
    have hr : r = [] := List.length_eq_zero_iff.1 (hw r (by simp))
    subst hr
    simp only [tosparse, sparseList, checkArray_ofMat_cons]
    rfl

/-- Non-vacuity: a 2×3 matrix with zeros, infinities and NaN meets the hypotheses. -/
example : ∃ ds, tosparse (.ofMat [[(.fin 0 : Ex), .fin 2, .nan], [.pinf, .fin 0, .fin 0]])
      = .ok (.sparse ds (some 3) .float) ∧
    todense (.sparse ds (some 3) .float)
      = .ok (.ofMat [[(.fin 0 : Ex), .fin 2, .nan], [.pinf, .fin 0, .fin 0]]) := by
  obtain ⟨ds, h1, h2, -⟩ := C01_sparse_dense_roundtrip FP.exact FP.exact_sound
    [[(.fin 0 : Ex), .fin 2, .nan], [.pinf, .fin 0, .fin 0]] 3 (by simp)
    (by intro r hr; simp at hr; rcases hr with rfl | rfl <;> rfl) (by norm_num)
  exact ⟨ds, h1, h2⟩

end PurePredict
