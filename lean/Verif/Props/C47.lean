import Verif.Model.Metrics
import Verif.Spec.Pairwise
import Verif.Props.C26
import Verif.Lemmas.Linear
import Mathlib.Algebra.Order.Chebyshev
/-
C47: cosine similarity.
-/
namespace PurePredict
open Spec

/-! ### The specification -/

theorem inner_self_eq (x : List ℝ) : inner x x = (x.map fun a => a * a).sum := by
  simp [inner, List.zipWith_self]

theorem len2_eq (x : List ℝ) : len2 x = l2norm x := by rw [len2, inner_self_eq, l2norm_eq]

theorem inner_comm (x y : List ℝ) : inner x y = inner y x := by
  simp only [inner]; rw [List.zipWith_comm]; simp only [mul_comm]

theorem inner_self_nonneg (x : List ℝ) : 0 ≤ inner x x := by rw [inner_self_eq]; exact sum_sq_nonneg x

theorem inner_map_mul (x y : List ℝ) (a b : ℝ) :
    inner (x.map fun t => t * a) (y.map fun t => t * b) = inner x y * (a * b) := by
  simp only [inner]
  induction x generalizing y with
  | nil => simp
  | cons c x ih =>
    cases y with
    | nil => simp
    | cons d y =>
      simp only [List.map_cons, List.zipWith_cons_cons, List.sum_cons, ih]
      ring

/-- Cauchy–Schwarz, also for vectors of different lengths. -/
theorem inner_sq_le (x y : List ℝ) : inner x y ^ 2 ≤ inner x x * inner y y := by
  induction x generalizing y with
  | nil => simp [inner]
  | cons a x ih =>
    cases y with
    | nil => simp [inner]
    | cons b y =>
      have h := ih y
      have hx := inner_self_nonneg x
      have hy := inner_self_nonneg y
      have e1 : inner (a :: x) (b :: y) = a * b + inner x y := by simp [inner]
      have e2 : inner (a :: x) (a :: x) = a * a + inner x x := by simp [inner]
      have e3 : inner (b :: y) (b :: y) = b * b + inner y y := by simp [inner]
      rw [e1, e2, e3]
      set p := inner x x
      set q := inner y y
      set r := inner x y
      -- 2 a b r ≤ a² q + b² p
      have key : 2 * (a * b * r) ≤ a * a * q + b * b * p := by
        have h1 : (a * b * r) ^ 2 ≤ (a * a * q) * (b * b * p) := by
          nlinarith [mul_nonneg (mul_self_nonneg a) (mul_self_nonneg b), mul_le_mul_of_nonneg_left h
            (mul_nonneg (mul_self_nonneg a) (mul_self_nonneg b))]
        have hu : 0 ≤ a * a * q := mul_nonneg (mul_self_nonneg a) hy
        have hv : 0 ≤ b * b * p := mul_nonneg (mul_self_nonneg b) hx
        have h2 : (2 * (a * b * r)) ^ 2 ≤ (a * a * q + b * b * p) ^ 2 := by
          nlinarith [sq_nonneg (a * a * q - b * b * p)]
        exact le_of_abs_le (abs_le_of_sq_le_sq h2 (by linarith))
      nlinarith

theorem C47_spec_bounds (x y : List ℝ) : -1 ≤ cosine x y ∧ cosine x y ≤ 1 := by
  unfold cosine
  split
  · norm_num
  · rename_i h
    push Not at h
    have hx : 0 < len2 x := lt_of_le_of_ne (Real.sqrt_nonneg _) (Ne.symm h.1)
    have hy : 0 < len2 y := lt_of_le_of_ne (Real.sqrt_nonneg _) (Ne.symm h.2)
    have hp := mul_pos hx hy
    have hsq : inner x y ^ 2 ≤ (len2 x * len2 y) ^ 2 := by
      rw [mul_pow, len2, len2, Real.sq_sqrt (inner_self_nonneg x), Real.sq_sqrt (inner_self_nonneg y)]
      exact inner_sq_le x y
    have := abs_le_of_sq_le_sq' hsq hp.le
    constructor
    · rw [le_div_iff₀ hp]; linarith
    · rw [div_le_iff₀ hp]; linarith

theorem C47_spec_symm (x y : List ℝ) : cosine x y = cosine y x := by
  simp only [cosine, inner_comm x y, mul_comm (len2 x), or_comm]

theorem C47_spec_self (x : List ℝ) (h : ∃ a ∈ x, a ≠ 0) : cosine x x = 1 := by
  have h0 : len2 x ≠ 0 := by
    rw [len2_eq]
    intro hz
    obtain ⟨a, ha, hne⟩ := h
    exact hne ((normOf_zero_iff .l2 x).1 hz a ha)
  have : len2 x * len2 x = inner x x := Real.mul_self_sqrt (inner_self_nonneg x)
  simp only [cosine, h0, or_self, if_false, this]
  rw [← this]
  exact div_self (mul_ne_zero h0 h0)

theorem C47_spec_zero (x y : List ℝ) (h : ∀ a ∈ x, a = 0) : cosine x y = 0 := by
  have : len2 x = 0 := by rw [len2_eq]; exact (normOf_zero_iff .l2 x).2 h
  simp [cosine, this]

theorem len2_mul (x : List ℝ) {c : ℝ} (hc : 0 < c) : len2 (x.map fun a => a * c) = len2 x * c := by
  rw [len2, inner_map_mul, Real.sqrt_mul (inner_self_nonneg x), Real.sqrt_mul_self hc.le, len2]

theorem C47_spec_scale (x y : List ℝ) {c d : ℝ} (hc : 0 < c) (hd : 0 < d) :
    cosine (x.map fun a => a * c) (y.map fun a => a * d) = cosine x y := by
  simp only [cosine, len2_mul x hc, len2_mul y hd, mul_eq_zero, hc.ne', hd.ne', or_false, inner_map_mul]
  split
  · rfl
  · rename_i h
    push Not at h
    obtain ⟨h1, h2⟩ := h
    field_simp

/-- The inner product of the normalised rows is the cosine. -/
theorem inner_unit (x y : List ℝ) : inner (unitBy l2norm x) (unitBy l2norm y) = cosine x y := by
  have hz : ∀ (x y : List ℝ), (∀ a ∈ x, a = 0) → inner x y = 0 := by
    intro x y h
    simp only [inner]
    induction x generalizing y with
    | nil => simp
    | cons a x ih =>
      cases y with
      | nil => simp
      | cons b y =>
        simp only [List.zipWith_cons_cons, List.sum_cons, h a (by simp), zero_mul, zero_add]
        exact ih y fun b hb => h b (by simp [hb])
  by_cases hx : ∀ a ∈ x, a = 0
  · rw [C47_spec_zero x y hx, show unitBy l2norm x = x from C26_zero_row .l2 x hx]
    exact hz _ _ hx
  · by_cases hy : ∀ a ∈ y, a = 0
    · rw [C47_spec_symm, C47_spec_zero y x hy, show unitBy l2norm y = y from C26_zero_row .l2 y hy,
        inner_comm]
      exact hz _ _ hy
    · have hx0 : l2norm x ≠ 0 := fun h => hx ((normOf_zero_iff .l2 x).1 h)
      have hy0 : l2norm y ≠ 0 := fun h => hy ((normOf_zero_iff .l2 y).1 h)
      simp only [unitBy, hx0, hy0, if_false, div_eq_mul_inv, inner_map_mul, cosine, len2_eq, or_self,
        mul_inv]

/-! ### The code -/

/-- The matrix of cosines. -/
noncomputable def cosines (R S : List (List ℝ)) : List (List ℝ) := R.map fun x => S.map (cosine x)

theorem matRows_ofMat {F : Type} (M : List (List F)) : matRows (.ofMat M : Arr F) = .ok M := by
  simp only [matRows, rows_ofMat, py_ok_bind, mapM_map']
  exact (mapM_ok_map (g := id) fun a _ => rfl).trans (by simp)

theorem rect_fins {w : Nat} {R : List (List ℝ)} (h : Rect w R) : Rect w (R.map fins) := by
  intro r hr
  obtain ⟨x, hx, rfl⟩ := List.mem_map.1 hr
  simp [h x hx]

theorem first_cons {F : Type} (a : Row F) (l : List (Row F)) : (Arr.list (a :: l)).ndim =
    (Arr.list [a]).ndim := by
  cases a <;> rfl

theorem ndim_ofMat {F : Type} {M : List (List F)} (h : M ≠ []) : (Arr.ofMat M).ndim = .ok 2 := by
  obtain ⟨a, M, rfl⟩ := List.exists_cons_of_ne_nil h
  rfl

theorem ndim_sparse {F : Type} {ds : List (Dict Int F)} (h : ds ≠ []) (n : Option Nat) (dt : DType) :
    (Arr.sparse ds n dt).ndim = .ok 2 := by
  obtain ⟨a, M, rfl⟩ := List.exists_cons_of_ne_nil h
  rfl

theorem width_rect {F : Type} {w : Nat} {M : List (List F)} (h : M ≠ []) (hw : Rect w M) :
    (Arr.ofMat M).width = .ok (some w) := by
  obtain ⟨a, M, rfl⟩ := List.exists_cons_of_ne_nil h
  rw [width_ofMat_cons, hw a (by simp)]

theorem rect_unit {w : Nat} {R : List (List ℝ)} (h : Rect w R) : Rect w (R.map (unitBy l2norm)) := by
  intro r hr
  obtain ⟨x, hx, rfl⟩ := List.mem_map.1 hr
  rw [unitBy_eq]; simp [h x hx]

theorem dot2d_dense (R S : List (List ℝ)) :
    dot2d (.ofMat ((R.map (unitBy l2norm)).map fins) : Arr Ex) ((S.map (unitBy l2norm)).map fins) =
      .ok ((cosines R S).map fins) := by
  simp only [dot2d, rows_ofMat, py_ok_bind, List.map_map, mapM_map', cosines]
  apply mapM_ok_map
  intro x _
  simp only [Function.comp, dot_list, List.map_map, fins_def]
  congr 1
  apply List.map_congr_left
  intro y _
  simp only [Function.comp]
  rw [← fins_def, dotList_fins, ← inner_unit]
  rfl

/-- **C47**, `cosine_similarity_pure(X, Y)` for dense matrices. -/
theorem C47_dense (w : Nat) (R S : List (List ℝ)) (hR : R ≠ []) (hS : S ≠ []) (hw : Rect w R)
    (hv : Rect w S) :
    cosineSimilarity (.ofMat (R.map fins) : Arr Ex) (.other (.ofMat (S.map fins))) =
      .ok ((cosines R S).map fins) := by
  have hR' : R.map fins ≠ [] := by simpa using hR
  have hS' : S.map fins ≠ [] := by simpa using hS
  simp only [cosineSimilarity, checkPairwise, YArg.val, ndim_ofMat hR', ndim_ofMat hS', py_ok_bind,
    width_rect hR' (rect_fins hw), width_rect hS' (rect_fins hv), issparse_ofMat, YArg.isX]
  simp [normalizePure_dense .l2 (by simp) l2norm R hR (rowNorms_dense hR hw),
    normalizePure_dense .l2 (by simp) l2norm S hS (rowNorms_dense hS hv), matRows_ofMat,
    -List.map_map, dot2d_dense]

/-- **C47**, `cosine_similarity_pure(X)` and `cosine_similarity_pure(X, X)`. -/
theorem C47_self (w : Nat) (R : List (List ℝ)) (hR : R ≠ []) (hw : Rect w R) (Y : YArg Ex)
    (hY : Y = .none ∨ Y = .same) :
    cosineSimilarity (.ofMat (R.map fins) : Arr Ex) Y = .ok ((cosines R R).map fins) := by
  have hR' : R.map fins ≠ [] := by simpa using hR
  rcases hY with rfl | rfl <;>
  · simp only [cosineSimilarity, checkPairwise, YArg.val, ndim_ofMat hR', py_ok_bind,
      width_rect hR' (rect_fins hw), issparse_ofMat, YArg.isX]
    simp [normalizePure_dense .l2 (by simp) l2norm R hR (rowNorms_dense hR hw), matRows_ofMat,
      -List.map_map, dot2d_dense]

/-- **C47**, sparse `X` with a dense `Y`: the same matrix as for the dense `X` it denotes. -/
theorem C47_sparse_agrees (w : Nat) (ds : List (Dict Int ℝ)) (S : List (List ℝ)) (hds : ds ≠ [])
    (hS : S ≠ []) (hd : ∀ d ∈ ds, ValidRow w d) (hv : Rect w S) (dt : DType) :
    cosineSimilarity (.sparse (ds.map finD) (some w) dt : Arr Ex) (.other (.ofMat (S.map fins))) =
      .ok ((cosines (ds.map (dense 0 w)) S).map fins) := by
  have hds' : ds.map finD ≠ [] := by simpa using hds
  have hS' : S.map fins ≠ [] := by simpa using hS
  simp only [cosineSimilarity, checkPairwise, YArg.val, ndim_sparse hds', ndim_ofMat hS', py_ok_bind,
    width_sparse hds', width_rect hS' (rect_fins hv), issparse_ofMat, YArg.isX]
  simp only [normalizePure_dense .l2 (by simp) l2norm S hS (rowNorms_dense hS hv), matRows_ofMat,
    normalizePure_sparse .l2 (by simp) _ ds hds (some w) dt (rowNorms_sparse hds hd dt _),
    bne_self_eq_false, Bool.or_self, Bool.false_eq_true, if_false, py_pure, py_ok_bind]
  simp only [dot2d, rows_sparse, py_ok_bind, List.map_map, mapM_map', cosines]
  apply mapM_ok_map
  intro d hdm
  have hvd := validRow_mapKV (g := fun _ v => v / nz (l2norm (dense 0 w d))) (hd d hdm)
  simp only [Function.comp, dot, fins_def, List.map_map, mapM_map']
  apply mapM_ok_map
  intro y hy
  simp only [Function.comp]
  have hlen : (unitBy l2norm y).length = w := by rw [unitBy_eq]; simp [hv y hy]
  rw [← fins_def, dotDict_exact hvd hlen, dense_finD, dotList_fins, ← inner_unit]
  congr 2
  rw [inner, unitBy_eq l2norm (dense 0 w d)]
  congr 2
  rw [dense, dense, List.map_map]
  apply List.map_congr_left
  intro i _
  exact entry_mapKV (z := (0 : ℝ)) (g := fun _ v => v / nz (l2norm (dense 0 w d))) d i (by simp)

/-- **C47**, consequences for the returned matrix: every value lies in [-1, 1]. -/
theorem C47_bounds (R S : List (List ℝ)) : ∀ r ∈ cosines R S, ∀ v ∈ r, -1 ≤ v ∧ v ≤ 1 := by
  intro r hr v hv
  obtain ⟨x, _, rfl⟩ := List.mem_map.1 hr
  obtain ⟨y, _, rfl⟩ := List.mem_map.1 hv
  exact C47_spec_bounds x y

/-- Entry (i, j) is the cosine of row i and row j; hence symmetric, 1 on the diagonal for non-zero
rows, 0 for zero rows, and unchanged when rows are scaled by positive factors
(`C47_spec_symm`, `C47_spec_self`, `C47_spec_zero`, `C47_spec_scale`). -/
theorem C47_entry (R S : List (List ℝ)) (i j : Nat) (hi : i < R.length) (hj : j < S.length) :
    ((cosines R S)[i]?.bind fun r => r[j]?) = some (cosine R[i] S[j]) := by
  simp [cosines, hi, hj]

/-- **C47 is false** as stated: with `Y` omitted, sparse input raises `ValueError` in any
arithmetic although the dense matrix is accepted. -/
theorem C47_sparse_self_raises {F : Type} [Arith F] (ds : List (Dict Int F)) (hds : ds ≠ [])
    (n : Option Nat) (dt : DType) (Y : YArg F) (hY : Y = .none ∨ Y = .same) :
    cosineSimilarity (.sparse ds n dt) Y = .error .valueError := by
  have hw : ∃ o, (Arr.sparse ds n dt).width = .ok o := by
    obtain ⟨a, M, rfl⟩ := List.exists_cons_of_ne_nil hds
    exact ⟨_, rfl⟩
  obtain ⟨o, ho⟩ := hw
  rcases hY with rfl | rfl <;>
    simp [cosineSimilarity, checkPairwise, YArg.val, ndim_sparse hds, ho, Arr.issparse]

/-- A sparse `Y` is always rejected. -/
theorem C47_sparse_Y_raises {F : Type} [Arith F] (M : List (List F)) (hM : M ≠ []) (ds : List (Dict Int F))
    (hds : ds ≠ []) (n : Option Nat) (dt : DType) :
    cosineSimilarity (.ofMat M) (.other (.sparse ds n dt)) = .error .valueError := by
  have hw : ∃ o, (Arr.sparse ds n dt).width = .ok o := by
    obtain ⟨a, M, rfl⟩ := List.exists_cons_of_ne_nil hds
    exact ⟨_, rfl⟩
  obtain ⟨o, ho⟩ := hw
  obtain ⟨r, M, rfl⟩ := List.exists_cons_of_ne_nil hM
  simp [cosineSimilarity, checkPairwise, YArg.val, ndim_sparse hds, ho, Arr.issparse,
    ndim_ofMat, width_ofMat_cons]

theorem C47_false : ¬ ∀ (w : Nat) (ds : List (Dict Int ℝ)), ds ≠ [] → (∀ d ∈ ds, ValidRow w d) →
    cosineSimilarity (.sparse (ds.map finD) (some w) .float : Arr Ex) .none =
      cosineSimilarity (.ofMat ((ds.map (dense 0 w)).map fins)) .none := by
  intro h
  have h1 := h 1 [[(0, 1)]] (by simp) (by intro d hd; simp at hd; subst hd; exact ⟨by simp, by simp⟩)
  rw [C47_sparse_self_raises _ (by simp) _ _ _ (.inl rfl),
    C47_self 1 _ (by simp) (by intro r hr; simp at hr; subst hr; rfl) _ (.inl rfl)] at h1
  cases h1

/-- Matrices of different widths are rejected. -/
theorem C47_width {F : Type} [Arith F] (w v : Nat) (R S : List (List F)) (hR : R ≠ []) (hS : S ≠ [])
    (hw : Rect w R) (hv : Rect v S) (h : w ≠ v) :
    cosineSimilarity (.ofMat R) (.other (.ofMat S)) = .error .valueError := by
  simp [cosineSimilarity, checkPairwise, YArg.val, ndim_ofMat hR, ndim_ofMat hS, width_rect hR hw,
    width_rect hS hv, h]

/-- Non-vacuity: [3,4] against [1,0] and [0,0]. -/
example : cosineSimilarity (.ofMat ([[3, 4]].map fins) : Arr Ex) (.other (.ofMat ([[1, 0], [0, 0]].map fins))) =
    .ok ([[3/5, 0]].map fins) := by
  rw [C47_dense 2 _ _ (by simp) (by simp) (by intro r hr; simp at hr; subst hr; rfl)
    (by intro r hr; simp at hr; rcases hr with rfl | rfl <;> rfl)]
  have h5 : len2 [3, 4] = 5 := by
    rw [len2, inner]
    simp only [List.zipWith_cons_cons, List.zipWith_nil_left, List.sum_cons, List.sum_nil]
    rw [show (3 : ℝ) * 3 + (4 * 4 + 0) = 5 ^ 2 by norm_num]
    exact Real.sqrt_sq (by norm_num)
  have h1 : len2 [1, 0] = 1 := by simp [len2, inner]
  have h0 : len2 [0, 0] = 0 := by simp [len2, inner]
  simp [cosines, cosine, h5, h1, h0, inner]

end PurePredict
