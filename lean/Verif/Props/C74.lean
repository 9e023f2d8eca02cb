import Verif.Props.C47
import Verif.Props.C53
import Verif.Props.C05
/-
C74: the linear kernel, normalisation along columns, and helpers on sparse rows.
-/
namespace PurePredict
open Spec

/-! ### linear_kernel_pure -/

/-- The matrix of inner products. -/
def Spec.inners (R S : List (List ℝ)) : List (List ℝ) := R.map fun x => S.map (inner x)

theorem dot2d_inners (R S : List (List ℝ)) :
    dot2d (.ofMat (R.map fins) : Arr Ex) (S.map fins) = .ok ((inners R S).map fins) := by
  simp only [dot2d, rows_ofMat, py_ok_bind, List.map_map, mapM_map', inners]
  apply mapM_ok_map
  intro x _
  simp only [Function.comp, dot_list, List.map_map, fins_def]
  congr 1
  apply List.map_congr_left
  intro y _
  simp only [Function.comp]
  rw [← fins_def, dotList_fins]
  rfl

/-- **C74**, `linear_kernel_pure(X, Y)`: entry (i, j) is the inner product of row i of X and row j of
Y. -/
theorem C74_kernel_dense (w : Nat) (R S : List (List ℝ)) (hR : R ≠ []) (hS : S ≠ []) (hw : Rect w R)
    (hv : Rect w S) :
    linearKernel (.ofMat (R.map fins) : Arr Ex) (.other (.ofMat (S.map fins))) =
      .ok ((inners R S).map fins) := by
  have hR' : R.map fins ≠ [] := by simpa using hR
  have hS' : S.map fins ≠ [] := by simpa using hS
  simp only [linearKernel, checkPairwise, YArg.val, ndim_ofMat hR', ndim_ofMat hS', py_ok_bind,
    width_rect hR' (rect_fins hw), width_rect hS' (rect_fins hv), issparse_ofMat]
  simp [matRows_ofMat, -List.map_map, dot2d_inners]

/-- **C74**, `linear_kernel_pure(X)`: the Gram matrix of X … -/
theorem C74_kernel_self (w : Nat) (R : List (List ℝ)) (hR : R ≠ []) (hw : Rect w R) (Y : YArg Ex)
    (hY : Y = .none ∨ Y = .same) :
    linearKernel (.ofMat (R.map fins) : Arr Ex) Y = .ok ((inners R R).map fins) := by
  have hR' : R.map fins ≠ [] := by simpa using hR
  rcases hY with rfl | rfl <;>
  · simp only [linearKernel, checkPairwise, YArg.val, ndim_ofMat hR', py_ok_bind,
      width_rect hR' (rect_fins hw), issparse_ofMat]
    simp [matRows_ofMat, -List.map_map, dot2d_inners]

/-- … which is symmetric, with the squared lengths on the diagonal. -/
theorem C74_gram (R S : List (List ℝ)) (i j : Nat) (hi : i < R.length) (hj : j < S.length) :
    ((inners R S)[i]?.bind fun r => r[j]?) = some (inner R[i] S[j]) ∧
    inner R[i] S[j] = inner S[j] R[i] ∧ inner R[i] R[i] = len2 R[i] ^ 2 :=
  ⟨by simp [inners, hi, hj], inner_comm _ _, by rw [len2, Real.sq_sqrt (inner_self_nonneg _)]⟩

/-- **C74**, sparse X and dense Y: the kernel of the dense matrix that X denotes. -/
theorem C74_kernel_sparse (w : Nat) (ds : List (Dict Int ℝ)) (S : List (List ℝ)) (hds : ds ≠ [])
    (hS : S ≠ []) (hd : ∀ d ∈ ds, ValidRow w d) (hv : Rect w S) (dt : DType) :
    linearKernel (.sparse (ds.map finD) (some w) dt : Arr Ex) (.other (.ofMat (S.map fins))) =
      .ok ((inners (ds.map (dense 0 w)) S).map fins) := by
  have hds' : ds.map finD ≠ [] := by simpa using hds
  have hS' : S.map fins ≠ [] := by simpa using hS
  simp only [linearKernel, checkPairwise, YArg.val, ndim_sparse hds', ndim_ofMat hS', py_ok_bind,
    width_sparse hds', width_rect hS' (rect_fins hv), issparse_ofMat, matRows_ofMat,
    bne_self_eq_false, Bool.or_self, Bool.false_eq_true, if_false, py_pure]
  simp only [dot2d, rows_sparse, py_ok_bind, List.map_map, mapM_map', inners]
  apply mapM_ok_map
  intro d hdm
  simp only [Function.comp, dot, fins_def, List.map_map, mapM_map']
  apply mapM_ok_map
  intro y hy
  rw [← fins_def, dotDict_exact (hd d hdm) (hv y hy), dense_finD, dotList_fins]
  rfl

/-- **C74**, refusals of `linear_kernel_pure`, in any arithmetic: different widths, a sparse Y, a
sparse X without Y. -/
theorem C74_kernel_width {F : Type} [Arith F] (w v : Nat) (R S : List (List F)) (hR : R ≠ []) (hS : S ≠ [])
    (hw : Rect w R) (hv : Rect v S) (h : w ≠ v) :
    linearKernel (.ofMat R) (.other (.ofMat S)) = .error .valueError := by
  simp [linearKernel, checkPairwise, YArg.val, ndim_ofMat hR, ndim_ofMat hS, width_rect hR hw,
    width_rect hS hv, h]

theorem C74_kernel_sparse_self {F : Type} [Arith F] (ds : List (Dict Int F)) (hds : ds ≠ [])
    (n : Option Nat) (dt : DType) (Y : YArg F) (hY : Y = .none ∨ Y = .same) :
    linearKernel (.sparse ds n dt) Y = .error .valueError := by
  have hw : ∃ o, (Arr.sparse ds n dt).width = .ok o := by
    obtain ⟨a, M, rfl⟩ := List.exists_cons_of_ne_nil hds
    exact ⟨_, rfl⟩
  obtain ⟨o, ho⟩ := hw
  rcases hY with rfl | rfl <;>
    simp [linearKernel, checkPairwise, YArg.val, ndim_sparse hds, ho, Arr.issparse]

/-- **C74**, **C47**: a flat list of numbers as X (whatever Y is, even an empty list), or as Y beside a
matrix X, is refused by the three functions, in any arithmetic. -/
theorem C74_flat_refused {F : Type} [Arith F] (x : F) (xs : List F) (Y : YArg F) (M : List (List F)) (hM : M ≠ []) :
    linearKernel (.list ((x :: xs).map .scalar)) Y = .error .valueError ∧
    cosineSimilarity (.list ((x :: xs).map .scalar)) Y = .error .valueError ∧
    cosineDistances (.list ((x :: xs).map .scalar)) Y = .error .valueError ∧
    linearKernel (.ofMat M) (.other (.list ((x :: xs).map .scalar))) = .error .valueError ∧
    cosineSimilarity (.ofMat M) (.other (.list ((x :: xs).map .scalar))) = .error .valueError ∧
    cosineDistances (.ofMat M) (.other (.list ((x :: xs).map .scalar))) = .error .valueError := by
  have h1 : (Arr.list ((x :: xs).map .scalar) : Arr F).ndim = .ok 1 := rfl
  refine ⟨?_, ?_, ?_, ?_, ?_, ?_⟩ <;>
    simp only [linearKernel, cosineDistances, cosineSimilarity, checkPairwise, YArg.val, h1, ndim_ofMat hM] <;> rfl

example : linearKernel (.list ([ofInt 1, ofInt 2].map .scalar) : Arr Ex) (.other (.list [])) = .error .valueError :=
  (C74_flat_refused _ _ _ [[]] (by simp)).1

/-! ### normalize_pure along columns, and its refusals -/

theorem mat_fins (n k : Nat) (f : Nat → Nat → ℝ) :
    (mat n k f).map fins = mat n k fun i j => (.fin (f i j) : Ex) := by
  simp [mat, fins]

/-- **C74**, `normalize_pure(X, norm, axis=0)`: every column is divided by its norm (zero columns are
unchanged), and the result has the shape of X. -/
theorem C74_columns (nm : Norm) (hn : nm = .l1 ∨ nm = .l2) (n k : Nat) (h0 : 0 < n) (hk : 0 < k)
    (f : Nat → Nat → ℝ) :
    normalizePure (.ofMat (mat n k fun i j => (.fin (f i j) : Ex))) nm 0 =
      .ok (.ofMat (mat n k fun i j =>
        .fin ((unitBy (normOf nm) ((List.range n).map fun i => f i j)).getD i 0))) := by
  have hb : nm ≠ .bad := by rcases hn with rfl | rfl <;> simp
  have hT : (mat k n fun j i => (.fin (f i j) : Ex)) = (mat k n fun j i => f i j).map fins :=
    (mat_fins k n _).symm
  have hR : (mat k n fun j i => f i j) ≠ [] := mat_ne_nil hk
  have hrows := normalizeRows_dense nm (normOf nm) (mat k n fun j i => f i j)
    (denseNorms_l12 hn hR (mat_rect k n _))
  have hU : ((mat k n fun j i => f i j).map (unitBy (normOf nm))).map fins =
      mat k n fun j i => (.fin ((unitBy (normOf nm) ((List.range n).map fun i => f i j)).getD i 0) : Ex) := by
    unfold mat
    rw [List.map_map, List.map_map]
    apply List.map_congr_left
    intro j _
    simp only [Function.comp, fins]
    apply List.ext_getElem
    · simp [unitBy_eq]
    · intro i h1 h2
      simp at h2
      have : i < (unitBy (normOf nm) ((List.range n).map fun i => f i j)).length := by
        simpa [unitBy_eq] using h2
      simp [List.getD_eq_getElem?_getD, List.getElem?_eq_getElem this]
  simp only [normalizePure, normalizePure', issparse_ofMat, Bool.and_false, Bool.false_eq_true, if_false, hb,
    checkArray_ofMat (mat_ne_nil h0), py_ok_bind, show ((0 : Int) == 0) = true from rfl, Bool.true_or,
    Bool.not_true, if_true, C53_transpose n k h0, py_pure, Bool.false_and]
  rw [hT, hrows]
  simp only [py_ok_bind, hU, C53_transpose k n hk]

/-- **C74**, refusals of `normalize_pure`, whatever the data: an unknown norm, an axis other than 0
and 1, sparse data with axis 0. -/
theorem C74_normalize_refused {F : Type} [Arith F] (X : Arr F) (nm : Norm) (axis : Int)
    (h : nm = .bad ∨ (axis ≠ 0 ∧ axis ≠ 1) ∨ (axis = 0 ∧ X.issparse = true)) :
    normalizePure X nm axis = .error .valueError := by
  unfold normalizePure normalizePure'
  by_cases h1 : axis = 0 ∧ X.issparse = true
  · simp [h1.1, h1.2]
  · by_cases h2 : nm = .bad
    · by_cases ha : axis = 0
      · have : X.issparse = false := by simpa [ha] using h1
        simp [h2, this]
      · simp [h2, ha]
    · rcases h with h | h | h
      · exact absurd h h2
      · simp [h.1, h.2, h2]
      · exact absurd h h1

/-- In particular the transformer with an unknown norm. -/
theorem C74_normalizer_refused {F : Type} [Arith F] (X : Arr F) (Y : Arr F) (h : checkArray X .allow = .ok Y) :
    normalizerTransform .bad X = .error .valueError := by
  simp [normalizerTransform, h, C74_normalize_refused Y .bad 1 (.inl rfl)]

/-! ### Helpers on sparse rows -/

/-- **C74**, softmax of a sparse row: the stored entries get the softmax of the stored values, which
sum to one. -/
theorem C74_softmax_dict (d : Dict Int ℝ) (hd : d ≠ []) :
    sfmaxDict (finD d : Dict Int Ex) = .ok (finD (d.map fun p =>
      (p.1, Real.exp p.2 / (d.map fun q => Real.exp q.2).sum))) ∧
    (d.map fun p => Real.exp p.2 / (d.map fun q => Real.exp q.2).sum).sum = 1 := by
  have hpos : 0 < (d.map fun q => Real.exp q.2).sum := by
    obtain ⟨a, d, rfl⟩ := List.exists_cons_of_ne_nil hd
    rw [List.map_cons, List.sum_cons]
    have : 0 ≤ (d.map fun q => Real.exp q.2).sum :=
      List.sum_nonneg fun x hx => by
        obtain ⟨q, _, rfl⟩ := List.mem_map.1 hx
        exact (Real.exp_pos _).le
    have := Real.exp_pos a.2
    linarith
  constructor
  · unfold sfmaxDict
    have h1 : (finD d : Dict Int Ex).mapM (fun p => do return (p.1, ← safeExp p.2)) =
        .ok (finD (d.map fun p => (p.1, Real.exp p.2))) := by
      simp only [finD, mapM_map', List.map_map]
      apply mapM_ok_map
      intro p _
      simp [safeExp_exact]
    have h2 : pySum (Dict.values (finD (d.map fun p => (p.1, Real.exp p.2)) : Dict Int Ex)) =
        .fin (d.map fun q => Real.exp q.2).sum := by
      have : Dict.values (finD (d.map fun p => (p.1, Real.exp p.2)) : Dict Int Ex) =
          fins (d.map fun q => Real.exp q.2) := by
        simp [Dict.values, finD, fins]
      rw [this, pySum_fins]
    rw [h1, py_ok_bind, h2]
    simp only [finD, mapM_map', List.map_map]
    apply mapM_ok_map
    intro p _
    simp [XR.div_exact _ hpos.ne']
  · have : (d.map fun p => Real.exp p.2 / (d.map fun q => Real.exp q.2).sum) =
        ((d.map fun q => Real.exp q.2).map fun y => y * (d.map fun q => Real.exp q.2).sum⁻¹) := by
      rw [List.map_map]
      exact List.map_congr_left fun p _ => div_eq_mul_inv _ _
    rw [this, List.sum_map_mul_right, List.map_id', mul_inv_cancel₀ hpos.ne']

/-- **C74**, `apply_2d_sparse` in any arithmetic: the function is applied to every stored entry, the
columns, size and type stay, … -/
theorem C74_apply_sparse {F : Type} [Arith F] (ds : List (Dict Int F)) (hds : ds ≠ []) (w : Option Nat)
    (dt : DType) (g : F → F) :
    apply2dSparse (.sparse ds w dt) (fun x => .ok (g x)) =
      .ok (.sparse (ds.map fun d => d.map fun p => (p.1, g p.2)) w dt) := by
  have h1 : ds.mapM (fun a => a.mapM fun p => (do return (p.1, ← (.ok (g p.2) : Py F)) : Py (Int × F))) =
      .ok (ds.map fun d => d.map fun p => (p.1, g p.2)) := by
    apply mapM_ok_map
    intro d _
    exact mapM_ok_map fun p _ => rfl
  refine (congrArg (· >>= fun rs' => sparseList (.list (rs'.map Row.dict)) w (some dt)) h1).trans ?_
  have hne : (ds.map fun d => d.map fun p => (p.1, g p.2)) ≠ [] := by simpa using hds
  exact sparseList_dicts hne _ _

/-- … so that for a function that fixes zero it agrees with applying it to the dense matrix; -/
theorem C74_apply_agrees {F : Type} (w : Nat) (d : Dict Int F) (z : F) (g : F → F) (hg : g z = z) :
    dense z w (d.map fun p => (p.1, g p.2)) = (dense z w d).map g := by
  rw [dense, dense, List.map_map]
  apply List.map_congr_left
  intro i _
  exact entry_mapKV (z := z) (g := fun _ v => g v) d i hg

/-- dense data are refused. -/
theorem C74_apply_dense {F : Type} [Arith F] (M : List (List F)) (g : F → Py F) :
    apply2dSparse (.ofMat M) g = .error .valueError := rfl

/-! ### Non-vacuity -/

example : linearKernel (.ofMat ([[3, 4]].map fins) : Arr Ex) (.other (.ofMat ([[1, 0], [2, 2]].map fins))) =
    .ok ([[3, 14]].map fins) := by
  rw [C74_kernel_dense 2 _ _ (by simp) (by simp) (by simp [Rect]) (by simp [Rect])]
  simp [inners, inner]
  norm_num

/-- Columns (3,1) and (0,0) with the l1 norm. -/
example : normalizePure (.ofMat (mat 2 2 fun i j => (.fin (if j = 1 then 0 else if i = 0 then 3 else 1) : Ex))) .l1 0 =
    .ok (.ofMat [[.fin (3 / 4), .fin 0], [.fin (1 / 4), .fin 0]]) := by
  rw [C74_columns .l1 (.inl rfl) 2 2 (by simp) (by simp)]
  simp [mat, List.range_succ, unitBy, normOf, l1norm]
  norm_num

example : sfmaxDict (finD [(4, 0), (1, 0)] : Dict Int Ex) = .ok (finD [(4, 1 / 2), (1, 1 / 2)]) := by
  rw [(C74_softmax_dict [(4, 0), (1, 0)] (by simp)).1]
  simp
  norm_num

end PurePredict
