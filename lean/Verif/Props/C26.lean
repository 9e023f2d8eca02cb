import Verif.Lemmas.Normalize
import Verif.Lemmas.RoundedLinks
/-
C26: row normalisation with the l1 and l2 norms.
-/
namespace PurePredict
open Spec

/-- The norm a `Norm` argument stands for. -/
noncomputable def normOf : Norm → List ℝ → ℝ
  | .l1 => l1norm
  | _ => l2norm

theorem denseNorms_l12 {n : Norm} (hn : n = .l1 ∨ n = .l2) {w : Nat} {R : List (List ℝ)} (hR : R ≠ [])
    (hw : Rect w R) :
    denseNorms n (.ofMat (R.map fins) : Arr Ex) = .ok (fins (R.map (normOf n))) := by
  rcases hn with rfl | rfl
  · exact denseNorms_l1 R
  · exact rowNorms_dense hR hw

/-- **C26**, dense: every row is divided by its norm (rows of norm 0 are left alone). -/
theorem C26_dense (n : Norm) (hn : n = .l1 ∨ n = .l2) (w : Nat) (R : List (List ℝ)) (hR : R ≠ [])
    (hw : Rect w R) :
    normalizerTransform n (.ofMat (R.map fins) : Arr Ex) =
      .ok (.ofMat ((R.map (unitBy (normOf n))).map fins)) := by
  have hne : R.map fins ≠ [] := by simpa using hR
  have hb : n ≠ .bad := by rcases hn with rfl | rfl <;> simp
  simp only [normalizerTransform, checkArray_ofMat hne, py_ok_bind]
  exact normalizePure_dense n hb _ R hR (denseNorms_l12 hn hR hw)

/-- **C26**, sparse and dense agree: the sparse result denotes the dense result, whatever the order
in which the entries are stored. -/
theorem C26_sparse_agrees (n : Norm) (hn : n = .l1 ∨ n = .l2) (w : Nat) (ds : List (Dict Int ℝ))
    (hds : ds ≠ []) (hd : ∀ d ∈ ds, ValidRow w d) (dt : DType) :
    ∃ ds' : List (Dict Int ℝ),
      normalizerTransform n (.sparse (ds.map finD) (some w) dt : Arr Ex) =
        .ok (.sparse (ds'.map finD) (some w) dt) ∧
      (∀ d ∈ ds', ValidRow w d) ∧
      ds'.map (dense 0 w) = ds.map fun d => unitBy (normOf n) (dense 0 w d) := by
  have hb : n ≠ .bad := by rcases hn with rfl | rfl <;> simp
  have hN : sparseNorms n (.sparse (ds.map finD) (some w) dt : Arr Ex) (ds.map finD) =
      .ok (fins (ds.map fun d => normOf n (dense 0 w d))) := by
    rcases hn with rfl | rfl
    · exact sparseNorms_l1 hd _
    · exact rowNorms_sparse hds hd dt _
  refine ⟨ds.map fun d => d.map fun kv => (kv.1, kv.2 / nz (normOf n (dense 0 w d))), ?_, ?_, ?_⟩
  · simp only [normalizerTransform, checkArray, py_ok_bind]
    exact normalizePure_sparse n hb _ ds hds _ dt hN
  · intro d hdm
    obtain ⟨d', hd', rfl⟩ := List.mem_map.1 hdm
    exact validRow_mapKV (g := fun _ v => v / nz (normOf n (dense 0 w d'))) (hd d' hd')
  · rw [List.map_map]
    apply List.map_congr_left
    intro d _
    rw [unitBy_eq]
    simp only [Function.comp]
    conv_rhs => rw [dense, List.map_map]
    conv_lhs => rw [dense]
    apply List.map_congr_left
    intro i _
    exact entry_mapKV (z := (0 : ℝ)) (g := fun _ v => v / nz (normOf n (dense 0 w d))) d i (by simp)

theorem sum_eq_zero_of_nonneg {l : List ℝ} (h : ∀ a ∈ l, 0 ≤ a) (hs : l.sum = 0) : ∀ a ∈ l, a = 0 := by
  intro a ha
  have h1 : a ≤ l.sum := List.single_le_sum (fun x hx => h x hx) a ha
  exact le_antisymm (by rwa [hs] at h1) (h a ha)

theorem normOf_nonneg (n : Norm) (x : List ℝ) : 0 ≤ normOf n x := by
  cases n
  · apply List.sum_nonneg
    intro y hy
    obtain ⟨a, _, rfl⟩ := List.mem_map.1 hy
    exact abs_nonneg a
  all_goals exact Real.sqrt_nonneg _

theorem normOf_zero_iff (n : Norm) (x : List ℝ) : normOf n x = 0 ↔ ∀ a ∈ x, a = 0 := by
  have hl2 : l2norm x = 0 ↔ ∀ a ∈ x, a = 0 := by
    rw [l2norm_eq, Real.sqrt_eq_zero (sum_sq_nonneg x)]
    constructor
    · intro h a ha
      have := sum_eq_zero_of_nonneg (l := x.map fun a => a * a) (by
        intro y hy; obtain ⟨a, _, rfl⟩ := List.mem_map.1 hy; exact mul_self_nonneg a) h (a * a)
        (List.mem_map.2 ⟨a, ha, rfl⟩)
      exact mul_self_eq_zero.1 this
    · intro h
      apply List.sum_eq_zero
      intro y hy
      obtain ⟨a, ha, rfl⟩ := List.mem_map.1 hy
      simp [h a ha]
  cases n
  · constructor
    · intro h a ha
      have := sum_eq_zero_of_nonneg (l := x.map fun a => |a|) (by
        intro y hy; obtain ⟨a, _, rfl⟩ := List.mem_map.1 hy; exact abs_nonneg a) h |a|
        (List.mem_map.2 ⟨a, ha, rfl⟩)
      exact abs_eq_zero.1 this
    · intro h
      apply List.sum_eq_zero
      intro y hy
      obtain ⟨a, ha, rfl⟩ := List.mem_map.1 hy
      simp [h a ha]
  all_goals exact hl2

theorem normOf_div (n : Norm) (x : List ℝ) {c : ℝ} (hc : 0 < c) :
    normOf n (x.map fun a => a / c) = normOf n x / c := by
  have hl2 : l2norm (x.map fun a => a / c) = l2norm x / c := by
    rw [l2norm_eq, l2norm_eq, List.map_map]
    have : (x.map ((fun a => a * a) ∘ fun a => a / c)).sum = (x.map fun a => a * a).sum / (c * c) := by
      rw [div_eq_mul_inv, ← List.sum_map_mul_right]
      congr 1
      apply List.map_congr_left
      intro a _
      simp only [Function.comp]
      field_simp
    rw [this, Real.sqrt_div (sum_sq_nonneg x), Real.sqrt_mul_self hc.le]
  cases n
  · show l1norm _ = l1norm _ / c
    unfold l1norm
    rw [div_eq_mul_inv, ← List.sum_map_mul_right, List.map_map]
    congr 1
    apply List.map_congr_left
    intro a _
    simp only [Function.comp]
    rw [abs_div, abs_of_pos hc, div_eq_mul_inv]
  all_goals exact hl2

/-- **C26**, unit norm: a row that is not all zero gets norm 1. -/
theorem C26_unit (n : Norm) (x : List ℝ) (h : ∃ a ∈ x, a ≠ 0) :
    normOf n (unitBy (normOf n) x) = 1 := by
  have h0 : normOf n x ≠ 0 := by
    rw [Ne, normOf_zero_iff]
    push Not
    exact h
  have hp := lt_of_le_of_ne (normOf_nonneg n x) (Ne.symm h0)
  rw [unitBy, if_neg h0, normOf_div n x hp, div_self h0]

/-- **C26**, zero rows are unchanged. -/
theorem C26_zero_row (n : Norm) (x : List ℝ) (h : ∀ a ∈ x, a = 0) : unitBy (normOf n) x = x := by
  rw [unitBy, if_pos ((normOf_zero_iff n x).2 h)]

/-- **C26**, direction: the result is a positive multiple of the row. -/
theorem C26_direction (n : Norm) (x : List ℝ) :
    ∃ c : ℝ, 0 < c ∧ unitBy (normOf n) x = x.map fun a => c * a := by
  by_cases h0 : normOf n x = 0
  · exact ⟨1, one_pos, by simp [unitBy, h0]⟩
  · have hp := lt_of_le_of_ne (normOf_nonneg n x) (Ne.symm h0)
    refine ⟨(normOf n x)⁻¹, inv_pos.2 hp, ?_⟩
    rw [unitBy, if_neg h0]
    apply List.map_congr_left
    intro a _
    rw [div_eq_inv_mul]

/-- **C26**, normalising twice is normalising once. -/
theorem C26_idempotent (n : Norm) (x : List ℝ) :
    unitBy (normOf n) (unitBy (normOf n) x) = unitBy (normOf n) x := by
  by_cases h : ∀ a ∈ x, a = 0
  · rw [C26_zero_row n x h, C26_zero_row n x h]
  · push Not at h
    have h1 := C26_unit n x h
    conv_lhs => rw [unitBy]
    rw [h1, if_neg one_ne_zero]
    simp

theorem C26_transform_twice (n : Norm) (hn : n = .l1 ∨ n = .l2) (w : Nat) (R : List (List ℝ))
    (hR : R ≠ []) (hw : Rect w R) :
    (normalizerTransform n (.ofMat (R.map fins) : Arr Ex) >>= normalizerTransform n) =
      normalizerTransform n (.ofMat (R.map fins)) := by
  have hw' : Rect w (R.map (unitBy (normOf n))) := by
    intro r hr
    obtain ⟨x, hx, rfl⟩ := List.mem_map.1 hr
    rw [unitBy_eq]; simp [hw x hx]
  rw [C26_dense n hn w R hR hw, py_ok_bind, C26_dense n hn w _ (by simpa using hR) hw']
  have : (R.map (unitBy (normOf n))).map (unitBy (normOf n)) = R.map (unitBy (normOf n)) := by
    rw [List.map_map]; exact List.map_congr_left fun x _ => C26_idempotent n x
  rw [this]

/-- **C26** under rounding (l1): in every sound floating point arithmetic the normalised values of
a row of floats lie in [-1, 1]. -/
theorem C26_l1_bounded_rounded (fp : FP) (hs : fp.Sound) (R : List (List ℝ)) (hR : R ≠ [])
    (hrep : ∀ x ∈ R, ∀ a ∈ x, fp.rnd a = (a : EReal)) :
    ∃ Y : List (List (XR fp)),
      normalizerTransform .l1 (.ofMat (R.map fun x => x.map XR.fin) : Arr (XR fp)) = .ok (.ofMat Y) ∧
      List.Forall₂ (fun x y => List.Forall₂ (fun (_ : ℝ) q => ∃ r, q = XR.fin r ∧ |r| ≤ 1) x y) R Y := by
  set M : List (List (XR fp)) := R.map fun x => x.map XR.fin with hM
  have hne : M ≠ [] := by simpa [hM] using hR
  have hdn : denseNorms .l1 (.ofMat M : Arr (XR fp)) =
      .ok (R.map fun x => pySum (x.map fun a => (XR.fin |a| : XR fp))) := by
    simp only [denseNorms, apply2d_ofMat, hM, mapM_map']
    rw [mapM_ok_map (g := fun x : List ℝ => x.map fun a => (XR.fin |a| : XR fp))]
    · rw [py_ok_bind, applyAxis2d_ofMat, mapM_map']
      exact mapM_ok_map fun x _ => rfl
    · intro x _
      exact mapM_ok_map fun a _ => rfl
  have hrow : ∀ x ∈ R, ∃ y : List (XR fp),
      (x.map (XR.fin : ℝ → XR fp)).mapM (fun a => a /ₚ
        (if pySum (x.map fun a => (XR.fin |a| : XR fp)) ==ₚ ofInt 0 then ofInt 1
          else pySum (x.map fun a => (XR.fin |a| : XR fp)))) = .ok y ∧
      List.Forall₂ (fun (_ : ℝ) q => ∃ r, q = XR.fin r ∧ |r| ≤ 1) x y := by
    intro x hx
    have hNN : ∀ v ∈ x.map (fun a => (XR.fin |a| : XR fp)), XR.NN v := by
      intro v hv
      obtain ⟨a, ha, rfl⟩ := List.mem_map.1 hv
      refine XR.NN.fin (abs_nonneg a) ?_
      have h := hrep x hx a ha
      rcases abs_cases a with ⟨e, -⟩ | ⟨e, -⟩
      · rw [e]; exact h
      · rw [e, hs.neg, h]; rfl
    obtain ⟨hS, hle⟩ := XR.pySum_NN hs hNN
    set S := pySum (x.map fun a => (XR.fin |a| : XR fp)) with hSdef
    have hent : ∀ a ∈ x, ∃ q, (XR.fin a : XR fp) /ₚ (if S ==ₚ ofInt 0 then ofInt 1 else S) = .ok q ∧
        ∃ r, q = XR.fin r ∧ |r| ≤ 1 := by
      intro a ha
      have hla := hle (XR.fin |a|) (List.mem_map.2 ⟨a, ha, rfl⟩)
      rcases hS.cases with h | ⟨s, h, hs0, -⟩
      · rw [h]
        have : ((XR.pinf : XR fp) ==ₚ ofInt 0) = false := by rw [XR.ofInt_zero hs]; rfl
        rw [this]
        exact ⟨.fin 0, rfl, 0, rfl, by simp⟩
      · rw [h] at hla ⊢
        have hla' : |a| ≤ s := by
          have h2 : ((|a| : ℝ) : EReal) ≤ (s : EReal) := hla
          exact_mod_cast h2
        rw [XR.ofInt_zero hs, XR.ofInt_one hs, XR.eq_fin]
        by_cases hz : s = 0
        · have ha0 : a = 0 := abs_nonpos_iff.1 (by rw [← hz]; exact hla')
          simp only [hz, decide_true, if_true, ha0]
          rw [XR.div_quot _ one_ne_zero, XR.quot_zero hs]
          exact ⟨_, rfl, 0, rfl, by simp⟩
        · simp only [hz, decide_false, Bool.false_eq_true, if_false]
          rw [XR.div_quot _ hz]
          obtain ⟨r, h1, h2⟩ := XR.quot_abs_le_one hs (lt_of_le_of_ne hs0 (Ne.symm hz)) hla'
          exact ⟨_, rfl, r, h1, h2⟩
    rw [mapM_map']
    clear_value S
    clear hSdef hle hNN hS hx
    induction x with
    | nil => exact ⟨[], by simp, .nil⟩
    | cons a x ih =>
      obtain ⟨q, hq, hr⟩ := hent a (by simp)
      obtain ⟨y, hy, hf⟩ := ih fun b hb => hent b (by simp [hb])
      exact ⟨q :: y, by rw [mapM_cons_ok]; exact ⟨q, y, hq, hy, rfl⟩, .cons hr hf⟩
  have hall : ∃ Y : List (List (XR fp)), R.mapM (fun x => (x.map (XR.fin : ℝ → XR fp)).mapM (fun a => a /ₚ
        (if pySum (x.map fun a => (XR.fin |a| : XR fp)) ==ₚ ofInt 0 then ofInt 1
          else pySum (x.map fun a => (XR.fin |a| : XR fp))))) = .ok Y ∧
      List.Forall₂ (fun x y => List.Forall₂ (fun (_ : ℝ) q => ∃ r, q = XR.fin r ∧ |r| ≤ 1) x y) R Y := by
    clear_value M
    clear hM hdn hne hR hrep
    induction R with
    | nil => exact ⟨[], by simp, .nil⟩
    | cons x R ih =>
      obtain ⟨y, hy, hf⟩ := hrow x (by simp)
      obtain ⟨Y, hY, hF⟩ := ih fun b hb => hrow b (by simp [hb])
      exact ⟨y :: Y, by rw [mapM_cons_ok]; exact ⟨y, Y, hy, hY, rfl⟩, .cons hf hF⟩
  obtain ⟨Y, hY, hF⟩ := hall
  refine ⟨Y, ?_, hF⟩
  have e : normalizeRows (.ofMat M : Arr (XR fp)) .l1 = (do
      let norms := handleZeros (← denseNorms .l1 (.ofMat M : Arr (XR fp)))
      let rs' ← (List.zip (← (Arr.ofMat M : Arr (XR fp)).rows) norms).mapM fun p => do
        (← p.1.iter).mapM fun a => a /ₚ p.2
      return (.ofMat rs', norms)) := rfl
  have hzip : List.zip (M.map Row.list) (handleZeros
      (R.map fun x => pySum (x.map fun a => (XR.fin |a| : XR fp)))) =
      R.map fun x => (Row.list (x.map XR.fin), (if pySum (x.map fun a => (XR.fin |a| : XR fp)) ==ₚ ofInt 0
        then ofInt 1 else pySum (x.map fun a => (XR.fin |a| : XR fp)))) := by
    rw [hM, handleZeros, List.map_map, List.map_map, List.zip_map']
    rfl
  have hr : normalizeRows (.ofMat M : Arr (XR fp)) .l1 = .ok (.ofMat Y, handleZeros
      (R.map fun x => pySum (x.map fun a => (XR.fin |a| : XR fp)))) := by
    rw [e, hdn]
    simp only [py_ok_bind, rows_ofMat, hzip, mapM_map']
    have : R.mapM (fun x => do
        (← (Row.list (x.map (XR.fin : ℝ → XR fp))).iter).mapM fun a => a /ₚ
        (if pySum (x.map fun a => (XR.fin |a| : XR fp)) ==ₚ ofInt 0 then ofInt 1
          else pySum (x.map fun a => (XR.fin |a| : XR fp)))) = .ok Y := hY
    rw [this]
    rfl
  have hck : checkArray (.ofMat M : Arr (XR fp)) .allow = .ok (.ofMat M) := checkArray_ofMat hne _
  simp only [normalizerTransform, hck, py_ok_bind, normalizePure, normalizePure', issparse_ofMat,
    Bool.and_false, Bool.false_eq_true, if_false, show ((1 : Int) == 0) = false from rfl,
    show ((1 : Int) == 1) = true from rfl, Bool.or_true, Bool.not_true, py_pure, Bool.false_and, hr,
    reduceCtorEq]

/-- Non-vacuity: [3, -4] has l2 norm 5. -/
example : normalizerTransform .l2 (.ofMat ([[3, -4]].map fins) : Arr Ex) =
    .ok (.ofMat ([[3/5, -4/5]].map fins)) := by
  rw [C26_dense .l2 (.inr rfl) 2 [[3, -4]] (by simp)
    (by intro r hr; simp at hr; subst hr; rfl)]
  have h5 : normOf .l2 [3, -4] = 5 := by
    show l2norm _ = _
    rw [l2norm]
    simp only [List.map_cons, List.map_nil, List.sum_cons, List.sum_nil]
    rw [show (3 : ℝ) ^ 2 + ((-4) ^ 2 + 0) = 5 ^ 2 by norm_num]
    exact Real.sqrt_sq (by norm_num)
  simp [unitBy, h5]

end PurePredict
