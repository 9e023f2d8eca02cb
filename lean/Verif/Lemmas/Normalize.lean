import Verif.Spec.Normalize
import Verif.Lemmas.Scale
import Verif.Lemmas.Mat
import Verif.Lemmas.Argmax
/-
Row normalisation in exact arithmetic.
-/
namespace PurePredict
open Spec

/-- The divisor used for a row: its norm, or 1 if that is 0. -/
noncomputable def nz (a : ℝ) : ℝ := if a = 0 then 1 else a

theorem nz_ne (a : ℝ) : nz a ≠ 0 := by
  unfold nz; split <;> simp_all

theorem unitBy_eq (N : List ℝ → ℝ) (x : List ℝ) : unitBy N x = x.map fun a => a / nz (N x) := by
  unfold unitBy nz
  split <;> simp

theorem handleZeros_fins (l : List ℝ) : handleZeros (fins l) = fins (l.map nz) := by
  simp only [handleZeros, fins_def, List.map_map]
  apply List.map_congr_left
  intro a _
  simp only [Function.comp, XR.ofInt_exact, XR.eq_fin, nz, Int.cast_zero, Int.cast_one]
  by_cases h : a = 0 <;> simp [h]

theorem zip_map_self {α β : Type} (l : List α) (f : α → β) :
    List.zip l (l.map f) = l.map fun a => (a, f a) := by
  induction l with
  | nil => rfl
  | cons a l ih => simp [ih]

theorem mapM_div_fins (x : List ℝ) {b : ℝ} (hb : b ≠ 0) :
    (fins x).mapM (fun a => a /ₚ (XR.fin b : Ex)) = .ok (fins (x.map fun a => a / b)) :=
  mapM_fins fun a _ => XR.div_exact a hb

theorem normalizeRows_dense (n : Norm) (N : List ℝ → ℝ) (R : List (List ℝ))
    (h : denseNorms n (.ofMat (R.map fins) : Arr Ex) = .ok (fins (R.map N))) :
    normalizeRows (.ofMat (R.map fins)) n =
      .ok (.ofMat ((R.map (unitBy N)).map fins), fins (R.map fun x => nz (N x))) := by
  have e : normalizeRows (.ofMat (R.map fins) : Arr Ex) n = (do
      let norms := handleZeros (← denseNorms n (.ofMat (R.map fins) : Arr Ex))
      let rs' ← (List.zip (← (Arr.ofMat (R.map fins) : Arr Ex).rows) norms).mapM fun p => do
        (← p.1.iter).mapM fun a => a /ₚ p.2
      return (.ofMat rs', norms)) := rfl
  rw [e, h]
  simp only [py_ok_bind, rows_ofMat, handleZeros_fins, List.map_map]
  have hz : List.zip (R.map (Row.list ∘ fins)) (fins (R.map (nz ∘ N))) =
      R.map fun x => ((Row.list (fins x) : Row Ex), (XR.fin (nz (N x)) : Ex)) := by
    rw [fins_def, List.map_map]
    rw [show R.map (XR.fin ∘ nz ∘ N) = R.map (fun x => (XR.fin (nz (N x)) : Ex)) from rfl]
    rw [List.zip_map', ]
    rfl
  rw [hz, mapM_map', mapM_ok_map (g := fun x => fins (unitBy N x))]
  · rfl
  · intro x _
    show (fins x).mapM _ = _
    rw [mapM_div_fins x (nz_ne _), unitBy_eq]

theorem normalizeRows_sparse (n : Norm) (N : Dict Int ℝ → ℝ) (ds : List (Dict Int ℝ)) (hds : ds ≠ [])
    (sz : Option Nat) (dt : DType)
    (h : sparseNorms n (.sparse (ds.map finD) sz dt : Arr Ex) (ds.map finD) = .ok (fins (ds.map N))) :
    normalizeRows (.sparse (ds.map finD) sz dt) n =
      .ok (.sparse ((ds.map fun d => d.map fun kv => (kv.1, kv.2 / nz (N d))).map finD) sz dt,
        fins (ds.map fun x => nz (N x))) := by
  simp only [normalizeRows, h, py_ok_bind, handleZeros_fins, List.map_map]
  have hz : List.zip (ds.map finD) (fins (ds.map (nz ∘ N))) =
      ds.map fun d => (finD d, (XR.fin (nz (N d)) : Ex)) := by
    rw [fins_def, List.map_map]
    rw [show ds.map (XR.fin ∘ nz ∘ N) = ds.map (fun x => (XR.fin (nz (N x)) : Ex)) from rfl]
    rw [List.zip_map']
  rw [hz, mapM_map', mapM_ok_map (g := fun d => finD (d.map fun kv => (kv.1, kv.2 / nz (N d))))]
  · rw [py_ok_bind, sparseList_dicts (by simpa using hds)]
    rfl
  · intro d _
    simp only [finD]
    rw [mapM_map', mapM_ok_map (g := fun kv => (kv.1, (XR.fin (kv.2 / nz (N d)) : Ex)))]
    · simp only [List.map_map]; rfl
    · intro kv _
      simp only [XR.div_exact _ (nz_ne _), py_ok_bind, py_pure]

theorem normalizePure_dense (n : Norm) (hn : n ≠ .bad) (N : List ℝ → ℝ) (R : List (List ℝ)) (hR : R ≠ [])
    (h : denseNorms n (.ofMat (R.map fins) : Arr Ex) = .ok (fins (R.map N))) :
    normalizePure (.ofMat (R.map fins)) n 1 = .ok (.ofMat ((R.map (unitBy N)).map fins)) := by
  have hne : R.map fins ≠ [] := by simpa using hR
  simp only [normalizePure, normalizePure', issparse_ofMat, Bool.and_false, Bool.false_eq_true,
    if_false, hn, checkArray_ofMat hne, py_ok_bind, show ((1 : Int) == 0) = false from rfl,
    show ((1 : Int) == 1) = true from rfl, Bool.or_true, Bool.not_true, py_pure, Bool.false_and]
  simp only [normalizeRows_dense n N R h, py_ok_bind]

theorem normalizePure_sparse (n : Norm) (hn : n ≠ .bad) (N : Dict Int ℝ → ℝ)
    (ds : List (Dict Int ℝ)) (hds : ds ≠ []) (sz : Option Nat) (dt : DType)
    (h : sparseNorms n (.sparse (ds.map finD) sz dt : Arr Ex) (ds.map finD) = .ok (fins (ds.map N))) :
    normalizePure (.sparse (ds.map finD) sz dt) n 1 =
      .ok (.sparse ((ds.map fun d => d.map fun kv => (kv.1, kv.2 / nz (N d))).map finD) sz dt) := by
  simp only [normalizePure, normalizePure', Arr.issparse, Bool.and_true, Bool.false_eq_true,
    if_false, hn, checkArray, py_ok_bind, show ((1 : Int) == 0) = false from rfl,
    show ((1 : Int) == 1) = true from rfl, Bool.or_true, Bool.not_true, py_pure, Bool.and_false,
    Bool.false_and, normalizeRows_sparse n N ds hds sz dt h]

/-! norms -/

theorem denseNorms_l1 (R : List (List ℝ)) :
    denseNorms .l1 (.ofMat (R.map fins) : Arr Ex) = .ok (fins (R.map l1norm)) := by
  simp only [denseNorms, apply2d_ofMat, mapM_map']
  rw [mapM_ok_map (g := fun x : List ℝ => fins (x.map fun a => |a|))]
  · rw [py_ok_bind, applyAxis2d_ofMat, mapM_map', fins_def, List.map_map]
    apply mapM_ok_map
    intro x _
    simp only [pySum_fins, Function.comp, l1norm]
  · intro x _
    exact mapM_fins fun a _ => rfl

theorem sum_sq_nonneg (x : List ℝ) : 0 ≤ (x.map fun a => a * a).sum := by
  apply List.sum_nonneg
  intro y hy
  obtain ⟨a, _, rfl⟩ := List.mem_map.1 hy
  exact mul_self_nonneg a

theorem l2norm_eq (x : List ℝ) : l2norm x = Real.sqrt (x.map fun a => a * a).sum := by
  simp [l2norm, pow_two]

theorem rowNorms_dense {w : Nat} {R : List (List ℝ)} (hR : R ≠ []) (hw : Rect w R) :
    rowNorms (.ofMat (R.map fins) : Arr Ex) = .ok (fins (R.map l2norm)) := by
  have hne : R.map fins ≠ [] := by simpa using hR
  have hw' : Rect w (R.map fins) := by
    intro r hr
    obtain ⟨x, hx, rfl⟩ := List.mem_map.1 hr
    simp [hw x hx]
  have hmm : matmultSameDim (.ofMat (R.map fins) : Arr Ex) (.ofMat (R.map fins)) =
      .ok (.ofMat (R.map fun x => fins (x.map fun a => a * a))) := by
    have e : matmultSameDim (.ofMat (R.map fins) : Arr Ex) (.ofMat (R.map fins)) = (do
        let shA ← (Arr.ofMat (R.map fins) : Arr Ex).shape
        let shB ← (Arr.ofMat (R.map fins) : Arr Ex).shape
        if shA != shB then .error .valueError
        else if (Arr.ofMat (R.map fins) : Arr Ex).issparse !=
          (Arr.ofMat (R.map fins) : Arr Ex).issparse then .error .valueError
        else match shA with
          | .d1 _ => .error .indexError
          | .d2 _ none => .error .typeError
          | .d2 _ (some w) =>
            let rs ← (List.zip (← (Arr.ofMat (R.map fins) : Arr Ex).rows)
              (← (Arr.ofMat (R.map fins) : Arr Ex).rows)).mapM fun p => mulRows w p.1 p.2
            return .ofMat rs) := rfl
    rw [e]
    simp only [shape_ofMat hne hw', py_ok_bind, bne_self_eq_false, Bool.false_eq_true, if_false,
      rows_ofMat, List.map_map]
    rw [List.zip_map', mapM_map', mapM_ok_map (g := fun x => fins (x.map fun a => a * a))]
    · rfl
    · intro x hx
      have hl := hw x hx
      simp only [Function.comp, mulRows]
      rw [range_mapM (g := fun j => (.fin (x.getD j 0 * x.getD j 0) : Ex))]
      · congr 1
        subst hl
        apply List.ext_getElem
        · simp [fins_def]
        · intro i h1 h2
          simp at h1
          simp [fins_def, h1]
      · intro j hj
        have hj' : j < x.length := by omega
        simp only [Row.getItem]
        rw [pyGet_lt (by simpa [fins_def] using hj')]
        simp [fins_def, hj']
  simp only [rowNorms, hmm, py_ok_bind]
  have e3 : applyAxis2d (.ofMat (R.map fun x : List ℝ => fins (x.map fun a => a * a)) : Arr Ex)
        (fun a => .ok (pySum a)) = .ok (fins (R.map fun x => (x.map fun a => a * a).sum)) := by
    rw [applyAxis2d_ofMat, mapM_map', fins_def, List.map_map]
    apply mapM_ok_map
    intro x _
    simp only [pySum_fins, Function.comp]
  show (do
      let norms ← applyAxis2d (.ofMat (R.map fun x : List ℝ => fins (x.map fun a => a * a)) : Arr Ex)
        (fun a => .ok (pySum a))
      norms.mapM Arith.sqrt) = _
  rw [e3, py_ok_bind, mapM_fins (g := Real.sqrt)]
  · rw [List.map_map]
    congr 2
    apply List.map_congr_left
    intro x _
    exact (l2norm_eq x).symm
  · intro a ha
    obtain ⟨x, _, rfl⟩ := List.mem_map.1 ha
    exact XR.sqrt_exact (sum_sq_nonneg x)

theorem filter_key {F : Type} {d : Dict Int F} (h : (d.map Prod.fst).Nodup) {p : Int × F}
    (hp : p ∈ d) : d.filter (fun q => q.1 == p.1) = [p] := by
  induction d with
  | nil => cases hp
  | cons q d ih =>
    simp only [List.map_cons, List.nodup_cons] at h
    rcases List.mem_cons.1 hp with rfl | hp
    · rw [List.filter_cons_of_pos (by simp)]
      congr 1
      rw [List.filter_eq_nil_iff]
      intro r hr
      simp only [beq_iff_eq]
      intro e
      exact h.1 (List.mem_map.2 ⟨r, hr, e⟩)
    · rw [List.filter_cons_of_neg, ih h.2 hp]
      simp only [beq_iff_eq]
      intro e
      exact h.1 (List.mem_map.2 ⟨p, hp, e.symm⟩)

theorem mulDicts_self {F : Type} [Arith F] {d : Dict Int F} (h : (d.map Prod.fst).Nodup) :
    mulDicts d d = d.map fun p => (p.1, p.2 *ₚ p.2) := by
  unfold mulDicts
  have : (d.flatMap fun pa => (d.filter fun pb => pb.1 == pa.1).map fun pb => (pb.1, pa.2 *ₚ pb.2)) =
      d.map fun p => (p.1, p.2 *ₚ p.2) := by
    rw [← List.flatMap_pure_eq_map]
    have : ∀ l : List (Int × F), (∀ p ∈ l, p ∈ d) →
        (l.flatMap fun pa => (d.filter fun pb => pb.1 == pa.1).map fun pb => (pb.1, pa.2 *ₚ pb.2)) =
        l.flatMap fun p => [(p.1, p.2 *ₚ p.2)] := by
      intro l hl
      induction l with
      | nil => rfl
      | cons p l ih =>
        rw [List.flatMap_cons, List.flatMap_cons, ih fun q hq => hl q (by simp [hq]),
          filter_key h (hl p (by simp))]
        rfl
    exact this d fun _ h => h
  rw [this]
  apply Dict.ofList_eq_self
  rw [List.map_map]
  exact h

/-- Sum of a function of the stored values = sum over the dense row, if the function keeps 0. -/
theorem sum_stored {w : Nat} {d : Dict Int ℝ} (hd : ValidRow w d) (g : ℝ → ℝ) (hg : g 0 = 0) :
    (d.map fun p => g p.2).sum = ((dense 0 w d).map g).sum := by
  have h := sum_sparse_eq_sum_dense (d := d.map fun p => (p.1, g p.2))
    (validRow_mapKV (g := fun _ v => g v) hd) (fun _ => 1)
  simp only [mul_one, List.map_map] at h
  have e : (d.map ((fun p : Int × ℝ => p.2) ∘ fun p => (p.1, g p.2))) = d.map fun p => g p.2 := rfl
  rw [e] at h
  rw [h, dense, List.map_map, list_sum_range]
  apply Finset.sum_congr rfl
  intro i _
  have := entry_mapKV (F := ℝ) (z := 0) (g := fun _ v => g v) d i hg
  exact this

theorem values_finD (d : Dict Int ℝ) : (finD d).values = fins (d.map Prod.snd) := by
  simp [finD, Dict.values, fins_def]

theorem sparseNorms_l1 {w : Nat} {ds : List (Dict Int ℝ)} (hd : ∀ d ∈ ds, ValidRow w d)
    (X : Arr Ex) :
    sparseNorms .l1 X (ds.map finD) = .ok (fins (ds.map fun d => l1norm (dense 0 w d))) := by
  simp only [sparseNorms, List.map_map, fins_def]
  congr 1
  apply List.map_congr_left
  intro d hdm
  simp only [Function.comp, values_finD, fins_def, List.map_map]
  have : d.map ((Arith.abs ∘ (XR.fin : ℝ → Ex)) ∘ Prod.snd) = fins (d.map fun p => |p.2|) := by
    rw [fins_def, List.map_map]; rfl
  rw [show (d.map (Arith.abs ∘ (XR.fin : ℝ → Ex) ∘ Prod.snd)) = fins (d.map fun p => |p.2|) from this,
    pySum_fins, l1norm, sum_stored (hd d hdm) (fun a => |a|) abs_zero]

theorem rowNorms_sparse {w : Nat} {ds : List (Dict Int ℝ)} (hds : ds ≠ [])
    (hd : ∀ d ∈ ds, ValidRow w d) (dt : DType) (sz : Option Nat) :
    rowNorms (.sparse (ds.map finD) sz dt : Arr Ex) =
      .ok (fins (ds.map fun d => l2norm (dense 0 w d))) := by
  have hne : ds.map finD ≠ [] := by simpa using hds
  have hzw : List.zipWith mulDicts (ds.map finD) (ds.map finD) =
      ds.map fun d => finD (d.map fun p => (p.1, p.2 * p.2)) := by
    rw [List.zipWith_self, List.map_map]
    apply List.map_congr_left
    intro d hdm
    simp only [Function.comp]
    rw [mulDicts_self (finD_valid (hd d hdm)).1]
    simp [finD]
  have hmm : matmultSameDim (.sparse (ds.map finD) sz dt : Arr Ex) (.sparse (ds.map finD) sz dt) =
      .ok (.sparse (ds.map fun d => finD (d.map fun p => (p.1, p.2 * p.2))) sz dt) := by
    obtain ⟨d0, ds', h0⟩ := List.exists_cons_of_ne_nil hne
    have hsh : ∃ s, (Arr.sparse (ds.map finD) sz dt : Arr Ex).shape = .ok s := by
      rw [h0]; exact ⟨_, shape_sparse_cons _ _ _ _⟩
    obtain ⟨s, hs⟩ := hsh
    simp only [matmultSameDim, hs, py_ok_bind, bne_self_eq_false, Bool.false_eq_true, if_false,
      hzw]
    exact sparseList_dicts (by simpa using hds) _ _
  simp only [rowNorms, hmm, py_ok_bind, py_pure, List.map_map]
  have : (ds.map ((fun x : Dict Int Ex => pySum x.values) ∘ fun d => finD (d.map fun p => (p.1, p.2 * p.2))))
      = fins (ds.map fun d => ((dense 0 w d).map fun a => a * a).sum) := by
    rw [fins_def, List.map_map]
    apply List.map_congr_left
    intro d hdm
    simp only [Function.comp, values_finD, pySum_fins, List.map_map]
    rw [← sum_stored (hd d hdm) (fun a => a * a) (by simp)]
    rfl
  rw [this, mapM_fins (g := Real.sqrt)]
  · rw [List.map_map]
    congr 2
    apply List.map_congr_left
    intro d _
    exact (l2norm_eq _).symm
  · intro a ha
    obtain ⟨x, _, rfl⟩ := List.mem_map.1 ha
    exact XR.sqrt_exact (sum_sq_nonneg _)

end PurePredict
