import Verif.Props.C26
/-
C27: row normalisation with norm = "max".
-/
namespace PurePredict
open Spec

/-- The claim of C27 for one dense row `x` and its result `y`: bounded by 1 and sign preserving. -/
def MaxNormRow (x y : List ℝ) : Prop :=
  y.length = x.length ∧ (∀ a ∈ y, |a| ≤ 1) ∧ ∀ i : Nat, SignType.sign (y.getD i 0) = SignType.sign (x.getD i 0)

theorem pyMax_fins {x : List ℝ} {m : ℝ} (h : IsMax x m) : pyMax (fins x : List Ex) = .ok (.fin m) := by
  have hord : OrdOn XR.toE (fins x : List Ex) := XR.ordOn_toE (by
    intro v; simp [fins_def] at v)
  obtain ⟨v, hv, h1, h2⟩ := pyMax_spec XR.toE hord (by
    intro e; have : x = [] := by simpa [fins_def] using e
    rw [this] at h; exact absurd h.1 (by simp))
  obtain ⟨a, ha, rfl⟩ := List.mem_map.1 hv
  rw [h1]
  have e1 : a ≤ m := h.2 a ha
  have e2 : ((m : ℝ) : EReal) ≤ (a : EReal) := h2 (.fin m) (List.mem_map.2 ⟨m, h.1, rfl⟩)
  have e2 : m ≤ a := by exact_mod_cast e2
  rw [le_antisymm e1 e2]

theorem exists_isMax {x : List ℝ} (h : x ≠ []) : ∃ m, IsMax x m := by
  induction x with
  | nil => exact absurd rfl h
  | cons a x ih =>
    by_cases hx : x = []
    · subst hx; exact ⟨a, by simp [Spec.IsMax]⟩
    · obtain ⟨m, h1, h2⟩ := ih hx
      by_cases hle : a ≤ m
      · exact ⟨m, by simp [h1], by intro b hb; rcases List.mem_cons.1 hb with rfl | hb; exacts [hle, h2 b hb]⟩
      · push Not at hle
        exact ⟨a, by simp, by
          intro b hb; rcases List.mem_cons.1 hb with rfl | hb
          exacts [le_rfl, (h2 b hb).trans hle.le]⟩

theorem IsMax.unique {x : List ℝ} {m m' : ℝ} (h : IsMax x m) (h' : IsMax x m') : m = m' :=
  le_antisymm (h'.2 m h.1) (h.2 m' h'.1)

/-- What the code computes: with `N` giving each row's largest value (not the largest absolute
value), every row is divided by it. -/
theorem C27_dense_formula_partial (N : List ℝ → ℝ) (R : List (List ℝ)) (hR : R ≠ [])
    (hN : ∀ x ∈ R, IsMax x (N x)) :
    normalizerTransform .max (.ofMat (R.map fins) : Arr Ex) =
      .ok (.ofMat ((R.map (unitBy N)).map fins)) := by
  have hne : R.map fins ≠ [] := by simpa using hR
  simp only [normalizerTransform, checkArray_ofMat hne, py_ok_bind]
  apply normalizePure_dense .max (by simp) N R hR
  simp only [denseNorms, applyAxis2d_ofMat, mapM_map']
  rw [mapM_ok_map (g := fun x => (.fin (N x) : Ex)) fun x hx => pyMax_fins (hN x hx), fins_def,
    List.map_map]
  rfl

/-- **C27 is false**: the row [-1, -2] becomes [1, 2] (wrong signs, not bounded by 1). -/
theorem C27_false :
    normalizerTransform .max (.ofMat ([[-1, -2]].map fins) : Arr Ex) =
      .ok (.ofMat ([[1, 2]].map fins)) ∧ ¬ MaxNormRow [-1, -2] [1, 2] ∧
      ¬ (∀ a ∈ ([1, 2] : List ℝ), |a| ≤ 1) ∧ ¬ SignType.sign (1 : ℝ) = SignType.sign (-1 : ℝ) := by
  refine ⟨?_, ?_, ?_, ?_⟩
  · rw [C27_dense_formula_partial (fun _ => -1) [[-1, -2]] (by simp) (by
      intro x hx; simp at hx; subst hx
      refine ⟨by simp, ?_⟩
      intro a ha; simp at ha; rcases ha with rfl | rfl <;> norm_num)]
    simp [unitBy]
  · rintro ⟨-, h, -⟩
    have := h 2 (by simp)
    norm_num at this
  · intro h
    have := h 2 (by simp)
    norm_num at this
  · simp

/-- **C27 is false**, sparse against dense: the same row gives [1, 2] dense and [-1, -2] sparse. -/
theorem C27_sparse_differs :
    normalizerTransform .max (.sparse [finD [(0, -1), (1, -2)]] (some 2) .float : Arr Ex) =
      .ok (.sparse [finD [(0, -1), (1, -2)]] (some 2) .float) ∧
    dense 0 2 [((0 : Int), (-1 : ℝ)), (1, -2)] = [-1, -2] ∧
    normalizerTransform .max (.ofMat ([[-1, -2]].map fins) : Arr Ex) =
      .ok (.ofMat ([[1, 2]].map fins)) := by
  refine ⟨?_, ?_, C27_false.1⟩
  · simp only [normalizerTransform, checkArray, py_ok_bind]
    have h := normalizePure_sparse .max (by simp) (fun _ => 0) [[(0, -1), (1, -2)]] (by simp)
      (some 2) .float (by
        simp only [sparseNorms, List.map_cons, List.map_nil, mapM_cons', mapM_nil', values_finD,
          XR.ofInt_exact]
        have : (fins [-1, -2] ++ [(.fin ((0 : Int) : ℝ) : Ex)]) = fins [-1, -2, 0] := by simp
        rw [this, pyMax_fins (m := 0) ⟨by simp, by
          intro a ha; simp at ha; rcases ha with rfl | rfl | rfl <;> norm_num⟩]
        rfl)
    simpa [nz] using h
  · simp [dense, entry, List.range_succ]

/-- **C27**, partial: rows without negative values are treated correctly.
Missing: rows with negative values, for which the claim is false. -/
theorem C27_nonneg_rows_partial (R : List (List ℝ)) (hR : R ≠ []) (hne : ∀ x ∈ R, x ≠ [])
    (hpos : ∀ x ∈ R, ∀ a ∈ x, 0 ≤ a) :
    ∃ Y : List (List ℝ), normalizerTransform .max (.ofMat (R.map fins) : Arr Ex) =
      .ok (.ofMat (Y.map fins)) ∧ List.Forall₂ MaxNormRow R Y := by
  classical
  let N : List ℝ → ℝ := fun x => if h : x = [] then 0 else (exists_isMax h).choose
  have hN : ∀ x ∈ R, IsMax x (N x) := by
    intro x hx
    simp only [N, dif_neg (hne x hx)]
    exact (exists_isMax (hne x hx)).choose_spec
  refine ⟨R.map (unitBy N), C27_dense_formula_partial N R hR hN, ?_⟩
  rw [List.forall₂_map_right_iff]
  apply List.forall₂_same.2
  intro x hx
  have hm := hN x hx
  have hm0 : 0 ≤ N x := hpos x hx _ hm.1
  have hnzp : 0 < nz (N x) := by
    unfold nz; split
    · exact one_pos
    · rename_i h; exact lt_of_le_of_ne hm0 (Ne.symm h)
  have hle : ∀ a ∈ x, a ≤ nz (N x) := by
    intro a ha
    have := hm.2 a ha
    unfold nz; split
    · rename_i h; rw [h] at this; linarith
    · exact this
  rw [unitBy_eq]
  refine ⟨by simp, ?_, ?_⟩
  · intro b hb
    obtain ⟨a, ha, rfl⟩ := List.mem_map.1 hb
    rw [abs_of_nonneg (div_nonneg (hpos x hx a ha) hnzp.le), div_le_one hnzp]
    exact hle a ha
  · intro i
    have : (x.map fun a => a / nz (N x)).getD i 0 = x.getD i 0 / nz (N x) := by
      simp only [List.getD_eq_getElem?_getD, List.getElem?_map]
      cases x[i]? <;> simp
    rw [this, div_eq_mul_inv, sign_mul, sign_pos (inv_pos.2 hnzp), mul_one]

/-- **C27**, partial: sparse and dense agree on every row in which some column is not negative.
Missing: rows all of whose columns are negative. -/
theorem C27_sparse_agrees_partial (w : Nat) (ds : List (Dict Int ℝ)) (hds : ds ≠ [])
    (hd : ∀ d ∈ ds, ValidRow w d) (hpos : ∀ d ∈ ds, ∃ a ∈ dense 0 w d, 0 ≤ a) (dt : DType) :
    ∃ ds' : List (Dict Int ℝ),
      normalizerTransform .max (.sparse (ds.map finD) (some w) dt : Arr Ex) =
        .ok (.sparse (ds'.map finD) (some w) dt) ∧
      (∀ d ∈ ds', ValidRow w d) ∧
      normalizerTransform .max (.ofMat ((ds.map (dense 0 w)).map fins) : Arr Ex) =
        .ok (.ofMat ((ds'.map (dense 0 w)).map fins)) := by
  classical
  let N : List ℝ → ℝ := fun x => if h : x = [] then 0 else (exists_isMax h).choose
  have hN : ∀ d ∈ ds, IsMax (dense 0 w d) (N (dense 0 w d)) := by
    intro d hdm
    obtain ⟨a, ha, -⟩ := hpos d hdm
    have hne : dense 0 w d ≠ [] := List.ne_nil_of_mem ha
    simp only [N, dif_neg hne]
    exact (exists_isMax hne).choose_spec
  have hS : sparseNorms .max (.sparse (ds.map finD) (some w) dt : Arr Ex) (ds.map finD) =
      .ok (fins (ds.map fun d => N (dense 0 w d))) := by
    simp only [sparseNorms, mapM_map']
    rw [mapM_ok_map (g := fun d => (.fin (N (dense 0 w d)) : Ex)), fins_def, List.map_map]
    · rfl
    · intro d hdm
      have e : ((finD d).values ++ [(ofInt 0 : Ex)]) = fins (d.map Prod.snd ++ [0]) := by
        rw [values_finD, fins_append]; simp
      rw [e]
      apply pyMax_fins
      obtain ⟨h1, h2⟩ := hN d hdm
      have hmem : ∀ p ∈ d, p.2 ∈ dense 0 w d := by
        intro p hp
        obtain ⟨q0, q1⟩ := (hd d hdm).2 p hp
        refine List.mem_map.2 ⟨p.1.toNat, List.mem_range.2 (by omega), ?_⟩
        have hkey : ((p.1.toNat : Nat) : Int) = p.1 := by omega
        have hf := filter_key (hd d hdm).1 hp
        have : d.find? (fun q => decide (q.1 = ((p.1.toNat : Nat) : Int))) = some p := by
          rw [hkey]
          have : d.find? (fun q => q.1 == p.1) = some p := by
            rw [← List.head?_filter, hf]; rfl
          exact this
        rw [entry, this]; rfl
      have h0 : 0 ≤ N (dense 0 w d) := by
        obtain ⟨a, ha, ha0⟩ := hpos d hdm
        exact ha0.trans (h2 a ha)
      refine ⟨?_, ?_⟩
      · obtain ⟨i, hi, hie⟩ := List.mem_map.1 h1
        rw [← hie]
        by_cases hk : ∃ p ∈ d, p.1 = (i : Int)
        · obtain ⟨p, hp, hpi⟩ := hk
          have hf := filter_key (hd d hdm).1 hp
          have : entry 0 d i = p.2 := by
            have : d.find? (fun q => q.1 == p.1) = some p := by
              rw [← List.head?_filter, hf]; rfl
            rw [entry, ← hpi]
            have h' : d.find? (fun q => decide (q.1 = p.1)) = some p := this
            rw [h']; rfl
          rw [this]
          exact List.mem_append_left _ (List.mem_map.2 ⟨p, hp, rfl⟩)
        · push Not at hk
          rw [entry_not_mem hk]
          simp
      · intro a ha
        rcases List.mem_append.1 ha with ha | ha
        · obtain ⟨p, hp, rfl⟩ := List.mem_map.1 ha
          exact h2 _ (hmem p hp)
        · simp at ha; subst ha; exact h0
  refine ⟨ds.map fun d => d.map fun kv => (kv.1, kv.2 / nz (N (dense 0 w d))), ?_, ?_, ?_⟩
  · simp only [normalizerTransform, checkArray, py_ok_bind]
    exact normalizePure_sparse .max (by simp) _ ds hds _ dt hS
  · intro d hdm
    obtain ⟨d', hd', rfl⟩ := List.mem_map.1 hdm
    exact validRow_mapKV (g := fun _ v => v / nz (N (dense 0 w d'))) (hd d' hd')
  · rw [C27_dense_formula_partial N _ (by simpa using hds) (by
      intro x hx
      obtain ⟨d, hdm, rfl⟩ := List.mem_map.1 hx
      exact hN d hdm)]
    congr 3
    rw [List.map_map, List.map_map]
    apply List.map_congr_left
    intro d _
    simp only [Function.comp]
    rw [unitBy_eq]
    conv_lhs => rw [dense, List.map_map]
    conv_rhs => rw [dense]
    apply List.map_congr_left
    intro i _
    exact (entry_mapKV (z := (0 : ℝ)) (g := fun _ v => v / nz (N (dense 0 w d))) d i (by simp)).symm

/-- Non-vacuity: rows without negative values. -/
example : ∃ R : List (List ℝ), R ≠ [] ∧ (∀ x ∈ R, x ≠ []) ∧ ∀ x ∈ R, ∀ a ∈ x, 0 ≤ a :=
  ⟨[[1, 2]], by simp, by simp, by simp⟩
example : MaxNormRow [1, 2] [1/2, 1] := by
  refine ⟨rfl, ?_, ?_⟩
  · intro a ha
    simp only [List.mem_cons, List.not_mem_nil, or_false] at ha
    rcases ha with rfl | rfl <;> norm_num [abs_le]
  · intro i
    match i with
    | 0 => simp
    | 1 => simp
    | i + 2 => simp

end PurePredict
