import Verif.Lemmas.Mat
import Verif.Lemmas.Dot
import Verif.Lemmas.Normalize
/-
C53: laws of the matrix helpers of base.py.  A rectangular matrix is written `mat n k f` (every
rectangular matrix is of this form, `eq_mat`).
-/
namespace PurePredict
open Spec
variable {F G : Type} [Arith F]

/-! ### transpose, ravel -/

/-- **C53**: `transpose` exchanges rows and columns. -/
theorem C53_transpose (n k : Nat) (hn : 0 < n) (f : Nat → Nat → F) :
    transpose (.ofMat (mat n k f)) = .ok (mat k n fun j i => f i j) := by
  rw [transpose_ofMat, zipStar_mat hn]

/-- **C53**: transposing twice gives the matrix back. -/
theorem C53_transpose_involution (k : Nat) (hk : 0 < k) (M : List (List F)) (hM : M ≠ []) (hr : Rect k M) :
    (transpose (.ofMat M) >>= fun T => transpose (.ofMat T)) = .ok M := by
  cases hM' : M with
  | nil => exact absurd hM' hM
  | cons r M' =>
    have hrl : r.length = k := hr r (by simp [hM'])
    have hrne : r ≠ [] := by rintro rfl; simp at hrl; omega
    rw [← hM', eq_mat hr (r.head hrne), C53_transpose _ _ (List.length_pos_iff.2 hM), py_ok_bind,
      C53_transpose _ _ hk]

/-- The involution fails for matrices with rows but no columns (numpy keeps the shape `(n, 0)`). -/
theorem C53_transpose_no_columns (n : Nat) (hn : 0 < n) :
    (transpose (.ofMat (List.replicate n ([] : List F))) >>= fun T => transpose (.ofMat T)) = .ok [] := by
  obtain ⟨m, rfl⟩ := Nat.exists_eq_succ_of_ne_zero hn.ne'
  simp only [transpose_ofMat, py_ok_bind]
  have : zipStar (List.replicate (m + 1) ([] : List F)) = [] := by
    unfold zipStar
    rw [minLen_rect (w := 0) (by simp) (by intro r hr; rw [List.eq_of_mem_replicate hr]; rfl)]
    rfl
  rw [Nat.succ_eq_add_one, this]
  rfl

/-- **C53**: `ravel` of a one-column matrix lists its entries, as numpy does. -/
theorem C53_ravel_column (xs : List F) (h : xs ≠ []) :
    ravel (.ofMat (xs.map fun x => [x])) = .ok xs := by
  have hr : Rect 1 (xs.map fun x => [x]) := by
    intro r hr; obtain ⟨x, _, rfl⟩ := List.mem_map.1 hr; rfl
  have hz : zipStar (xs.map fun x => [x]) = [xs] := by
    unfold zipStar
    rw [minLen_rect (by simpa using h) hr]
    simp [List.range_succ, List.filterMap_map]
  simp only [ravel, issparse_ofMat, Bool.false_eq_true, if_false, transpose_ofMat, hz, py_ok_bind]
  exact pyGet_lt (l := [xs]) (i := 0) (by simp)

/-- What `ravel` does in general: it returns the first column only. -/
theorem C53_ravel_first_column (n k : Nat) (hn : 0 < n) (hk : 0 < k) (f : Nat → Nat → F) :
    ravel (.ofMat (mat n k f)) = .ok ((List.range n).map fun i => f i 0) := by
  simp only [ravel, issparse_ofMat, Bool.false_eq_true, if_false, C53_transpose n k hn, py_ok_bind]
  have := pyGet_lt (l := mat k n fun j i => f i j) (i := 0) (by simpa using hk)
  rw [show ((0 : Nat) : Int) = (0 : Int) from rfl] at this
  rw [this, mat_getElem hk]

/-- **C53 is false** for `ravel`: numpy's ravel of a matrix with two or more columns has all
entries. -/
theorem C53_ravel_false (a b : F) : ravel (.ofMat [[a, b]]) ≠ .ok [a, b] := by
  have := C53_ravel_first_column 1 2 (by simp) (by simp) (fun _ j => if j = 0 then a else b)
  have e : mat 1 2 (fun _ j => if j = 0 then a else b) = [[a, b]] := by simp [mat, List.range_succ]
  rw [e] at this
  rw [this]
  simp

/-! ### entrywise operations -/

/-- **C53**: `operate_2d` acts entrywise. -/
theorem C53_operate (n k : Nat) (hn : 0 < n) (f g : Nat → Nat → F) (op : F → F → F) :
    operate2d (.ofMat (mat n k f)) (.ofMat (mat n k g)) op = .ok (mat n k fun i j => op (f i j) (g i j)) := by
  simp only [operate2d, issparse_ofMat, Bool.or_self, Bool.false_eq_true, if_false,
    shape_ofMat (mat_ne_nil hn) (mat_rect n k f), shape_ofMat (mat_ne_nil hn) (mat_rect n k g), mat_length,
    py_ok_bind, bne_self_eq_false, rows_ofMat]
  unfold mat
  rw [List.map_map, List.map_map, List.zip_map', mapM_map']
  apply mapM_ok_map
  intro i _
  simp [Function.comp, Row.iter, List.zipWith_map_left, List.zipWith_map_right,
    List.zipWith_self]

/-- Different shapes and sparse input raise `ValueError`. -/
theorem C53_operate_errors (A B : Arr F) (op : F → F → F) :
    ((A.issparse = true ∨ B.issparse = true) → operate2d A B op = .error .valueError) ∧
    (∀ s t, A.issparse = false → B.issparse = false → A.shape = .ok s → B.shape = .ok t → s ≠ t →
      operate2d A B op = .error .valueError) := by
  constructor
  · rintro (h | h) <;> simp [operate2d, h]
  · intro s t hA hB hs ht hne
    simp [operate2d, hA, hB, hs, ht, hne]

/-- **C53**: `apply_2d` acts entrywise. -/
theorem C53_apply (n k : Nat) (f : Nat → Nat → F) (g : F → G) :
    apply2d (.ofMat (mat n k f)) (fun x => .ok (g x)) = .ok (mat n k fun i j => g (f i j)) := by
  rw [apply2d_ofMat]
  unfold mat
  rw [mapM_map']
  apply mapM_ok_map
  intro i _
  rw [mapM_map']
  exact mapM_ok_map fun j _ => rfl

/-- **C53**: `matmult_same_dim` on dense matrices acts entrywise. -/
theorem C53_matmult_dense (n k : Nat) (hn : 0 < n) (f g : Nat → Nat → F) :
    matmultSameDim (.ofMat (mat n k f)) (.ofMat (mat n k g)) =
      .ok (.ofMat (mat n k fun i j => f i j *ₚ g i j)) := by
  have e : ∀ A B : List (List F), matmultSameDim (.ofMat A) (.ofMat B) = (do
      let shA ← (Arr.ofMat A).shape
      let shB ← (Arr.ofMat B).shape
      if shA != shB then .error .valueError
      else match shA with
        | .d1 _ => .error .indexError
        | .d2 _ none => .error .typeError
        | .d2 _ (some w) =>
          let rs ← (List.zip (← (Arr.ofMat A).rows) (← (Arr.ofMat B).rows)).mapM fun p => mulRows w p.1 p.2
          return .ofMat rs) := by
    intro A B
    simp only [matmultSameDim, issparse_ofMat, bne_self_eq_false, Bool.false_eq_true, if_false]
    rfl
  rw [e, shape_ofMat (mat_ne_nil hn) (mat_rect n k f), shape_ofMat (mat_ne_nil hn) (mat_rect n k g)]
  simp only [mat_length, py_ok_bind, bne_self_eq_false, Bool.false_eq_true, if_false, rows_ofMat]
  have : (List.zip ((mat n k f).map Row.list) ((mat n k g).map Row.list)).mapM
      (fun p => mulRows k p.1 p.2) = .ok (mat n k fun i j => f i j *ₚ g i j) := by
    unfold mat
    rw [List.map_map, List.map_map, List.zip_map', mapM_map']
    apply mapM_ok_map
    intro i _
    unfold mulRows
    apply mapM_ok_map
    intro j hj
    have hj' : j < k := List.mem_range.1 hj
    have h1 : ∀ h : Nat → F, (Row.list ((List.range k).map h)).getItem (j : Int) = .ok (h j) := by
      intro h
      have e : (Row.list ((List.range k).map h)).getItem (j : Int) = pyGet ((List.range k).map h) (j : Int) := rfl
      rw [e, pyGet_lt (by simpa using hj')]
      simp
    simp [Function.comp, h1]
  rw [this]
  rfl

/-- One row of the sparse product keeps the columns stored in both rows. -/
theorem mulDicts_eq {a b : Dict Int F} (ha : (a.map Prod.fst).Nodup) (hb : (b.map Prod.fst).Nodup) :
    mulDicts a b = a.filterMap fun p => (b.get? p.1).map fun v => (p.1, p.2 *ₚ v) := by
  have hL : (a.flatMap fun pa => (b.filter fun pb => pb.1 == pa.1).map fun pb => (pb.1, pa.2 *ₚ pb.2)) =
      a.filterMap fun p => (b.get? p.1).map fun v => (p.1, p.2 *ₚ v) := by
    have h1 : ∀ pa : Int × F, ((b.filter fun pb => pb.1 == pa.1).map fun pb => (pb.1, pa.2 *ₚ pb.2)) =
        ((b.get? pa.1).map fun v => (pa.1, pa.2 *ₚ v)).toList := by
      intro pa
      cases hg : b.get? pa.1 with
      | none =>
        have := Dict.get?_eq_none_iff.1 hg
        have hf : b.filter (fun pb => pb.1 == pa.1) = [] := by
          rw [List.filter_eq_nil_iff]
          intro q hq h
          have h' : q.1 = pa.1 := by simpa using h
          exact this (List.mem_map.2 ⟨q, hq, h'⟩)
        rw [hf]; rfl
      | some v =>
        have hm := Dict.mem_of_get? hg
        have := filter_key hb hm
        rw [this]; rfl
    clear ha
    induction a with
    | nil => rfl
    | cons p a ih =>
      rw [List.flatMap_cons, ih, h1 p, List.filterMap_cons]
      cases b.get? p.1 <;> rfl
  unfold mulDicts
  rw [hL]
  apply Dict.ofList_eq_self
  refine List.Nodup.sublist ?_ ha
  clear ha hL
  induction a with
  | nil => exact List.Sublist.refl _
  | cons p a ih =>
    rw [List.filterMap_cons]
    cases b.get? p.1 with
    | none => exact ih.trans (List.sublist_cons_self _ _)
    | some v => exact ih.cons_cons _

theorem get?_mulDicts {a b : Dict Int F} (ha : (a.map Prod.fst).Nodup) (hb : (b.map Prod.fst).Nodup) (k : Int) :
    (mulDicts a b).get? k = (a.get? k).bind fun x => (b.get? k).map fun y => x *ₚ y := by
  rw [mulDicts_eq ha hb]
  clear ha hb
  induction a with
  | nil => rfl
  | cons p a ih =>
    obtain ⟨k', x⟩ := p
    rw [List.filterMap_cons]
    cases hb : b.get? k' with
    | none =>
      simp only [Option.map_none]
      rw [ih, Dict.get?_cons]
      split
      · rename_i h; subst h; simp [hb]
      · rfl
    | some y =>
      simp only [Option.map_some]
      rw [Dict.get?_cons, ih, Dict.get?_cons]
      split
      · rename_i h; subst h; simp [hb]
      · rfl

theorem validRow_mulDicts {w : Nat} {a b : Dict Int F} (ha : ValidRow w a) (hb : ValidRow w b) :
    ValidRow w (mulDicts a b) := by
  have hsub : ∀ p ∈ mulDicts a b, p.1 ∈ a.map Prod.fst := by
    intro p hp
    rw [mulDicts_eq ha.1 hb.1] at hp
    obtain ⟨q, hq, hqp⟩ := List.mem_filterMap.1 hp
    cases hg : b.get? q.1 with
    | none => rw [hg] at hqp; cases hqp
    | some v =>
      rw [hg] at hqp
      simp only [Option.map_some, Option.some.injEq] at hqp
      subst hqp
      exact List.mem_map.2 ⟨q, hq, rfl⟩
  refine ⟨Dict.nodup_keys_ofList _, ?_⟩
  intro p hp
  obtain ⟨q, hq, hqp⟩ := List.mem_map.1 (hsub p hp)
  rw [← hqp]
  exact ha.2 q hq

/-- **C53**, sparse and dense agree (exact arithmetic): the sparse product denotes the entrywise
product of the dense matrices. -/
theorem C53_matmult_sparse (w : Nat) (as bs : List (Dict Int ℝ)) (ha : ∀ d ∈ as, ValidRow w d)
    (hb : ∀ d ∈ bs, ValidRow w d) (hne : as ≠ []) (hlen : as.length = bs.length) (dt dt' : DType) :
    ∃ cs : List (Dict Int Ex), matmultSameDim (.sparse (as.map finD) (some w) dt) (.sparse (bs.map finD) (some w) dt') =
      .ok (.sparse cs (some w) dt) ∧ (∀ d ∈ cs, ValidRow w d) ∧
      cs.map (dense (.fin 0) w) = List.zipWith (fun a b => fins (List.zipWith (· * ·) (dense 0 w a) (dense 0 w b))) as bs := by
  have hbne : bs ≠ [] := by
    rintro rfl
    simp at hlen
    exact hne hlen
  refine ⟨List.zipWith mulDicts (as.map finD) (bs.map finD), ?_, ?_, ?_⟩
  · have hz : List.zipWith mulDicts (as.map finD) (bs.map finD) ≠ [] := by
      intro h
      have := congrArg List.length h
      simp [hlen] at this
      exact hbne this
    obtain ⟨a, as', rfl⟩ := List.exists_cons_of_ne_nil hne
    obtain ⟨b, bs', rfl⟩ := List.exists_cons_of_ne_nil hbne
    have hl : as'.length = bs'.length := by simpa using hlen
    simp only [List.map_cons] at hz ⊢
    simp only [matmultSameDim, shape_sparse_cons, py_ok_bind, List.length_map, hl, bne_self_eq_false,
      Bool.false_eq_true, if_false, Arr.issparse]
    exact sparseList_dicts hz _ _
  · intro d hd
    rw [List.zipWith_map_left, List.zipWith_map_right] at hd
    obtain ⟨i, hi, rfl⟩ := List.mem_iff_getElem.1 hd
    simp only [List.getElem_zipWith]
    exact validRow_mulDicts (finD_valid (ha _ (List.getElem_mem _))) (finD_valid (hb _ (List.getElem_mem _)))
  · rw [List.zipWith_map_left, List.zipWith_map_right, List.map_zipWith]
    apply List.ext_getElem
    · simp
    · intro i h1 h2
      have hia : i < as.length := by simp at h1; omega
      have hib : i < bs.length := by simp at h1; omega
      simp only [List.getElem_zipWith]
      have hva := finD_valid (ha _ (List.getElem_mem hia))
      have hvb := finD_valid (hb _ (List.getElem_mem hib))
      apply List.ext_getElem
      · simp [dense]
      · intro j h3 h4
        have hj : j < w := by simpa [dense] using h3
        simp only [dense, List.getElem_map, List.getElem_range, fins_def, List.getElem_zipWith]
        rw [entry_eq_get?, get?_mulDicts hva.1 hvb.1]
        have hea := entry_finD as[i] j
        have heb := entry_finD bs[i] j
        rw [entry_eq_get?] at hea heb
        cases hga : (finD as[i]).get? (j : Int) with
        | none =>
          rw [hga] at hea
          have : entry 0 as[i] j = 0 := (XR.fin_inj.1 hea).symm
          simp [this]
        | some x =>
          rw [hga] at hea
          have hx : x = .fin (entry 0 as[i] j) := hea
          cases hgb : (finD bs[i]).get? (j : Int) with
          | none =>
            rw [hgb] at heb
            have : entry 0 bs[i] j = 0 := (XR.fin_inj.1 heb).symm
            simp [this]
          | some y =>
            rw [hgb] at heb
            have hy : y = .fin (entry 0 bs[i] j) := heb
            simp [hx, hy]

/-- Different shapes, or one sparse and one dense matrix, raise `ValueError`. -/
theorem C53_matmult_errors (A B : Arr F) (s t : Shape) (hs : A.shape = .ok s) (ht : B.shape = .ok t)
    (h : s ≠ t ∨ A.issparse ≠ B.issparse) : matmultSameDim A B = .error .valueError := by
  simp only [matmultSameDim, hs, ht, py_ok_bind]
  by_cases hst : s = t
  · rw [if_neg (by simpa using hst), if_pos]
    simpa using h.resolve_left (by simpa using hst)
  · rw [if_pos (by simpa using hst)]

/-! ### accumu, apply_axis_2d -/

theorem accumuFrom_eq (l : List Nat) (t : Nat) :
    accumuFrom t l = (List.range l.length).map fun i => t + (l.take (i + 1)).sum := by
  induction l generalizing t with
  | nil => rfl
  | cons x l ih =>
    rw [accumuFrom, ih, List.length_cons, List.range_succ_eq_map, List.map_cons, List.map_map]
    simp [Function.comp_def, Nat.add_assoc]

/-- **C53**: `accumu` lists the prefix sums. -/
theorem C53_accumu (l : List Nat) : accumu l = (List.range l.length).map fun i => (l.take (i + 1)).sum := by
  simp [accumu, accumuFrom_eq]

/-- **C53**: `apply_axis_2d` applies the function to every row (axis 1) or column (axis 0). -/
theorem C53_apply_axis (n k : Nat) (hn : 0 < n) (f : Nat → Nat → F) (g : List F → G) :
    applyAxis2d (.ofMat (mat n k f)) (fun l => .ok (g l)) 1 =
      .ok ((List.range n).map fun i => g ((List.range k).map (f i))) ∧
    applyAxis2d (.ofMat (mat n k f)) (fun l => .ok (g l)) 0 =
      .ok ((List.range k).map fun j => g ((List.range n).map fun i => f i j)) := by
  constructor
  · rw [applyAxis2d_ofMat]
    unfold mat
    rw [mapM_map']
    exact mapM_ok_map fun i _ => rfl
  · have e : applyAxis2d (.ofMat (mat n k f)) (fun l => .ok (g l)) 0 =
        (transpose (.ofMat (mat n k f)) >>= fun T => T.mapM fun l => .ok (g l)) := rfl
    rw [e, C53_transpose n k hn, py_ok_bind]
    unfold mat
    rw [mapM_map']
    exact mapM_ok_map fun i _ => rfl

/-- On sparse rows only the stored values are passed to the function; axis 0 of a sparse matrix and
any axis other than 0 and 1 raise `ValueError`. -/
theorem C53_apply_axis_sparse (ds : List (Dict Int F)) (n : Option Nat) (dt : DType) (g : List F → Py G)
    (A : Arr F) (axis : Int) (hax : axis ≠ 0 ∧ axis ≠ 1) :
    applyAxis2d (.sparse ds n dt) g 1 = ds.mapM (fun d => g d.values) ∧
    applyAxis2d (.sparse ds n dt) g 0 = .error .valueError ∧
    applyAxis2d A g axis = .error .valueError := by
  refine ⟨rfl, rfl, ?_⟩
  simp [applyAxis2d, hax.1, hax.2]

/-- Non-vacuity. -/
example : transpose (.ofMat ([[1, 2, 3], [4, 5, 6]].map fins) : Arr Ex) =
    .ok ([[1, 4], [2, 5], [3, 6]].map fins) := by
  simp [transpose_ofMat, zipStar, minLen, List.range_succ]
example : accumu [3, 0, 4] = [3, 3, 7] := rfl

end PurePredict
