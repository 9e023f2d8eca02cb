import Verif.Lemmas.Basic
import Verif.Spec.Matrix
/-
Helper lemmas about sparse rows.
-/
namespace PurePredict
open Spec

variable {F : Type}

theorem get?_eq_find? (d : Dict Int F) (k : Int) :
    d.get? k = (d.find? fun p => p.1 = k).map Prod.snd := by
  induction d with
  | nil => rfl
  | cons p d ih =>
    rw [Dict.get?_cons, List.find?_cons, ih]
    by_cases h : p.1 = k <;> simp [h]

theorem entry_eq_get? (z : F) (d : Dict Int F) (i : Nat) :
    entry z d i = (d.get? (i : Int)).getD z := by rw [entry, get?_eq_find?]

theorem dense_length (z : F) (w : Nat) (d : Dict Int F) : (dense z w d).length = w := by
  simp [dense]

theorem dense_getElem? (z : F) {w : Nat} (d : Dict Int F) {i : Nat} (h : i < w) :
    (dense z w d)[i]? = some (entry z d i) := by
  simp [dense, h]

theorem entry_of_mem {w : Nat} {z : F} {d : Dict Int F} (hd : ValidRow w d) {k : Nat} {v : F}
    (h : ((k : Int), v) ∈ d) : entry z d k = v := by
  rw [entry_eq_get?, Dict.get?_eq_some_of_mem hd.1 h]; rfl

theorem ValidRow.mono {w w' : Nat} {d : Dict Int F} (h : ValidRow w d) (hw : w ≤ w') :
    ValidRow w' d :=
  ⟨h.1, fun p hp => ⟨(h.2 p hp).1, lt_of_lt_of_le (h.2 p hp).2 (by exact_mod_cast hw)⟩⟩

theorem ValidRow.tail {w : Nat} {p : Int × F} {d : Dict Int F} (h : ValidRow w (p :: d)) :
    ValidRow w d :=
  ⟨(List.nodup_cons.1 h.1).2, fun q hq => h.2 q (by simp [hq])⟩

theorem todense_sparse [Arith F] {ds : List (Dict Int F)} {n : Nat} {dt : DType} {z : F}
    (hz : castTo dt (ofInt 0 : F) = .ok z) :
    todense (.sparse ds (some n) dt) = .ok (.ofMat (ds.map (dense z n))) := by
  simp only [todense, hz, py_ok_bind, py_pure]
  congr 2
  apply List.map_congr_left
  intro d _
  simp only [dense]
  apply List.map_congr_left
  intro i _
  rw [entry_eq_get?]

variable [Arith F]

/-- What `sparse_list(A)` stores for a dense row. -/
def sparsePairs (r : List F) (w : Nat) : List (Int × F) :=
  (List.range w).filterMap fun (i : Nat) =>
    match r[i]? with
    | some v => if v ==ₚ ofInt 0 then none else some ((i : Int), v)
    | none => none

theorem sparsePairs_keys_sublist (r : List F) (w : Nat) :
    ((sparsePairs r w).map Prod.fst).Sublist ((List.range w).map fun (i : Nat) => (i : Int)) := by
  unfold sparsePairs
  induction List.range w with
  | nil => simp
  | cons i l ih =>
    simp only [List.filterMap_cons, List.map_cons]
    split
    · exact ih.cons _
    · rename_i b hb
      split at hb
      · split at hb
        · cases hb
        · cases hb
          exact List.Sublist.cons_cons _ ih
      · cases hb

theorem sparsePairs_nodup (r : List F) (w : Nat) : ((sparsePairs r w).map Prod.fst).Nodup :=
  (sparsePairs_keys_sublist r w).nodup (by
    apply List.Nodup.map
    · intro a b h; simpa using h
    · exact List.nodup_range)

theorem mem_sparsePairs {r : List F} {w : Nat} {p : Int × F} :
    p ∈ sparsePairs r w ↔
      ∃ i < w, p.1 = (i : Int) ∧ r[i]? = some p.2 ∧ (p.2 ==ₚ ofInt 0) = false := by
  unfold sparsePairs
  rw [List.mem_filterMap]
  constructor
  · rintro ⟨i, hi, h⟩
    cases hr : r[i]? with
    | none => rw [hr] at h; cases h
    | some v =>
      rw [hr] at h
      simp only at h
      split at h
      · cases h
      · rename_i hv
        cases h
        exact ⟨i, by simpa using hi, rfl, hr, by simpa using hv⟩
  · rintro ⟨i, hi, h1, h2, h3⟩
    refine ⟨i, by simpa using hi, ?_⟩
    rw [h2]
    simp [h3, ← h1]

theorem sparsifyRow_list {r : List F} {w : Nat} (h : w ≤ r.length) :
    sparsifyRow w (.list r) = .ok (sparsePairs r w) := by
  unfold sparsifyRow
  have : (List.range w).mapM (fun (i : Nat) => do
      let v ← (Row.list r).getItem (i : Int)
      return (if v ==ₚ ofInt 0 then none else some ((i : Int), v)))
      = .ok ((List.range w).map fun (i : Nat) => match r[i]? with
        | some v => if v ==ₚ ofInt 0 then none else some ((i : Int), v)
        | none => none) := by
    apply range_mapM
    intro i hi
    have hi' : i < r.length := by omega
    simp only [Row.getItem, pyGet_lt hi', py_ok_bind, py_pure, List.getElem?_eq_getElem hi']
  rw [this]
  simp only [py_ok_bind, py_pure]
  have h2 : (List.map (fun (i : Nat) => match r[i]? with
        | some v => if v ==ₚ ofInt 0 then none else some ((i : Int), v)
        | none => none) (List.range w)).filterMap id = sparsePairs r w := by
    rw [List.filterMap_map]; rfl
  rw [h2, Dict.ofList_eq_self (sparsePairs_nodup r w)]

theorem sparsePairs_valid (r : List F) (w : Nat) : ValidRow w (sparsePairs r w) := by
  refine ⟨sparsePairs_nodup r w, fun p hp => ?_⟩
  obtain ⟨i, hi, h1, -⟩ := mem_sparsePairs.1 hp
  rw [h1]; omega

/-- The dense row denoted by the sparsified row: zeros are replaced by `z`. -/
theorem dense_sparsePairs (r : List F) (z : F) :
    dense z r.length (sparsePairs r r.length) =
      r.map fun v => if v ==ₚ ofInt 0 then z else v := by
  apply List.ext_getElem
  · simp [dense]
  · intro i h1 h2
    have hi : i < r.length := by simpa [dense] using h1
    simp only [dense, List.getElem_map, List.getElem_range]
    rw [entry_eq_get?]
    by_cases hv : (r[i] ==ₚ ofInt 0) = true
    · rw [if_pos hv]
      have : Dict.get? (sparsePairs r r.length) (i : Int) = none := by
        rw [Dict.get?_eq_none_iff]
        intro hk
        obtain ⟨p, hp, hpk⟩ := List.mem_map.1 hk
        obtain ⟨j, hj, hj1, hj2, h3⟩ := mem_sparsePairs.1 hp
        have : j = i := by
          have : (j : Int) = i := by rw [← hj1, hpk]
          exact_mod_cast this
        subst this
        rw [List.getElem?_eq_getElem hi, Option.some.injEq] at hj2
        rw [← hj2] at h3
        rw [hv] at h3; cases h3
      rw [this]; rfl
    · rw [if_neg hv]
      have hm : ((i : Int), r[i]) ∈ sparsePairs r r.length :=
        mem_sparsePairs.2 ⟨i, hi, rfl, List.getElem?_eq_getElem hi, by simpa using hv⟩
      rw [Dict.get?_eq_some_of_mem (sparsePairs_nodup r _) hm]; rfl

theorem tosparse_ofMat {M : List (List F)} {w : Nat} (hM : M ≠ []) (hw : Rect w M) {x : F}
    (hx : pyGet (M.headD []) 0 = .ok x) :
    tosparse (.ofMat M) = .ok (.sparse (M.map fun r => sparsePairs r w) (some w)
      (Arith.typeOf x)) := by
  cases M with
  | nil => exact absurd rfl hM
  | cons r M =>
    have h1 : (Arr.ofMat (r :: M)).first = .ok (.list r) := by
      simp [Arr.first, Arr.ofMat, Arr.rows]
    have h3 : List.mapM (sparsifyRow w) ((r :: M).map Row.list) =
        .ok ((r :: M).map fun r => sparsePairs r w) := by
      rw [mapM_map']
      apply mapM_ok_map
      intro r' hr'
      exact sparsifyRow_list (le_of_eq (hw r' hr').symm)
    have hx' : (Row.list r).getItem 0 = .ok x := by simpa [Row.getItem] using hx
    simp only [tosparse, sparseList, h1, py_ok_bind, checkArray_ofMat_cons, width_ofMat hM hw,
      py_pure, hx', rows_ofMat, h3]

end PurePredict
