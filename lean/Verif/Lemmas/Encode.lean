import Verif.Spec.Encode
import Verif.Model.Encoders
import Verif.Lemmas.Mat
import Verif.Lemmas.Sparse
/-
Encoders.
-/
namespace PurePredict
open Spec
variable {C : Type} [DecidableEq C]

/-- The integer code of a value: its position, or 0 if unknown. -/
def codeOf (cats : List C) (v : C) : Nat := if v ∈ cats then cats.idxOf v else 0

theorem zipIdx_map_fst {α : Type} (l : List α) (k : Nat) : (l.zipIdx k).map Prod.fst = l := by
  induction l generalizing k with
  | nil => rfl
  | cons a l ih => simp [List.zipIdx_cons, ih]

theorem get?_zipIdx (cats : List C) (v : C) (k : Nat) :
    Dict.get? (cats.zipIdx k : Dict C Nat) v = if v ∈ cats then some (k + cats.idxOf v) else none := by
  induction cats generalizing k with
  | nil => rfl
  | cons c cats ih =>
    rw [List.zipIdx_cons, Dict.get?_cons, ih]
    by_cases h : c = v
    · subst h; simp
    · have h' : ¬ v = c := fun e => h e.symm
      simp only [h, if_false, List.mem_cons, h', false_or]
      rw [List.idxOf_cons_ne _ h]
      split
      · congr 1; omega
      · rfl

theorem encodeTable_get? {cats : List C} (h : cats.Nodup) (v : C) :
    (encodeTable cats).get? v = if v ∈ cats then some (cats.idxOf v) else none := by
  unfold encodeTable
  rw [Dict.ofList_eq_self (by rw [show (fun x : C × Nat => x.1) = Prod.fst from rfl, zipIdx_map_fst]; exact h),
    get?_zipIdx]
  simp

theorem mask_eq (values cats : List C) :
    checkUnknownMask values cats = values.map fun v => decide (v ∈ cats) := by
  unfold checkUnknownMask
  split
  · rename_i h
    rw [List.all_eq_true] at h
    apply List.map_congr_left
    intro v hv
    have := h v hv
    simpa using this.symm
  · apply List.map_congr_left
    intro v _
    simp

theorem encodeValues_ok {cats : List C} (h : cats.Nodup) {values : List C}
    (hk : ∀ v ∈ values, v ∈ cats) : encodeValues values cats = .ok (values.map (codeOf cats)) := by
  apply mapM_ok_map
  intro v hv
  rw [encodeTable_get? h, if_pos (hk v hv), codeOf, if_pos (hk v hv)]

theorem setColumn_mat {α : Type} (n w i : Nat) (g : Nat → Nat → α) (c : Nat → α) :
    setColumn (mat n w g) i w n ((List.range n).map c) =
      .ok (mat n w fun j idx => if idx = i then c j else g j idx) := by
  unfold setColumn
  apply range_mapM
  intro j hj
  apply range_mapM
  intro idx hidx
  by_cases h : idx = i
  · rw [if_pos h, pyGet_lt (by simpa using hj)]; simp [h]
  · rw [if_neg h, pyGet_lt (by simpa using hj), py_ok_bind, mat_getElem hj,
      pyGet_lt (by simpa using hidx)]
    simp [h]

/-- One column: codes and mask, or ValueError if an unknown category is an error. -/
theorem column_step {cats : List C} (hn : cats.Nodup) (hne : cats ≠ []) (Xi : List C) :
    (do
      let Xi' ← (List.zip Xi (Xi.map fun v => decide (v ∈ cats))).mapM fun (p : C × Bool) =>
          if p.2 then (pure p.1 : Py C) else pyGet cats 0
      encodeValues Xi' cats) = .ok (Xi.map (codeOf cats)) := by
  obtain ⟨c, cs, rfl⟩ := List.exists_cons_of_ne_nil hne
  have hz : List.zip Xi (Xi.map fun v => decide (v ∈ c :: cs)) =
      Xi.map fun v => (v, decide (v ∈ c :: cs)) := by
    conv_lhs => rw [← List.map_id Xi, List.map_map]
    rw [List.zip_map']
    rfl
  rw [hz, mapM_map', mapM_ok_map (g := fun v => if v ∈ c :: cs then v else c), py_ok_bind,
    encodeValues_ok hn, List.map_map]
  · congr 1
    apply List.map_congr_left
    intro v _
    simp only [Function.comp, codeOf]
    split
    · rename_i h; simp [h]
    · simp
  · intro v hv
    obtain ⟨u, _, rfl⟩ := List.mem_map.1 hv
    split <;> simp_all
  · intro v _
    by_cases h : v ∈ c :: cs
    · simp only [h, decide_true, if_true]; rfl
    · simp only [h, decide_false, Bool.false_eq_true, if_false, pyGet_zero_cons]

variable (e : Encoder C)

/-- The loop, columns `i0, i0+1, …`. -/
theorem transformLoop_ok (u : Bool) (n w : Nat) (f : Nat → Nat → C) (K : Nat → List C)
    (hc : e.categories = (List.range w).map K) (hn : ∀ i < w, (K i).Nodup) (hne : ∀ i < w, K i ≠ [])
    (hu : u = true → ∀ j < n, ∀ i < w, f j i ∈ K i) (k i0 : Nat) (hk : i0 + k = w)
    (xi : Nat → Nat → Nat) (xm : Nat → Nat → Bool) :
    e.transformLoop u ((List.range w).map fun i => (List.range n).map fun j => f j i) n w
      (List.range' i0 k) (mat n w xi) (mat n w fun j idx => if i0 ≤ idx then true else xm j idx) =
    .ok (mat n w fun j idx => if i0 ≤ idx then codeOf (K idx) (f j idx) else xi j idx,
      mat n w fun j idx => if i0 ≤ idx then decide (f j idx ∈ K idx) else xm j idx) := by
  induction k generalizing i0 xi xm with
  | zero =>
    have : i0 = w := by omega
    subst this
    simp only [List.range'_zero, Encoder.transformLoop]
    congr 2
    · apply mat_congr; intro j _ idx hidx; rw [if_neg (by omega)]
    · apply mat_congr; intro j _ idx hidx; rw [if_neg (by omega), if_neg (by omega)]
  | succ k ih =>
    have hi : i0 < w := by omega
    rw [List.range'_succ]
    unfold Encoder.transformLoop
    have h1 : pyGet ((List.range w).map fun i => (List.range n).map fun j => f j i) (i0 : Int) =
        .ok ((List.range n).map fun j => f j i0) := by
      rw [pyGet_lt (by simpa using hi)]; simp
    have h2 : pyGet e.categories (i0 : Int) = .ok (K i0) := by
      rw [hc, pyGet_lt (by simpa using hi)]; simp
    simp only [h1, h2, py_ok_bind, mask_eq]
    by_cases hall : ∀ j < n, f j i0 ∈ K i0
    · have ha : (((List.range n).map fun j => f j i0).map fun v => decide (v ∈ K i0)).all id = true := by
        rw [List.all_eq_true]
        intro b hb
        simp only [List.map_map, List.mem_map, List.mem_range, Function.comp] at hb
        obtain ⟨j, hj, rfl⟩ := hb
        simpa using hall j hj
      simp only [ha, if_true, py_pure, py_ok_bind]
      rw [encodeValues_ok (hn i0 hi) (by
        intro v hv
        simp only [List.mem_map, List.mem_range] at hv
        obtain ⟨j, hj, rfl⟩ := hv
        exact hall j hj), List.map_map, py_ok_bind]
      rw [show ((List.range n).map (codeOf (K i0) ∘ fun j => f j i0)) =
        (List.range n).map fun j => codeOf (K i0) (f j i0) from rfl, setColumn_mat, py_ok_bind]
      have e1 : (mat n w fun j idx => if i0 ≤ idx then true else xm j idx) =
          mat n w fun j idx => if i0 + 1 ≤ idx then true
            else if idx = i0 then decide (f j i0 ∈ K i0) else xm j idx := by
        apply mat_congr
        intro j hj idx _
        by_cases h3 : i0 + 1 ≤ idx
        · rw [if_pos (by omega), if_pos h3]
        · by_cases h4 : idx = i0
          · subst h4; simp [hall j hj]
          · rw [if_neg (by omega), if_neg h3, if_neg h4]
      rw [e1, ih (i0 + 1) (by omega)]
      congr 2
      · apply mat_congr
        intro j hj idx _
        by_cases h3 : i0 + 1 ≤ idx
        · have h5 : i0 ≤ idx := by omega
          simp only [h3, h5, if_true]
        · by_cases h4 : idx = i0
          · subst h4; simp
          · have h5 : ¬ i0 ≤ idx := by omega
            simp only [h3, h4, h5, if_false]
      · apply mat_congr
        intro j hj idx _
        by_cases h3 : i0 + 1 ≤ idx
        · have h5 : i0 ≤ idx := by omega
          simp only [h3, h5, if_true]
        · by_cases h4 : idx = i0
          · subst h4; simp
          · have h5 : ¬ i0 ≤ idx := by omega
            simp only [h3, h4, h5, if_false]
    · have hu' : u = false := by
        cases u with
        | false => rfl
        | true => exact absurd (fun j hj => hu rfl j hj i0 hi) hall
      have ha : (((List.range n).map fun j => f j i0).map fun v => decide (v ∈ K i0)).all id = false := by
        rw [← Bool.not_eq_true, List.all_eq_true]
        intro h
        apply hall
        intro j hj
        have := h (decide (f j i0 ∈ K i0)) (by
          simp only [List.map_map, List.mem_map, List.mem_range, Function.comp]
          exact ⟨j, hj, rfl⟩)
        simpa using this
      have hsc := setColumn_mat n w i0 (fun j idx => if i0 ≤ idx then true else xm j idx)
        (fun j => decide (f j i0 ∈ K i0))
      have hmm : ((List.range n).map fun j => f j i0).map (fun v => decide (v ∈ K i0)) =
          (List.range n).map fun j => decide (f j i0 ∈ K i0) := by rw [List.map_map]; rfl
      have hcs := column_step (hn i0 hi) (hne i0 hi) ((List.range n).map fun j => f j i0)
      obtain ⟨Xi', hXi, henc⟩ := bind_ok_iff.1 hcs
      simp only [ha, Bool.false_eq_true, if_false, hu']
      rw [hmm, hsc, py_ok_bind]
      rw [hmm] at hXi
      rw [hXi, py_ok_bind, py_pure, py_ok_bind]
      simp only [henc, py_ok_bind]
      rw [List.map_map, show ((List.range n).map (codeOf (K i0) ∘ fun j => f j i0)) =
        (List.range n).map fun j => codeOf (K i0) (f j i0) from rfl, setColumn_mat, py_ok_bind]
      have e1 : (mat n w fun j idx => if idx = i0 then decide (f j i0 ∈ K i0)
          else if i0 ≤ idx then true else xm j idx) =
          mat n w fun j idx => if i0 + 1 ≤ idx then true
            else if idx = i0 then decide (f j i0 ∈ K i0) else xm j idx := by
        apply mat_congr
        intro j hj idx _
        by_cases h3 : i0 + 1 ≤ idx
        · rw [if_neg (by omega), if_pos (by omega), if_pos h3]
        · by_cases h4 : idx = i0
          · subst h4; simp
          · rw [if_neg h4, if_neg (by omega), if_neg h3, if_neg h4]
      rw [e1]
      have := ih (i0 + 1) (by omega) (fun j idx => if idx = i0 then codeOf (K i0) (f j i0) else xi j idx)
        (fun j idx => if idx = i0 then decide (f j i0 ∈ K i0) else xm j idx)
      rw [hu'] at this
      rw [this]
      congr 2
      · apply mat_congr
        intro j hj idx _
        by_cases h3 : i0 + 1 ≤ idx
        · have h5 : i0 ≤ idx := by omega
          simp only [h3, h5, if_true]
        · by_cases h4 : idx = i0
          · subst h4; simp
          · have h5 : ¬ i0 ≤ idx := by omega
            simp only [h3, h4, h5, if_false]
      · apply mat_congr
        intro j hj idx _
        by_cases h3 : i0 + 1 ≤ idx
        · have h5 : i0 ≤ idx := by omega
          simp only [h3, h5, if_true]
        · by_cases h4 : idx = i0
          · subst h4; simp
          · have h5 : ¬ i0 ≤ idx := by omega
            simp only [h3, h4, h5, if_false]

/-- The loop raises ValueError when unknown categories are errors and there is one. -/
theorem transformLoop_error (n w : Nat) (f : Nat → Nat → C) (K : Nat → List C)
    (hc : e.categories = (List.range w).map K) (hn : ∀ i < w, (K i).Nodup) (k i0 : Nat) (hk : i0 + k = w)
    (hex : ∃ j < n, ∃ i, i0 ≤ i ∧ i < w ∧ f j i ∉ K i)
    (xi : Nat → Nat → Nat) (xm : List (List Bool)) :
    e.transformLoop true ((List.range w).map fun i => (List.range n).map fun j => f j i) n w
      (List.range' i0 k) (mat n w xi) xm = .error .valueError := by
  induction k generalizing i0 xi xm with
  | zero =>
    obtain ⟨j, _, i, h1, h2, _⟩ := hex
    omega
  | succ k ih =>
    have hi : i0 < w := by omega
    rw [List.range'_succ]
    unfold Encoder.transformLoop
    have h1 : pyGet ((List.range w).map fun i => (List.range n).map fun j => f j i) (i0 : Int) =
        .ok ((List.range n).map fun j => f j i0) := by
      rw [pyGet_lt (by simpa using hi)]; simp
    have h2 : pyGet e.categories (i0 : Int) = .ok (K i0) := by
      rw [hc, pyGet_lt (by simpa using hi)]; simp
    simp only [h1, h2, py_ok_bind, mask_eq]
    by_cases hall : ∀ j < n, f j i0 ∈ K i0
    · have ha : (((List.range n).map fun j => f j i0).map fun v => decide (v ∈ K i0)).all id = true := by
        rw [List.all_eq_true]
        intro b hb
        simp only [List.map_map, List.mem_map, List.mem_range, Function.comp] at hb
        obtain ⟨j, hj, rfl⟩ := hb
        simpa using hall j hj
      simp only [ha, if_true, py_pure, py_ok_bind]
      rw [encodeValues_ok (hn i0 hi) (by
        intro v hv
        simp only [List.mem_map, List.mem_range] at hv
        obtain ⟨j, hj, rfl⟩ := hv
        exact hall j hj), List.map_map, py_ok_bind]
      rw [show ((List.range n).map (codeOf (K i0) ∘ fun j => f j i0)) =
        (List.range n).map fun j => codeOf (K i0) (f j i0) from rfl, setColumn_mat, py_ok_bind]
      apply ih (i0 + 1) (by omega)
      obtain ⟨j, hj, i, q1, q2, q3⟩ := hex
      refine ⟨j, hj, i, ?_, q2, q3⟩
      rcases Nat.lt_or_ge i0 i with h | h
      · omega
      · have : i = i0 := by omega
        subst this
        exact absurd (hall j hj) q3
    · have ha : (((List.range n).map fun j => f j i0).map fun v => decide (v ∈ K i0)).all id = false := by
        rw [← Bool.not_eq_true, List.all_eq_true]
        intro h
        apply hall
        intro j hj
        have := h (decide (f j i0 ∈ K i0)) (by
          simp only [List.map_map, List.mem_map, List.mem_range, Function.comp]
          exact ⟨j, hj, rfl⟩)
        simpa using this
      simp only [ha, Bool.false_eq_true, if_false, if_true, py_error_bind]

theorem checkX_mat {n w : Nat} (hn : 0 < n) (f : Nat → Nat → C) :
    Encoder.checkX (.ofMat (mat n w f)) =
      .ok ((List.range w).map fun i => (List.range n).map fun j => f j i, n, w) := by
  have hck : checkArray (Arr.ofMat (mat n w f)) = .ok (.ofMat (mat n w f)) :=
    checkArray_ofMat (mat_ne_nil hn) _
  simp only [Encoder.checkX, hck, py_ok_bind, shape_ofMat (mat_ne_nil hn) (mat_rect n w f),
    mat_length, rows_ofMat]
  rw [range_mapM (g := fun i => (List.range n).map fun j => f j i)]
  · rfl
  · intro i hi
    rw [mapM_map', mat, mapM_map']
    apply mapM_ok_map
    intro j _
    simp only [Row.getItem]
    rw [pyGet_lt (by simpa using hi)]
    simp

theorem replicate_mat {α : Type} (n w : Nat) (a : α) :
    List.replicate n (List.replicate w a) = mat n w fun _ _ => a := by
  have h : ∀ (m : Nat) (β : Type) (b : β), (List.range m).map (fun _ => b) = List.replicate m b := by
    intro m β b
    rw [List.map_const', List.length_range]
  unfold mat
  rw [h, h]

theorem transform_ok (u : Bool) {n w : Nat} (hn0 : 0 < n) (f : Nat → Nat → C) (K : Nat → List C)
    (hc : e.categories = (List.range w).map K) (hn : ∀ i < w, (K i).Nodup) (hne : ∀ i < w, K i ≠ [])
    (hu : u = true → ∀ j < n, ∀ i < w, f j i ∈ K i) :
    e.transform_ (.ofMat (mat n w f)) u =
      .ok (mat n w fun j i => codeOf (K i) (f j i), mat n w fun j i => decide (f j i ∈ K i)) := by
  have hl : e.categories.length = w := by rw [hc]; simp
  simp only [Encoder.transform_, checkX_mat hn0, py_ok_bind, hl, ne_eq, not_true, if_false,
    replicate_mat]
  have := transformLoop_ok e u n w f K hc hn hne hu w 0 (by omega) (fun _ _ => 0) (fun _ _ => true)
  simp only [Nat.zero_le, if_true, ← List.range_eq_range'] at this
  exact this

theorem transform_error {n w : Nat} (hn0 : 0 < n) (f : Nat → Nat → C) (K : Nat → List C)
    (hc : e.categories = (List.range w).map K) (hn : ∀ i < w, (K i).Nodup)
    (hex : ∃ j < n, ∃ i < w, f j i ∉ K i) :
    e.transform_ (.ofMat (mat n w f)) true = .error .valueError := by
  have hl : e.categories.length = w := by rw [hc]; simp
  simp only [Encoder.transform_, checkX_mat hn0, py_ok_bind, hl, ne_eq, not_true, if_false,
    replicate_mat]
  obtain ⟨j, hj, i, hi, h⟩ := hex
  have := transformLoop_error e n w f K hc hn w 0 (by omega) ⟨j, hj, i, by omega, hi, h⟩
    (fun _ _ => 0) (mat n w fun _ _ => true)
  rw [← List.range_eq_range'] at this
  exact this

end PurePredict
