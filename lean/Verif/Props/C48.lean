import Verif.Props.C47
/-
C48: cosine distance.
-/
namespace PurePredict
open Spec

/-- The distance belonging to a similarity: `1 - s`. -/
def distOf (s : ℝ) : ℝ := 1 - s

/-- Entry (i, j) of a matrix. -/
def entryAt {α : Type} (M : List (List α)) (i j : Nat) : Option α := M[i]?.bind fun r => r[j]?

section structural
variable {F : Type} [Arith F]

theorem setDiag_entry (S : List (List F)) (v : F) (i j : Nat) :
    entryAt (setDiag S v) i j = (entryAt S i j).map fun x => if i = j then v else x := by
  simp only [entryAt, setDiag, List.getElem?_map, List.getElem?_zipIdx]
  cases S[i]? with
  | none => rfl
  | some r =>
    simp only [Option.map_some, Option.bind_some, List.getElem?_map, List.getElem?_zipIdx, Nat.zero_add]
    cases r[j]? <;> rfl

/-- **C48**, structure: `cosine_distances_pure` succeeds exactly when `cosine_similarity_pure` does,
and each entry is the clipped `-s + 1`, replaced by 0 on the diagonal when a matrix is compared
with itself.  Any arithmetic. -/
theorem C48_entry (X : Arr F) (Y : YArg F) (S : List (List F)) (h : cosineSimilarity X Y = .ok S) :
    ∃ D, cosineDistances X Y = .ok D ∧ ∀ i j, entryAt D i j = (entryAt S i j).map fun s =>
      if Y.isX = true ∧ i = j then ofInt 0 else clip (Arith.neg s +ₚ ofInt 1) (ofInt 0) (ofInt 2) := by
  have ha : apply2d (.ofMat S) (fun x : F => .ok (clip (Arith.neg x +ₚ ofInt 1) (ofInt 0) (ofInt 2))) =
      .ok (S.map fun r => r.map fun x => clip (Arith.neg x +ₚ ofInt 1) (ofInt 0) (ofInt 2)) := by
    rw [apply2d_ofMat]
    exact mapM_ok_map fun a _ => mapM_ok_map fun _ _ => rfl
  have he : ∀ i j, entryAt (S.map fun r => r.map fun x => clip (Arith.neg x +ₚ ofInt 1) (ofInt 0) (ofInt 2)) i j
      = (entryAt S i j).map fun x => clip (Arith.neg x +ₚ ofInt 1) (ofInt 0) (ofInt 2) := by
    intro i j
    simp only [entryAt, List.getElem?_map]
    cases S[i]? <;> simp
  simp only [cosineDistances, h, py_ok_bind, ha]
  refine ⟨_, rfl, ?_⟩
  intro i j
  by_cases hx : Y.isX
  · simp only [hx, if_true, setDiag_entry, he, Option.map_map, true_and]
    rfl
  · simp [hx, he]

/-- Errors are those of `cosine_similarity_pure`. -/
theorem C48_error (X : Arr F) (Y : YArg F) (e : PyErr) (h : cosineSimilarity X Y = .error e) :
    cosineDistances X Y = .error e := by simp [cosineDistances, h]

/-- **C48**, exact zeros on the diagonal, in any arithmetic. -/
theorem C48_diagonal (X : Arr F) (Y : YArg F) (hY : Y = .none ∨ Y = .same) (D : List (List F))
    (h : cosineDistances X Y = .ok D) (i : Nat) : ∀ d, entryAt D i i = some d → d = ofInt 0 := by
  have hx : Y.isX = true := by rcases hY with rfl | rfl <;> rfl
  cases hS : cosineSimilarity X Y with
  | error e => rw [C48_error X Y e hS] at h; cases h
  | ok S =>
    obtain ⟨D', hD, he⟩ := C48_entry X Y S hS
    rw [hD] at h
    cases h
    intro d hd
    rw [he] at hd
    cases hs : entryAt S i i with
    | none => rw [hs] at hd; cases hd
    | some s => rw [hs] at hd; simp [hx] at hd; exact hd.symm
end structural

/-- Clipping: any number that is not NaN lands in [0, 2]. -/
theorem clip_range {fp : FP} (hs : fp.Sound) (h2 : (ofInt 2 : XR fp) = .fin 2) (x : XR fp) :
    clip x (ofInt 0) (ofInt 2) = .nan ∧ x = .nan ∨
      ∃ r : ℝ, clip x (ofInt 0) (ofInt 2) = .fin r ∧ 0 ≤ r ∧ r ≤ 2 := by
  rw [XR.ofInt_zero hs, h2]
  cases x with
  | nan => left; exact ⟨rfl, rfl⟩
  | pinf => right; exact ⟨2, rfl, by norm_num, le_refl _⟩
  | ninf => right; exact ⟨0, rfl, le_refl _, by norm_num⟩
  | fin r =>
    right
    simp only [clip, XR.lt_fin]
    by_cases h0 : r < 0
    · exact ⟨0, by simp [h0], le_refl _, by norm_num⟩
    · by_cases h3 : 2 < r
      · exact ⟨2, by simp [h0, h3], by norm_num, le_refl _⟩
      · exact ⟨r, by simp [h0, h3], not_lt.1 h0, not_lt.1 h3⟩

/-- **C48** under rounding: in every sound floating point arithmetic that has the number 2, every
distance is in [0, 2] — whatever rounding did to the similarities — unless the similarity is NaN. -/
theorem C48_range_rounded (fp : FP) (hs : fp.Sound) (h2 : (ofInt 2 : XR fp) = .fin 2) (X : Arr (XR fp))
    (Y : YArg (XR fp)) (S D : List (List (XR fp))) (hS : cosineSimilarity X Y = .ok S)
    (hD : cosineDistances X Y = .ok D) (i j : Nat) (d : XR fp) (h : entryAt D i j = some d) :
    (∃ r : ℝ, d = .fin r ∧ 0 ≤ r ∧ r ≤ 2) ∨ d = .nan ∧ entryAt S i j = some .nan := by
  obtain ⟨D', hD', he⟩ := C48_entry X Y S hS
  rw [hD'] at hD
  cases hD
  rw [he] at h
  cases hs' : entryAt S i j with
  | none => rw [hs'] at h; cases h
  | some s =>
    rw [hs'] at h
    simp only [Option.map_some, Option.some.injEq] at h
    split at h
    · left
      exact ⟨0, by rw [← h, XR.ofInt_zero hs], le_refl _, by norm_num⟩
    · rcases clip_range hs h2 (Arith.neg s +ₚ ofInt 1) with ⟨h3, h4⟩ | ⟨r, h3, h4, h5⟩
      · right
        refine ⟨by rw [← h, h3], ?_⟩
        rw [XR.ofInt_one hs] at h4
        cases s with
        | nan => rfl
        | pinf => cases h4
        | ninf => cases h4
        | fin r =>
          exfalso
          have : (XR.round (-r + 1) : XR fp) = .nan := h4
          unfold XR.round XR.ofEReal at this
          split at this
          · cases this
          · split at this <;> cases this
      · left
        exact ⟨r, by rw [← h, h3], h4, h5⟩

/-- **C48**, exact arithmetic: the distance is `1 - cosine`, which needs no clipping, and 0 on the
diagonal when a matrix is compared with itself. -/
theorem C48_exact (w : Nat) (R S : List (List ℝ)) (hR : R ≠ []) (hS : S ≠ []) (hw : Rect w R)
    (hv : Rect w S) :
    cosineDistances (.ofMat (R.map fins) : Arr Ex) (.other (.ofMat (S.map fins))) =
      .ok ((R.map fun x => S.map fun y => distOf (cosine x y)).map fins) := by
  have h := C47_dense w R S hR hS hw hv
  simp only [cosineDistances, h, py_ok_bind, YArg.isX, apply2d_ofMat, mapM_map', cosines]
  rw [mapM_ok_map (g := fun x => fins (S.map fun y => distOf (cosine x y)))]
  · simp [fins_def, Function.comp]
  · intro x _
    simp only [fins_def, List.map_map, mapM_map']
    apply mapM_ok_map
    intro y _
    have hb := C47_spec_bounds x y
    simp only [Function.comp, clip, XR.neg_fin, XR.ofInt_exact, XR.add_exact, XR.lt_fin, distOf]
    rw [if_neg, if_neg]
    · congr 2; push_cast; ring
    · simp; linarith
    · simp; linarith

/-- **C48**, exact arithmetic, matrix against itself. -/
theorem C48_exact_self (w : Nat) (R : List (List ℝ)) (hR : R ≠ []) (hw : Rect w R) (Y : YArg Ex)
    (hY : Y = .none ∨ Y = .same) :
    ∃ D, cosineDistances (.ofMat (R.map fins) : Arr Ex) Y = .ok D ∧
      ∀ i j, entryAt D i j = (entryAt (cosines R R) i j).map fun s =>
        .fin (if i = j then 0 else distOf s) := by
  obtain ⟨D, hD, he⟩ := C48_entry _ _ _ (C47_self w R hR hw Y hY)
  refine ⟨D, hD, ?_⟩
  intro i j
  have hx : Y.isX = true := by rcases hY with rfl | rfl <;> rfl
  rw [he]
  have e : entryAt ((cosines R R).map fins) i j = (entryAt (cosines R R) i j).map XR.fin := by
    simp only [entryAt, List.getElem?_map]
    cases (cosines R R)[i]? <;> simp [fins_def]
  rw [e, Option.map_map]
  cases hc : entryAt (cosines R R) i j with
  | none => rfl
  | some s =>
    have hb : -1 ≤ s ∧ s ≤ 1 := by
      simp only [entryAt] at hc
      obtain ⟨r, hr, hs⟩ := Option.bind_eq_some_iff.1 hc
      exact C47_bounds R R r (List.mem_of_getElem? hr) s (List.mem_of_getElem? hs)
    simp only [Option.map_some, Function.comp, hx, true_and, Option.some.injEq]
    by_cases hij : i = j
    · simp [hij]
    · simp only [hij, if_false, clip, XR.neg_fin, XR.ofInt_exact, XR.add_exact, XR.lt_fin, distOf]
      rw [if_neg, if_neg]
      · congr 1; push_cast; ring
      · simp; linarith
      · simp; linarith

/-- Non-vacuity: opposite vectors are at distance 2; exact arithmetic is sound and has a 2. -/
example : cosineDistances (.ofMat ([[1]].map fins) : Arr Ex) (.other (.ofMat ([[-1]].map fins))) =
    .ok ([[2]].map fins) := by
  rw [C48_exact 1 _ _ (by simp) (by simp) (by intro r hr; simp at hr; subst hr; rfl)
    (by intro r hr; simp at hr; subst hr; rfl)]
  have h1 : len2 [1] = 1 := by simp [len2, inner]
  have h2 : len2 [-1] = 1 := by simp [len2, inner]
  have : distOf (cosine [1] [-1]) = 2 := by
    simp only [cosine, h1, h2, distOf, inner]
    norm_num
  simp [this]
example : FP.exact.Sound ∧ (ofInt 2 : Ex) = .fin 2 := ⟨FP.exact_sound, by simp⟩

end PurePredict
