import Verif.Lemmas.Encode
import Verif.Lemmas.XR
/-
C29: ordinal encoding.
-/
namespace PurePredict
open Spec
variable {C : Type} [DecidableEq C]

theorem eq_range_map {α : Type} (l : List α) (d : α) : l = (List.range l.length).map fun i => l.getD i d := by
  apply List.ext_getElem
  · simp
  · intro i h1 h2
    simp [h1]

/-- Facts about a fitted encoder with `w` features. -/
def Encoder.Fitted (e : Encoder C) (w : Nat) : Prop :=
  e.categories.length = w ∧ ∀ ks ∈ e.categories, ks.Nodup ∧ ks ≠ []

theorem Encoder.Fitted.fn {e : Encoder C} {w : Nat} (h : e.Fitted w) :
    e.categories = (List.range w).map (fun i => e.categories.getD i []) ∧
      (∀ i < w, (e.categories.getD i []).Nodup) ∧ ∀ i < w, e.categories.getD i [] ≠ [] := by
  obtain ⟨rfl, h2⟩ := h
  have hm : ∀ i < e.categories.length, e.categories.getD i [] ∈ e.categories := by
    intro i hi
    rw [List.getD_eq_getElem?_getD, List.getElem?_eq_getElem hi]
    exact List.getElem_mem hi
  exact ⟨eq_range_map _ _, fun i hi => (h2 _ (hm i hi)).1, fun i hi => (h2 _ (hm i hi)).2⟩

/-- The codes of a record. -/
def codes (cats : List (List C)) (x : List C) : List Nat := List.zipWith codeOf cats x

theorem known_iff {cats : List (List C)} {x : List C} {w : Nat} (hc : cats.length = w)
    (hx : x.length = w) (d : C) : Known cats x ↔ ∀ i < w, x.getD i d ∈ cats.getD i [] := by
  constructor
  · intro h i hi
    have h1 : i < x.length := by omega
    have h2 : i < cats.length := by omega
    have := h i x[i] cats[i] (List.getElem?_eq_getElem h1) (List.getElem?_eq_getElem h2)
    simpa [List.getD_eq_getElem?_getD, h1, h2] using this
  · intro h i v ks hv hks
    have h1 : i < x.length := (List.getElem?_eq_some_iff.1 hv).1
    have := h i (by omega)
    simpa [List.getD_eq_getElem?_getD, hv, hks] using this

theorem codes_eq {cats : List (List C)} {x : List C} {w : Nat} (hc : cats.length = w)
    (hx : x.length = w) (d : C) :
    codes cats x = (List.range w).map fun i => codeOf (cats.getD i []) (x.getD i d) := by
  apply List.ext_getElem
  · simp [codes, hc, hx]
  · intro i h1 h2
    have hi : i < w := by simpa using h2
    simp [codes, List.getD_eq_getElem?_getD, show i < cats.length by omega,
      show i < x.length by omega]

theorem codes_decode {cats : List (List C)} {x : List C} (hl : cats.length = x.length)
    (hk : Known cats x) : Decodes cats (codes cats x) x := by
  refine ⟨by simp [codes, hl], hl, ?_⟩
  intro i v hv
  have hi : i < x.length := (List.getElem?_eq_some_iff.1 hv).1
  have hi' : i < cats.length := by omega
  have hmem := hk i v cats[i] hv (List.getElem?_eq_getElem hi')
  have hx : x[i] = v := by rw [List.getElem?_eq_getElem hi] at hv; exact Option.some.inj hv
  refine ⟨cats[i], codeOf cats[i] v, List.getElem?_eq_getElem hi', ?_, ?_⟩
  · simp [codes, List.getElem?_zipWith, List.getElem?_eq_getElem hi', List.getElem?_eq_getElem hi, hx]
  · rw [codeOf, if_pos hmem]
    exact List.getElem?_idxOf hmem

/-- Every rectangular matrix with a column is a `mat`. -/
theorem rect_eq_mat {R : List (List C)} {w : Nat} (hw : Rect w R) (d : C) :
    R = mat R.length w fun j i => (R.getD j []).getD i d := eq_mat hw d

/-- **C29**, codes: every value is replaced by (the `dtype` of) the position at which its column's
categories list it; decoding the positions recovers the record. -/
theorem C29_ordinal {F : Type} [Arith F] [Inhabited C] (e : Encoder C) (w : Nat) (he : e.Fitted w)
    (R : List (List C)) (hR : R ≠ []) (hw : Rect w R) (hk : ∀ x ∈ R, Known e.categories x) :
    e.ordinal (F := F) (.ofMat R) =
        (R.map fun x => (codes e.categories x).map fun (k : Nat) => (ofInt (k : Int) : F)).mapM
          (fun r => r.mapM (castTo e.dtype)) ∧
      ∀ x ∈ R, Decodes e.categories (codes e.categories x) x := by
  refine ⟨?_, fun x hx => codes_decode (by rw [he.1, hw x hx]) (hk x hx)⟩
  obtain ⟨h1, h2, h3⟩ := he.fn
  have hpos : 0 < R.length := List.length_pos_of_ne_nil hR
  have hR' := rect_eq_mat hw (default : C)
  have hkn : ∀ j < R.length, ∀ i < w, (R.getD j []).getD i default ∈ e.categories.getD i [] := by
    intro j hj i hi
    have hm : R.getD j [] ∈ R := by
      rw [List.getD_eq_getElem?_getD, List.getElem?_eq_getElem hj]; exact List.getElem_mem hj
    exact (known_iff he.1 (hw _ hm) default).1 (hk _ hm) i hi
  have ht := transform_ok e true hpos (fun j i => (R.getD j []).getD i default)
    (fun i => e.categories.getD i []) h1 h2 h3 (fun _ => hkn)
  rw [← hR'] at ht
  have hcodes : mat R.length w (fun j i => codeOf (e.categories.getD i []) ((R.getD j []).getD i default)) =
      R.map (codes e.categories) := by
    unfold mat
    conv_rhs => rw [eq_range_map R []]
    rw [List.map_map]
    apply List.map_congr_left
    intro j hj
    have hj := List.mem_range.1 hj
    have hm : R.getD j [] ∈ R := by
      rw [List.getD_eq_getElem?_getD, List.getElem?_eq_getElem hj]; exact List.getElem_mem hj
    exact (codes_eq he.1 (hw _ hm) default).symm
  rw [hcodes] at ht
  simp only [Encoder.ordinal, ht, py_ok_bind, List.map_map, apply2d_ofMat]
  rfl

/-- In exact arithmetic with an int or float `dtype` the result is the codes themselves. -/
theorem C29_ordinal_exact [Inhabited C] (e : Encoder C) (w : Nat) (he : e.Fitted w)
    (hdt : e.dtype ≠ .bool) (R : List (List C)) (hR : R ≠ []) (hw : Rect w R)
    (hk : ∀ x ∈ R, Known e.categories x) :
    ∃ K : List (List Nat), e.ordinal (F := Ex) (.ofMat R) =
        .ok (K.map fun r => r.map fun (k : Nat) => .fin (k : ℝ)) ∧
      List.Forall₂ (Decodes e.categories) K R := by
  obtain ⟨h1, h2⟩ := C29_ordinal (F := Ex) e w he R hR hw hk
  refine ⟨R.map (codes e.categories), ?_, ?_⟩
  · rw [h1, mapM_map', List.map_map]
    apply mapM_ok_map
    intro x _
    simp only [Function.comp]
    rw [mapM_map']
    apply mapM_ok_map
    intro k _
    have hdt' : e.dtype = .int ∨ e.dtype = .float := by
      cases h : e.dtype
      · exact .inl rfl
      · exact .inr rfl
      · exact absurd h hdt
    rcases hdt' with h | h
    · rw [h]
      show XR.trunc (ofInt (k : Int) : Ex) = _
      rw [XR.ofInt_exact]
      simp [XR.trunc]
    · rw [h]
      simp [castTo]
  · rw [List.forall₂_map_left_iff]
    exact List.forall₂_same.2 h2

/-- **C29**: an unseen value raises ValueError, whatever else is in the batch. -/
theorem C29_unknown {F : Type} [Arith F] (e : Encoder C) (w : Nat) (he : e.Fitted w)
    (R : List (List C)) (hw : Rect w R) (hk : ∃ x ∈ R, ¬ Known e.categories x) :
    e.ordinal (F := F) (.ofMat R) = .error .valueError := by
  obtain ⟨x, hx, hnk⟩ := hk
  have hR : R ≠ [] := List.ne_nil_of_mem hx
  obtain ⟨h1, h2, h3⟩ := he.fn
  have hpos : 0 < R.length := List.length_pos_of_ne_nil hR
  -- an unknown value exists, so `C` is inhabited
  obtain ⟨d⟩ : Nonempty C := by
    unfold Known at hnk
    push Not at hnk
    obtain ⟨i, v, _⟩ := hnk
    exact ⟨v⟩
  have hR' := rect_eq_mat hw d
  rw [known_iff he.1 (hw x hx) d] at hnk
  push Not at hnk
  obtain ⟨i, hi, hni⟩ := hnk
  obtain ⟨j, hj, hjx⟩ := List.getElem_of_mem hx
  have ht := transform_error e hpos (fun j i => (R.getD j []).getD i d)
    (fun i => e.categories.getD i []) h1 h2 ⟨j, hj, i, hi, by
      have : R.getD j [] = x := by simp [List.getD_eq_getElem?_getD, hj, hjx]
      rw [this]; exact hni⟩
  rw [← hR'] at ht
  simp only [Encoder.ordinal, ht, py_error_bind]

/-- **C29**: records with the wrong number of features raise ValueError. -/
theorem C29_width {F : Type} [Arith F] (e : Encoder C) (w : Nat) (R : List (List C)) (hR : R ≠ [])
    (hw : Rect w R) (h : w ≠ e.categories.length) (d : C) :
    e.ordinal (F := F) (.ofMat R) = .error .valueError := by
  have hpos : 0 < R.length := List.length_pos_of_ne_nil hR
  have hc := checkX_mat hpos (w := w) (fun j i => (R.getD j []).getD i d)
  rw [← rect_eq_mat hw d] at hc
  simp only [Encoder.ordinal, Encoder.transform_, hc, py_ok_bind, h, ne_eq, not_false_eq_true,
    if_true, py_error_bind]

/-- Non-vacuity: two features with categories [10, 20] and [5]. -/
example : ∃ K : List (List Nat), (⟨[[10, 20], [5]], .float, false, true⟩ : Encoder Nat).ordinal (F := Ex)
      (.ofMat [[20, 5], [10, 5]]) = .ok (K.map fun r => r.map fun (k : Nat) => .fin (k : ℝ)) ∧
    List.Forall₂ (Decodes [[10, 20], [5]]) K [[20, 5], [10, 5]] := by
  apply C29_ordinal_exact _ 2
  · refine ⟨rfl, ?_⟩
    intro ks hks
    simp at hks
    rcases hks with rfl | rfl <;> simp
  · simp
  · simp
  · intro r hr; simp at hr; rcases hr with rfl | rfl <;> rfl
  · intro x hx i v ks hv hks
    match i with
    | 0 => simp at hx hks; rcases hx with rfl | rfl <;> simp at hv <;> subst hv <;> subst hks <;> simp
    | 1 => simp at hx hks; rcases hx with rfl | rfl <;> simp at hv <;> subst hv <;> subst hks <;> simp
    | i + 2 => simp at hks
example : codes [[10, 20], [5]] [20, 5] = [1, 0] := by decide

end PurePredict
