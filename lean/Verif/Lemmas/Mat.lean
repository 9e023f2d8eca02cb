import Verif.Model.Base
import Verif.Lemmas.Basic
import Verif.Spec.Ensemble
/-
The two-dimensional helpers of `base.py` on dense matrices.
-/
namespace PurePredict
open Spec
variable {F G : Type}

@[simp] theorem mat_length (n k : Nat) (f : Nat → Nat → F) : (mat n k f).length = n := by
  simp [mat]

theorem mat_rect (n k : Nat) (f : Nat → Nat → F) : Rect k (mat n k f) := by
  intro r hr
  obtain ⟨i, _, rfl⟩ := List.mem_map.1 hr
  simp

theorem mat_ne_nil {n k : Nat} {f : Nat → Nat → F} (hn : 0 < n) : mat n k f ≠ [] := by
  intro h
  have := congrArg List.length h
  simp at this
  omega

theorem mat_congr {n k : Nat} {f g : Nat → Nat → F} (h : ∀ i < n, ∀ j < k, f i j = g i j) :
    mat n k f = mat n k g := by
  unfold mat
  apply List.map_congr_left
  intro i hi
  apply List.map_congr_left
  intro j hj
  exact h i (List.mem_range.1 hi) j (List.mem_range.1 hj)

/-- Every rectangular matrix is given by its entries. -/
theorem eq_mat {M : List (List F)} {k : Nat} (h : Rect k M) (d : F) :
    M = mat M.length k fun i j => (M.getD i []).getD j d := by
  apply List.ext_getElem
  · simp
  · intro i h1 h2
    have hk := h M[i] (List.getElem_mem h1)
    apply List.ext_getElem
    · simp [mat, hk]
    · intro j h3 h4
      simp [mat, List.getD_eq_getElem?_getD, h1, h3]

theorem mat_getElem {n k : Nat} {f : Nat → Nat → F} {i : Nat} (hi : i < n) :
    (mat n k f)[i]'(by simpa using hi) = (List.range k).map (f i) := by
  simp [mat]

variable [Arith F]

theorem mapM_iter (M : List (List F)) : (M.map Row.list).mapM Row.iter = .ok M := by
  rw [mapM_map']
  exact (mapM_ok_map (g := id) fun _ _ => rfl).trans (by simp)

theorem apply2d_ofMat (M : List (List F)) (f : F → Py G) :
    apply2d (.ofMat M) f = M.mapM fun a => a.mapM f := by
  simp only [apply2d, issparse_ofMat, Bool.false_eq_true, if_false, rows_ofMat, py_ok_bind]
  rw [mapM_map']
  rfl

theorem applyAxis2d_ofMat (M : List (List F)) (f : List F → Py G) :
    applyAxis2d (.ofMat M) f = M.mapM f := by
  have e : (Arr.list (M.map Row.list)).rows = .ok (M.map Row.list) := rfl
  have h : applyAxis2d (.ofMat M) f =
      ((Arr.list (M.map Row.list)).rows >>= fun rs => rs.mapM fun a => do f (← a.iter)) := rfl
  rw [h, e, py_ok_bind, mapM_map']
  rfl

theorem apply2d_mat {n k : Nat} {f : Nat → Nat → F} {g : F → Py G} {h : Nat → Nat → G}
    (hg : ∀ i < n, ∀ j < k, g (f i j) = .ok (h i j)) :
    apply2d (.ofMat (mat n k f)) g = .ok (mat n k h) := by
  rw [apply2d_ofMat, mat, mapM_map']
  apply mapM_ok_map
  intro i hi
  rw [mapM_map']
  apply mapM_ok_map
  intro j hj
  exact hg i (List.mem_range.1 hi) j (List.mem_range.1 hj)

theorem operate2d_ofMat {A B : List (List F)} (f : F → F → F) {w : Nat} (hA : A ≠ []) (hB : B ≠ [])
    (hl : A.length = B.length) (hAw : Rect w A) (hBw : Rect w B) :
    operate2d (.ofMat A) (.ofMat B) f = .ok (List.zipWith (List.zipWith f) A B) := by
  simp only [operate2d, issparse_ofMat, Bool.or_self, Bool.false_eq_true, if_false,
    shape_ofMat hA hAw, shape_ofMat hB hBw, py_ok_bind, hl, bne_self_eq_false, rows_ofMat]
  rw [List.zip_map, mapM_map']
  refine (mapM_ok_map (g := fun p : List F × List F => List.zipWith f p.1 p.2) fun p _ => rfl).trans ?_
  rw [List.zip, List.map_zipWith]

theorem zipWith_mat {f g : Nat → Nat → F} {op : F → F → F} (n k : Nat) :
    List.zipWith (List.zipWith op) (mat n k f) (mat n k g) =
      mat n k fun i j => op (f i j) (g i j) := by
  apply List.ext_getElem
  · simp
  · intro i h1 h2
    apply List.ext_getElem
    · simp [mat]
    · intro j h3 h4
      simp [mat]

theorem operate2d_mat {f g : Nat → Nat → F} {op : F → F → F} {n k : Nat} (hn : 0 < n) :
    operate2d (.ofMat (mat n k f)) (.ofMat (mat n k g)) op =
      .ok (mat n k fun i j => op (f i j) (g i j)) := by
  rw [operate2d_ofMat op (mat_ne_nil hn) (mat_ne_nil hn) (by simp) (mat_rect n k f)
    (mat_rect n k g), zipWith_mat]

theorem transpose_ofMat (M : List (List F)) : transpose (.ofMat M) = .ok (zipStar M) := by
  simp only [transpose, issparse_ofMat, Bool.false_eq_true, if_false, rows_ofMat, py_ok_bind,
    mapM_iter]
  rfl

theorem zipStar_mat {f : Nat → Nat → F} {n k : Nat} (hn : 0 < n) :
    zipStar (mat n k f) = mat k n fun j i => f i j := by
  unfold zipStar
  rw [minLen_rect (mat_ne_nil hn) (mat_rect n k f)]
  unfold mat
  apply List.map_congr_left
  intro j hj
  have hj' := List.mem_range.1 hj
  rw [List.filterMap_map]
  have : ∀ i ∈ List.range n, ((fun r : List F => r[j]?) ∘ fun i => (List.range k).map (f i)) i =
      some (f i j) := by
    intro i _
    simp [hj']
  rw [List.filterMap_congr this, List.filterMap_eq_map']

end PurePredict
