import Verif.Spec.Impute
import Verif.Model.Impute
import Verif.Lemmas.Basic
import Verif.Lemmas.Mat
/-
Imputation.
-/
namespace PurePredict
open Spec

theorem zipIdx_range {α : Type} (l : List α) (d : α) :
    l.zipIdx = (List.range l.length).map fun i => (l.getD i d, i) := by
  apply List.ext_getElem
  · simp
  · intro i h1 h2
    have : i < l.length := by simpa using h1
    simp [List.getD_eq_getElem?_getD, this]

theorem dropIdx_range {α : Type} (tr : List Nat) (l : List α) (d : α) :
    dropIdx tr l = ((List.range l.length).filter fun j => !tr.contains j).map fun j => l.getD j d := by
  unfold dropIdx
  rw [zipIdx_range l d, List.filter_map, List.map_map]
  rfl

variable {F : Type} [Arith F]

theorem imputeRow_map (m d : F) (J : List Nat) (s a : Nat → F) :
    imputeRow (J.map s) m (J.map a) =
      .ok (J.map fun j => if toImpute (a j) m then s j else a j) := by
  unfold imputeRow
  rw [zipIdx_range _ d, mapM_map', List.length_map, range_mapM
    (g := fun i => if toImpute (a (J.getD i 0)) m then s (J.getD i 0) else a (J.getD i 0))]
  · congr 1
    apply List.ext_getElem
    · simp
    · intro i h1 h2
      have : i < J.length := by simpa using h1
      simp [List.getD_eq_getElem?_getD, this]
  · intro i hi
    have h1 : (J.map a).getD i d = a (J.getD i 0) := by simp [List.getD_eq_getElem?_getD, hi]
    have h2 : pyGet (J.map s) (i : Int) = .ok (s (J.getD i 0)) := by
      rw [pyGet_lt (by simpa using hi)]; simp [List.getD_eq_getElem?_getD, hi]
    simp only [h1, h2]
    cases toImpute (a (J.getD i 0)) m <;> rfl

theorem elems_list (a : List F) : (Row.list a : Row F).elems = .ok a := by
  simp only [Row.elems, Row.len, py_ok_bind, Row.getItem]
  exact range_mapM_pyGet a

theorem list_eq_range_map (l : List F) (d : F) : l = (List.range l.length).map fun j => l.getD j d := by
  apply List.ext_getElem
  · simp
  · intro i h1 h2
    simp [h1]

/-- The rows computed by `SimpleImputer.transform` before the indicator is appended. -/
def SimpleImputer.keep (s : SimpleImputer F) (d : F) (j : Nat) : Bool :=
  s.constant || !Arith.isnan (s.statistics.getD j d)

def SimpleImputer.out (s : SimpleImputer F) (d : F) (x : List F) : List F :=
  imputed d s.statistics.length (fun v => toImpute v s.missing) (s.keep d)
    (fun j => s.statistics.getD j d) x

theorem imputer_rows (s : SimpleImputer F) (d : F) (M : List (List F))
    (hw : Rect s.statistics.length M) :
    (do
      let toRemove := if s.constant then [] else
        (s.statistics.zipIdx.filter fun (p : F × Nat) => Arith.isnan p.1).map (fun (p : F × Nat) => p.2)
      let rows ← (M.map Row.list).mapM Row.elems
      let rows := if toRemove.isEmpty then rows else rows.map (dropIdx toRemove)
      let stats := if toRemove.isEmpty then s.statistics else dropIdx toRemove s.statistics
      rows.mapM (imputeRow stats s.missing)) = .ok (M.map (s.out d)) := by
  have h1 : (M.map Row.list).mapM Row.elems = .ok M := by
    rw [mapM_map']
    exact (mapM_ok_map (g := id) fun x _ => elems_list x).trans (by simp)
  simp only [h1, py_ok_bind]
  set w := s.statistics.length with hwd
  set tr := (if s.constant then [] else
        (s.statistics.zipIdx.filter fun (p : F × Nat) => Arith.isnan p.1).map (fun (p : F × Nat) => p.2)) with htr
  have hkeep : ∀ j < w, (!tr.contains j) = s.keep d j := by
    intro j hj
    rw [htr, SimpleImputer.keep]
    cases s.constant with
    | true => simp
    | false =>
      simp only [Bool.false_eq_true, if_false, Bool.false_or]
      congr 1
      rw [zipIdx_range _ d, List.filter_map, List.map_map]
      rw [Bool.eq_iff_iff]
      simp only [List.contains_iff_mem, List.mem_map, List.mem_filter, List.mem_range, Function.comp]
      constructor
      · rintro ⟨i, ⟨_, h⟩, rfl⟩; exact h
      · intro h; exact ⟨j, ⟨hj, h⟩, rfl⟩
  have hJ : ((List.range w).filter fun j => !tr.contains j) = (List.range w).filter (s.keep d) := by
    apply List.filter_congr
    intro j hj
    exact hkeep j (List.mem_range.1 hj)
  have hgoal : ∀ x : List F, x.length = w →
      imputeRow (dropIdx tr s.statistics) s.missing (dropIdx tr x) = .ok (s.out d x) := by
    intro x hx
    rw [dropIdx_range tr _ d, dropIdx_range tr x d, hx, hJ, imputeRow_map _ d]
    rfl
  by_cases he : tr.isEmpty
  · have htr0 : tr = [] := List.isEmpty_iff.1 he
    simp only [he, if_true]
    apply mapM_ok_map
    intro x hx
    have hd : ∀ l : List F, dropIdx tr l = l := by
      intro l
      rw [htr0, dropIdx_range [] l d]
      simp only [List.contains_nil, Bool.not_false, List.filter_true]
      exact (list_eq_range_map l d).symm
    have := hgoal x (hw x hx)
    rwa [hd, hd] at this
  · simp only [he, Bool.false_eq_true, if_false]
    rw [mapM_map']
    exact mapM_ok_map fun x hx => hgoal x (hw x hx)

/-- The mask rows. -/
def fullMask (m : F) (x : List F) : List Bool := x.map fun v => toImpute v m

theorem info_mask (m : F) (M : List (List F)) :
    (M.map Row.list).mapM (maskRow m) = .ok (M.map (fullMask m)) := by
  rw [mapM_map']
  exact mapM_ok_map fun x _ => rfl

/-- Number of missing values per column. -/
def countMissing (m d : F) (M : List (List F)) (j : Nat) : Nat :=
  (M.filter fun x => toImpute (x.getD j d) m).length

theorem missing_counts (m d : F) {w : Nat} {M : List (List F)} (hM : M ≠ []) (hw : Rect w M) :
    (zipStar (M.map (fullMask m))).map (fun col => (col.filter id).length) =
      (List.range w).map (countMissing m d M) := by
  have hrect : Rect w (M.map (fullMask m)) := by
    intro r hr
    obtain ⟨x, hx, rfl⟩ := List.mem_map.1 hr
    simp [fullMask, hw x hx]
  have hne : M.map (fullMask m) ≠ [] := by simpa using hM
  apply List.ext_getElem
  · simp [zipStar_length hne hrect]
  · intro j h1 h2
    have hj : j < w := by simpa using h2
    have hjl : j < (zipStar (M.map (fullMask m))).length := by rw [zipStar_length hne hrect]; exact hj
    simp only [List.getElem_map, List.getElem_range]
    have hcol : (zipStar (M.map (fullMask m)))[j] = M.map fun x => toImpute (x.getD j d) m := by
      simp only [zipStar, List.getElem_map, List.getElem_range]
      rw [List.filterMap_map]
      have : ∀ l : List (List F), (∀ x ∈ l, x.length = w) →
          l.filterMap ((fun r : List Bool => r[j]?) ∘ fullMask m) = l.map fun x => toImpute (x.getD j d) m := by
        intro l hl
        induction l with
        | nil => rfl
        | cons x l ih =>
          have hx : j < x.length := by rw [hl x (by simp)]; exact hj
          rw [List.filterMap_cons]
          have : ((fun r : List Bool => r[j]?) ∘ fullMask m) x = some (toImpute (x.getD j d) m) := by
            simp [fullMask, List.getD_eq_getElem?_getD, hx]
          rw [this, List.map_cons, ih fun y hy => hl y (by simp [hy])]
      exact this M hw
    rw [hcol, List.filter_map, List.length_map]
    rfl

end PurePredict
