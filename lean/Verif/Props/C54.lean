import Verif.Lemmas.Mat
import Verif.Lemmas.Sparse
import Verif.Lemmas.Dot
/-
C54: slicing columns.
-/
namespace PurePredict
open Spec
variable {F : Type} [Arith F]

/-- **C54**, one column of a dense matrix. -/
theorem C54_int_dense (n k : Nat) (f : Nat → Nat → F) (j : Nat) (hj : j < k) :
    sliceColumn (.ofMat (mat n k f)) (j : Int) = .ok ((List.range n).map fun i => f i j) := by
  have e : sliceColumn (.ofMat (mat n k f)) (j : Int) =
      ((mat n k f).map Row.list).mapM fun a => a.getItem (j : Int) := rfl
  rw [e, mapM_map']
  unfold mat
  rw [mapM_map']
  apply mapM_ok_map
  intro i _
  have e : (Row.list ((List.range k).map (f i))).getItem (j : Int) =
      pyGet ((List.range k).map (f i)) (j : Int) := rfl
  rw [e, pyGet_lt (by simpa using hj)]
  simp

/-- **C54**, one column of a sparse matrix: the column of the dense matrix it denotes. -/
theorem C54_int_sparse (ds : List (Dict Int F)) (w : Nat) (dt : DType) (z : F)
    (hz : castTo dt (ofInt 0 : F) = .ok z) (j : Nat) (hj : j < w) :
    sliceColumn (.sparse ds (some w) dt) (j : Int) = .ok (ds.map fun d => entry z d j) ∧
    (todense (.sparse ds (some w) dt) >>= fun A => sliceColumn A (j : Int)) =
      sliceColumn (.sparse ds (some w) dt) (j : Int) := by
  have h1 : sliceColumn (.sparse ds (some w) dt) (j : Int) = .ok (ds.map fun d => entry z d j) := by
    simp [sliceColumn, hz, entry_eq_get?]
  refine ⟨h1, ?_⟩
  rw [todense_sparse hz, py_ok_bind, h1]
  have e : sliceColumn (.ofMat (ds.map (dense z w))) (j : Int) =
      ((ds.map (dense z w)).map Row.list).mapM fun a => a.getItem (j : Int) := rfl
  rw [e, mapM_map', mapM_map']
  apply mapM_ok_map
  intro d _
  have e : (Row.list (dense z w d)).getItem (j : Int) = pyGet (dense z w d) (j : Int) := rfl
  rw [e, pyGet_lt (by simpa [dense] using hj)]
  simp [dense]

/-- **C54**, a list of columns of a dense matrix: those columns, in that order (repetitions
included). -/
theorem C54_list_dense (n k : Nat) (f : Nat → Nat → F) (js : List Nat) (hj : ∀ j ∈ js, j < k) :
    sliceColumns (.ofMat (mat n k f)) (js.map fun (j : Nat) => (j : Int)) =
      .ok (.ofMat ((List.range n).map fun i => js.map fun j => f i j)) := by
  have e : sliceColumns (.ofMat (mat n k f)) (js.map fun (j : Nat) => (j : Int)) =
      (((mat n k f).map Row.list).mapM (fun a => (js.map fun (j : Nat) => (j : Int)).mapM fun i => a.getItem i)
        >>= fun rs => pure (.ofMat rs)) := rfl
  rw [e, mapM_map']
  unfold mat
  rw [mapM_map', mapM_ok_map (g := fun i => js.map fun j => f i j)]
  · rfl
  · intro i _
    rw [mapM_map']
    apply mapM_ok_map
    intro j hjm
    have e : (Row.list ((List.range k).map (f i))).getItem (j : Int) =
        pyGet ((List.range k).map (f i)) (j : Int) := rfl
    rw [e, pyGet_lt (by simpa using hj j hjm)]
    simp

/-- An index outside the width of a dense row raises `IndexError`. -/
theorem C54_out_of_range (x : List F) (xs : List (List F)) (j : Nat) (hj : x.length ≤ j) :
    sliceColumn (.ofMat (x :: xs)) (j : Int) = .error .indexError := by
  have e : sliceColumn (.ofMat (x :: xs)) (j : Int) =
      (Row.list x :: xs.map Row.list).mapM fun a => a.getItem (j : Int) := rfl
  have e2 : (Row.list x).getItem (j : Int) = pyGet x (j : Int) := rfl
  rw [e, mapM_cons', e2, pyGet_ge hj]
  rfl

/-- **C54**, a list of columns of a sparse matrix.  Missing: "the selected columns" — the code keeps
the width and the positions, so what it returns denotes the matrix with all *other* columns
replaced by zero. -/
theorem C54_list_sparse_partial (ds : List (Dict Int F)) (hne : ds ≠ []) (w : Nat) (dt : DType) (z : F)
    (hd : ∀ d ∈ ds, ValidRow w d) (idx : List Int) :
    ∃ ds', sliceColumns (.sparse ds (some w) dt) idx = .ok (.sparse ds' (some w) dt) ∧
      (∀ d ∈ ds', ValidRow w d) ∧
      ds'.map (dense z w) = ds.map fun d =>
        (List.range w).map fun (j : Nat) => if (j : Int) ∈ idx then entry z d j else z := by
  refine ⟨ds.map fun a => a.filter fun p => idx.contains p.1, ?_, ?_, ?_⟩
  · have := sparseList_dicts (ds := ds.map fun a => a.filter fun p => idx.contains p.1) (by simpa using hne)
      (some w) dt
    rw [List.map_map] at this
    exact this
  · intro d hdm
    obtain ⟨a, ha, rfl⟩ := List.mem_map.1 hdm
    exact ⟨(hd a ha).1.sublist (List.filter_sublist.map _), fun p hp => (hd a ha).2 p (List.mem_filter.1 hp).1⟩
  · rw [List.map_map]
    apply List.map_congr_left
    intro d _
    simp only [Function.comp, dense]
    apply List.map_congr_left
    intro j _
    have hfind : ∀ d : Dict Int F, (d.filter fun p => idx.contains p.1).find? (fun p => decide (p.1 = (j : Int))) =
        if (j : Int) ∈ idx then d.find? (fun p => decide (p.1 = (j : Int))) else none := by
      intro d
      rw [List.find?_filter]
      by_cases hi : (j : Int) ∈ idx
      · rw [if_pos hi]
        congr 1
        funext p
        by_cases hp : p.1 = (j : Int)
        · simp [hp, hi]
        · simp [hp]
      · rw [if_neg hi, List.find?_eq_none]
        intro p _
        by_cases hp : p.1 = (j : Int)
        · simp [hp, hi]
        · simp [hp]
    unfold entry
    rw [hfind]
    split <;> rfl

/-- The full claim: slicing a list of columns agrees between sparse and dense. -/
def SliceAgrees (F : Type) [Arith F] (z : F) : Prop :=
  ∀ (ds : List (Dict Int F)) (w : Nat) (js : List Nat), ds ≠ [] → (∀ d ∈ ds, ValidRow w d) →
    (∀ j ∈ js, j < w) → ∃ (ds' : List (Dict Int F)) (w' : Nat),
      sliceColumns (.sparse ds (some w) .float) (js.map fun (j : Nat) => (j : Int)) =
        .ok (.sparse ds' (some w') .float) ∧
      ds'.map (dense z w') = ds.map fun d => js.map fun j => entry z d j

/-- **C54 is false** for sparse lists of columns: the width is not reduced (any arithmetic). -/
theorem C54_false (z : F) : ¬ SliceAgrees F z := by
  intro h
  obtain ⟨ds', w', h1, h2⟩ := h [[]] 2 [1] (by simp) (by intro d hd; simp at hd; subst hd; exact ⟨by simp, by simp⟩)
    (by simp)
  have h3 : sliceColumns (.sparse ([[]] : List (Dict Int F)) (some 2) .float) ([1].map fun (j : Nat) => (j : Int)) =
      .ok (.sparse [[]] (some 2) .float) := sparseList_dicts (ds := [[]]) (by simp) _ _
  rw [h3] at h1
  injection h1 with h1
  injection h1 with h4 h5 _
  have h6 : w' = 2 := by injection h5 with h5; exact h5.symm
  subst h6 h4
  have := congrArg (List.map List.length) h2
  simp [dense] at this

/-- A negative column index, which Python resolves from the end for a dense row, gives the
default 0 for every sparse row. -/
theorem C54_negative_index (ds : List (Dict Int F)) (w : Nat) (dt : DType) (z : F)
    (hz : castTo dt (ofInt 0 : F) = .ok z) (hd : ∀ d ∈ ds, ValidRow w d) (j : Int) (hj : j < 0) :
    sliceColumn (.sparse ds (some w) dt) j = .ok (ds.map fun _ => z) := by
  simp only [sliceColumn, hz, py_ok_bind, py_pure]
  congr 1
  apply List.map_congr_left
  intro d hdm
  have : d.get? j = none := by
    rw [Dict.get?_eq_none_iff]
    intro hm
    obtain ⟨p, hp, rfl⟩ := List.mem_map.1 hm
    have := ((hd d hdm).2 p hp).1
    omega
  rw [this]; rfl

/-- Non-vacuity. -/
example : sliceColumn (.ofMat (mat 2 3 fun i j => (.fin (10 * i + j) : Ex))) 1 =
    .ok ((List.range 2).map fun (i : Nat) => .fin (10 * i + 1)) := by
  have := C54_int_dense 2 3 (fun i j => (.fin (10 * i + j) : Ex)) 1 (by simp)
  simpa using this
example : sliceColumn (.sparse [finD [(1, 5)]] (some 2) .float) 1 = .ok [(.fin 5 : Ex)] := by
  have := (C54_int_sparse [finD [(1, 5)]] 2 .float _ (castTo_zero_exact .float) 1 (by simp)).1
  simpa [entry, finD] using this

end PurePredict
