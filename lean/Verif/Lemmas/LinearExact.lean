import Verif.Lemmas.Linear
import Verif.Lemmas.Dot
import Verif.Spec.Linear
/-
Linear models in exact arithmetic.
-/
namespace PurePredict
open Spec

theorem zipWith_sum_range {w : Nat} {x y : List ℝ} (hx : x.length = w) (hy : y.length = w) :
    (List.zipWith (· * ·) x y).sum = ∑ i ∈ Finset.range w, x.getD i 0 * y.getD i 0 := by
  rw [← list_sum_range]
  congr 1
  apply List.ext_getElem
  · simp [hx, hy]
  · intro i h1 h2
    have hi : i < w := by simpa using h2
    simp [List.getElem?_eq_getElem (show i < x.length by omega),
      List.getElem?_eq_getElem (show i < y.length by omega)]

/-- A linear model over the reals with `k` rows of coefficients and intercepts. -/
structure Linear.IsExact {C : Type} (m : Linear Ex C) (w k : Nat) (W : List (List ℝ))
    (b : List ℝ) : Prop where
  coef : m.coef = W.map fins
  rect : Rect w W
  rows : W.length = k
  intercept : m.intercept = some (fins b)
  len : b.length = k
  pos : 0 < k

namespace Linear
variable {C : Type} {m : Linear Ex C} {w k : Nat} {W : List (List ℝ)} {b : List ℝ}

theorem IsExact.rowScores (h : m.IsExact w k W b) {x : List ℝ} (hx : x.length = w) :
    m.rowScores (.list (fins x)) = .ok (fins ((List.range k).map (linScore w W b x))) := by
  simp only [Linear.rowScores, dot_list, py_ok_bind, h.intercept, attr, py_pure, h.coef,
    List.map_map]
  congr 1
  have : W.map ((fun b => dotList (fins x) b) ∘ fins) =
      fins (W.map fun r => (List.zipWith (· * ·) x r).sum) := by
    rw [fins_def (W.map _), List.map_map]
    exact List.map_congr_left fun r _ => dotList_fins x r
  rw [this, zipWith_add_fins]
  congr 1
  apply List.ext_getElem
  · simp [h.rows, h.len]
  · intro i h1 h2
    have hi : i < k := by simpa using h2
    have hW : i < W.length := by rw [h.rows]; exact hi
    have hb : i < b.length := by rw [h.len]; exact hi
    simp only [List.getElem_zipWith, List.getElem_map, List.getElem_range, linScore]
    rw [zipWith_sum_range hx (h.rect _ (List.getElem_mem hW))]
    simp [List.getElem?_eq_getElem hW, List.getElem?_eq_getElem hb]

theorem IsExact.accepts (h : m.IsExact w k W b) {R : List (List ℝ)} (hR : R ≠ []) (hRw : Rect w R) :
    m.Accepts (.ofMat (R.map fins)) ((R.map fins).map Row.list) := by
  apply accepts_dense (d := w)
  · rw [h.coef]
    have := h.pos
    rw [← h.rows] at this
    simpa using List.length_pos_iff.1 this
  · rw [h.coef]
    intro r hr
    obtain ⟨r', hr', rfl⟩ := List.mem_map.1 hr
    simpa using h.rect r' hr'
  · simpa using hR
  · intro r hr
    obtain ⟨r', hr', rfl⟩ := List.mem_map.1 hr
    simpa using hRw r' hr'

theorem IsExact.mapM_rowScores (h : m.IsExact w k W b) {R : List (List ℝ)} (hRw : Rect w R) :
    ((R.map fins).map Row.list).mapM m.rowScores =
      .ok (R.map fun x => fins ((List.range k).map (linScore w W b x))) := by
  rw [List.map_map, mapM_map']
  exact mapM_ok_map fun x hx => h.rowScores (hRw x hx)

theorem IsExact.min_len (h : m.IsExact w k W b) :
    min m.coef.length (fins b).length = k := by
  simp [h.coef, h.rows, h.len]

theorem IsExact.decision_one (h : m.IsExact w 1 W b) {R : List (List ℝ)} (hR : R ≠ [])
    (hRw : Rect w R) :
    m.decisionFunction (.ofMat (R.map fins)) =
      .ok (.flat (fins (R.map fun x => linScore w W b x 0))) := by
  rw [decision_eq (h.accepts hR hRw) h.intercept, h.mapM_rowScores hRw, h.min_len]
  simp only [py_ok_bind, if_true]
  congr 2
  rw [List.filterMap_map, fins, List.map_map, ← List.filterMap_eq_map]
  rfl

theorem IsExact.decision_many (h : m.IsExact w k W b) (hk : k ≠ 1) {R : List (List ℝ)} (hR : R ≠ [])
    (hRw : Rect w R) :
    m.decisionFunction (.ofMat (R.map fins)) =
      .ok (.mat (R.map fun x => fins ((List.range k).map (linScore w W b x)))) := by
  rw [decision_eq (h.accepts hR hRw) h.intercept, h.mapM_rowScores hRw, h.min_len]
  simp only [py_ok_bind, if_neg hk]

end Linear
end PurePredict
