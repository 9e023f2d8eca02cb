import Verif.Lemmas.Tree
import Verif.Lemmas.XR
/-
C11: decision trees on sparse and dense input agree.
-/
namespace PurePredict
open Spec
variable {F C : Type} [Arith F]

/-- All features the arrays mention at nodes that test something lie in `[0,w)`. -/
def Tree.FeaturesBelow (t : Tree F C) (w : Nat) : Prop :=
  ∀ (n : Int) (l r f : Int), pyGet t.childrenLeft n = .ok l → pyGet t.childrenRight n = .ok r →
    l ≠ r → pyGet t.feature n = .ok f → 0 ≤ f ∧ f < w

theorem Tree.step_dense {t : Tree F C} {w : Nat} (h : t.FeaturesBelow w) {z : F}
    (hz : z = ofInt 0) (d : Dict Int F) (n : Int) :
    t.step (.dict d) n = t.step (.list (dense z w d)) n := by
  subst hz
  simp only [Tree.step]
  cases hl : pyGet t.childrenLeft n with
  | error e => rfl
  | ok l =>
    cases hr : pyGet t.childrenRight n with
    | error e => rfl
    | ok r =>
      simp only [py_ok_bind]
      by_cases hlr : l = r
      · simp [hlr]
      · have : (l == r) = false := by simpa using hlr
        simp only [this, Bool.false_eq_true, if_false, Tree.featureValue]
        cases hf : pyGet t.feature n with
        | error e => rfl
        | ok f =>
          obtain ⟨h0, h1⟩ := h n l r f hl hr hlr hf
          have hf' : f = ((f.toNat : Nat) : Int) := by omega
          have e : pyGet (dense (ofInt 0) w d) f = .ok ((d.get? f).getD (ofInt 0)) := by
            conv_lhs => rw [hf']
            rw [pyGet_ok_nat, dense_getElem? (ofInt 0) d (by omega), entry_eq_get?, ← hf']
          simp only [py_ok_bind, e]
          rfl

theorem Tree.walk_dense {t : Tree F C} {w : Nat} (h : t.FeaturesBelow w) {z : F}
    (hz : z = ofInt 0) (d : Dict Int F) (fuel : Nat) (n : Int) :
    t.walk (.dict d) fuel n = t.walk (.list (dense z w d)) fuel n := by
  induction fuel generalizing n with
  | zero => rfl
  | succ fuel ih =>
    simp only [Tree.walk, Tree.step_dense h hz]
    cases t.step (.list (dense z w d)) n with
    | error e => rfl
    | ok o =>
      cases o with
      | none => rfl
      | some m => exact ih m

/-- **C11**: in any arithmetic, for arrays of any shape whose tests stay within the columns, every
method of the tree classes gives on a `sparse_list` exactly what it gives (result or exception) on
its `todense()` form.  The hypothesis on `dtype` says `dtype(0)` is the number 0, which holds for
the int, float and bool dtypes of Python numbers. -/
theorem C11_tree_sparse_dense_agree (t : Tree F C) (w : Nat) (hb : t.FeaturesBelow w)
    (ds : List (Dict Int F)) (hne : ds ≠ []) (dt : DType)
    (hz : castTo dt (ofInt 0 : F) = .ok (ofInt 0)) :
    ∃ D, todense (.sparse ds (some w) dt) = .ok D ∧
      t.predict (.sparse ds (some w) dt) = t.predict D ∧
      t.predictProba (.sparse ds (some w) dt) = t.predictProba D ∧
      t.predictLogProba (.sparse ds (some w) dt) = t.predictLogProba D ∧
      t.predictReg (.sparse ds (some w) dt) = t.predictReg D := by
  refine ⟨_, todense_sparse hz, ?_⟩
  have hne' : ds.map (dense (ofInt 0 : F) w) ≠ [] := by simpa using hne
  have hleaf : (ds.map Row.dict).mapM t.getLeafNode =
      ((ds.map (dense (ofInt 0) w)).map Row.list).mapM t.getLeafNode := by
    rw [List.map_map, mapM_map', mapM_map']
    apply mapM_congr
    intro d _
    exact Tree.walk_dense hb rfl d _ _
  have hrows : (Arr.sparse ds (some w) dt).rows = .ok (ds.map Row.dict) := rfl
  have hc : checkArray (Arr.sparse ds (some w) dt) .allow = .ok (.sparse ds (some w) dt) := rfl
  have hp : t.predictProba (.sparse ds (some w) dt) =
      t.predictProba (.ofMat (ds.map (dense (ofInt 0) w))) := by
    simp only [Tree.predictProba, hc, checkArray_ofMat hne', py_ok_bind, hrows, rows_ofMat, hleaf]
  refine ⟨?_, hp, ?_, ?_⟩
  · simp only [Tree.predict, hc, checkArray_ofMat hne', py_ok_bind, hrows, rows_ofMat, hleaf]
  · simp only [Tree.predictLogProba, hp]
  · simp only [Tree.predictReg, hc, checkArray_ofMat hne', py_ok_bind, hrows, rows_ofMat, hleaf]

/-- The hypothesis on the features is needed: a test on a column beyond the declared size reads 0
from a sparse row and raises IndexError on a dense one. -/
theorem C11_feature_out_of_range (xs : List F) (d : Dict Int F) (f : Nat) (hf : xs.length ≤ f)
    (t : Tree F C) (n : Int) (hfe : pyGet t.feature n = .ok (f : Int)) :
    (∃ v, t.featureValue (.dict d) n = .ok v) ∧
      t.featureValue (.list xs) n = .error .indexError := by
  refine ⟨⟨(d.get? (f : Int)).getD (ofInt 0), ?_⟩, ?_⟩
  · simp only [Tree.featureValue, hfe]; rfl
  · simp only [Tree.featureValue, hfe, py_ok_bind, pyGet_ge hf]

/-- A stump testing feature 1 of 2. -/
def stumpOnOne : Tree Ex String :=
  ⟨[1, -1, -1], [2, -1, -1], [1, -2, -2], [.fin 5, .fin 0, .fin 0],
    [[.fin 1], [.fin 2], [.fin 3]], ["a"]⟩

theorem stumpOnOne_below : stumpOnOne.FeaturesBelow 2 := by
  intro n l r f hl hr hne hf
  obtain ⟨h1, h2⟩ := Tree.pyGet_range hl
  simp [stumpOnOne] at h1 h2
  have : n = -3 ∨ n = -2 ∨ n = -1 ∨ n = 0 ∨ n = 1 ∨ n = 2 := by omega
  rcases this with rfl | rfl | rfl | rfl | rfl | rfl <;>
    simp [pyGet, stumpOnOne] at hl hr hf <;> omega

/-- Non-vacuity: sparse rows with and without the tested key. -/
example : ∃ D, todense (.sparse [[(1, .fin 7)], []] (some 2) .float) = .ok D ∧
    stumpOnOne.predictReg (.sparse [[(1, .fin 7)], []] (some 2) .float) =
      stumpOnOne.predictReg D := by
  obtain ⟨D, h1, _, _, _, h2⟩ := C11_tree_sparse_dense_agree stumpOnOne 2 stumpOnOne_below
    [[(1, .fin 7)], []] (by simp) .float rfl
  exact ⟨D, h1, h2⟩

end PurePredict
