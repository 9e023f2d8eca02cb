import Verif.Lemmas.Tree
import Verif.Py.XR
/-
C10: tree prediction follows the decision path.
-/
namespace PurePredict
open Spec
variable {F C : Type} [Arith F]

/-- Well-formed arrays, as scikit-learn builds them: all of the same length, not empty, and every
node is a leaf (both children `-1`) or tests a non-negative feature and has two different children
that come after it. -/
structure Tree.WF (t : Tree F C) : Prop where
  pos : 0 < t.childrenLeft.length
  right : t.childrenRight.length = t.childrenLeft.length
  feat : t.feature.length = t.childrenLeft.length
  thr : t.threshold.length = t.childrenLeft.length
  val : t.value.length = t.childrenLeft.length
  shape : ∀ i (h : i < t.childrenLeft.length),
    (t.childrenLeft[i] = -1 ∧ t.childrenRight[i] = -1) ∨
    ∃ l r f : Nat, t.childrenLeft[i] = (l : Int) ∧ t.childrenRight[i]'(right ▸ h) = (r : Int) ∧
      t.feature[i]'(feat ▸ h) = (f : Int) ∧ l ≠ r ∧ i < l ∧ i < r ∧
      l < t.childrenLeft.length ∧ r < t.childrenLeft.length

/-- Every well-formed family of arrays encodes a decision tree. -/
theorem Tree.WF.encodes {t : Tree F C} (h : t.WF) : ∃ dt : DTree F, t.Encodes 0 dt := by
  have key : ∀ k i, t.childrenLeft.length - i = k → i < t.childrenLeft.length →
      ∃ dt : DTree F, t.Encodes i dt := by
    intro k
    induction k using Nat.strong_induction_on with
    | _ k ih =>
      intro i hk hi
      rcases h.shape i hi with ⟨h1, h2⟩ | ⟨l, r, f, h1, h2, h3, hne, hil, hir, hl, hr⟩
      · refine ⟨.leaf (t.value[i]'(by rw [h.val]; exact hi)), .leaf (a := -1) ?_ ?_ ?_⟩
        · rw [List.getElem?_eq_getElem hi, h1]
        · rw [List.getElem?_eq_getElem (by rw [h.right]; exact hi), h2]
        · exact List.getElem?_eq_getElem _
      · obtain ⟨lt, hlt⟩ := ih _ (by omega) l rfl hl
        obtain ⟨rt, hrt⟩ := ih _ (by omega) r rfl hr
        refine ⟨.node f (t.threshold[i]'(by rw [h.thr]; exact hi)) lt rt,
          .node ?_ ?_ hne ?_ ?_ hlt hrt⟩
        · rw [List.getElem?_eq_getElem hi, h1]
        · rw [List.getElem?_eq_getElem (by rw [h.right]; exact hi), h2]
        · rw [List.getElem?_eq_getElem (by rw [h.feat]; exact hi), h3]
        · exact List.getElem?_eq_getElem _
  exact key _ 0 rfl h.pos

/-- **C10**: for well-formed arrays of any size there is a decision tree they encode, and for every
record (list or dict) the loop terminates at the leaf that tree's decision path leads to: the leaf
has the value `DTree.eval` gives; and it raises (IndexError for a list) exactly when the path
tests a feature the record does not have. -/
theorem C10_tree_follows_decision_path (t : Tree F C) (h : t.WF) :
    ∃ dt : DTree F, t.Encodes 0 dt ∧ ∀ x : Row F,
      (∀ v, dt.eval x.look = some v →
        ∃ k : Nat, t.getLeafNode x = .ok (k : Int) ∧ t.value[k]? = some v) ∧
      (dt.eval x.look = none → t.getLeafNode x = .error x.lookErr) := by
  obtain ⟨dt, hdt⟩ := h.encodes
  refine ⟨dt, hdt, fun x => ?_⟩
  have := Tree.getLeafNode_encodes hdt x
  constructor
  · intro v hv; rw [hv] at this; exact this
  · intro hv; rw [hv] at this; exact this

/-- **C10**, the loop of the code: whatever the arrays are, the bounded loop of the model gives the
outcome of the unbounded `while` loop whenever that one stops. -/
theorem C10_loop_is_unbounded_loop (t : Tree F C) (x : Row F) (fuel : Nat) (res : Py Int)
    (h : t.walk x fuel 0 = res) (hne : res ≠ .error .nonTermination) : t.getLeafNode x = res :=
  Tree.walk_fuel_adequate h hne

theorem DTree.eval_of_features {dt : DTree F} {x : Nat → Option F}
    (h : ∀ f ∈ dt.features, ∃ v, x f = some v) : ∃ v, dt.eval x = some v := by
  induction dt with
  | leaf v => exact ⟨v, rfl⟩
  | node f thr l r ihl ihr =>
    obtain ⟨v, hv⟩ := h f (by simp [DTree.features])
    simp only [DTree.eval, hv]
    split
    · exact ihl fun g hg => h g (by simp [DTree.features, hg])
    · exact ihr fun g hg => h g (by simp [DTree.features, hg])

/-- **C10**: if the record has every feature the tree tests, a leaf is always found. -/
theorem C10_total (t : Tree F C) (dt : DTree F) (henc : t.Encodes 0 dt) (xs : List F)
    (hw : ∀ f ∈ dt.features, f < xs.length) :
    ∃ (v : List F) (k : Nat), dt.eval (Row.list xs).look = some v ∧
      t.getLeafNode (.list xs) = .ok (k : Int) ∧ t.value[k]? = some v := by
  obtain ⟨v, hv⟩ := DTree.eval_of_features (dt := dt) (x := (Row.list xs).look)
    fun f hf => ⟨_, List.getElem?_eq_getElem (hw f hf)⟩
  have := Tree.getLeafNode_encodes henc (.list xs)
  rw [hv] at this
  obtain ⟨k, h1, h2⟩ := this
  exact ⟨v, k, hv, h1, h2⟩

/-- **C10**, regression trees on a batch: `predict` returns the first entry of the value of the
leaf reached by each record. -/
theorem C10_regressor_predict (t : Tree F C) (dt : DTree F) (henc : t.Encodes 0 dt)
    (M : List (List F)) (hM : M ≠ []) (g : List F → List F)
    (hg : ∀ x ∈ M, dt.eval (Row.list x).look = some (g x)) (h : List F → F)
    (hh : ∀ x ∈ M, (g x)[0]? = some (h x)) :
    t.predictReg (.ofMat M) = .ok (M.map h) := by
  have hleaf : ∀ x ∈ M, ∃ k : Nat, t.getLeafNode (.list x) = .ok (k : Int) ∧
      t.value[k]? = some (g x) := by
    intro x hx
    have := Tree.getLeafNode_encodes henc (.list x)
    rwa [hg x hx] at this
  choose! k hk1 hk2 using hleaf
  simp only [Tree.predictReg, checkArray_ofMat hM, py_ok_bind, rows_ofMat]
  rw [mapM_map', mapM_ok_map (g := fun x => (k x : Int)) fun x hx => hk1 x hx]
  simp only [py_ok_bind]
  rw [mapM_map']
  apply mapM_ok_map
  intro x hx
  rw [pyGet_ok_nat.2 (hk2 x hx), py_ok_bind]
  exact pyGet_ok_nat.2 (hh x hx)

/-- Non-vacuity: a stump `x[1] <= 5`. -/
def exampleStump : Tree Ex String :=
  { childrenLeft := [1, -1, -1], childrenRight := [2, -1, -1], feature := [1, -2, -2]
    threshold := [.fin 5, .fin (-2), .fin (-2)]
    value := [[.fin 3, .fin 4], [.fin 3, .fin 0], [.fin 0, .fin 4]], classes := ["a", "b"] }

theorem exampleStump_wf : exampleStump.WF := by
  refine ⟨by simp [exampleStump], rfl, rfl, rfl, rfl, ?_⟩
  intro i hi
  have : i < 3 := hi
  match i, this with
  | 0, _ => exact .inr ⟨1, 2, 1, rfl, rfl, rfl, by omega, by omega, by omega, by decide, by decide⟩
  | 1, _ => exact .inl ⟨rfl, rfl⟩
  | 2, _ => exact .inl ⟨rfl, rfl⟩

example : ∃ dt : DTree Ex, exampleStump.Encodes 0 dt ∧ ∀ x : Row Ex,
      (∀ v, dt.eval x.look = some v →
        ∃ k : Nat, exampleStump.getLeafNode x = .ok (k : Int) ∧ exampleStump.value[k]? = some v) ∧
      (dt.eval x.look = none → exampleStump.getLeafNode x = .error x.lookErr) :=
  C10_tree_follows_decision_path _ exampleStump_wf

end PurePredict
