import Verif.Lemmas.ClassOrderLabels
import Verif.Props.C111
import Verif.Props.C113
/-
C111, continued: labels of linear classifiers, also of those without probabilities.
-/
namespace PurePredict
open Spec
variable {lib : String → TextLib} {encode : Str → List Nat}

/-- **C111**, labels of linear classifiers (LogisticRegression, SGDClassifier, Perceptron, PassiveAggressiveClassifier, RidgeClassifier, LinearSVC), alone or at the
end of pipelines: listed in another order, the classes are predicted alike for every request whose records are decided by the scores. -/
theorem C111_linear_labels (trunc : Ex → Py Int) {w : Nat} {π : List Nat} (hp : π.Perm (List.range w)) {P : Data Ex → Prop}
    {o o' : SkObj (Attrs Ex) (PVal Ex) Ex} (h : Relisted lib encode w π P o o') {f : Methods Ex} (hb : Behaves lib encode o f) :
    ∃ c c', convert (singles trunc initXgb) o = .ok c ∧ convert (singles trunc initXgb) o' = .ok c' ∧
      SameOn P (c.methods lib encode).predict (c'.methods lib encode).predict := by
  obtain ⟨f', hb', hr⟩ := behaves_relisted hp h hb
  obtain ⟨c, hc, rfl⟩ := C89_converted_behaves trunc lib encode o f hb
  obtain ⟨c', hc', rfl⟩ := C89_converted_behaves trunc lib encode o' f' hb'
  exact ⟨c, c', hc, hc', hr⟩

/-- A support vector classifier of three classes, and the same with its classes listed as "c", "a", "b". -/
example : Relisted lib encode 3 [2, 0, 1]
    (fun X => ∀ A S, X = .arr A → (Linear.ofFitted (([.fin 1, .fin 2, .fin 3] : List Ex).map fun x => [x]) (["a", "b", "c"].map (PVal.str (F := Ex))) (some (.vector [.fin 4, .fin 5, .fin 6]))
      (some "multinomial") (some "lbfgs") none).decisionFunction A = .ok S → Decided S)
    (.leaf "LinearSVC" (some "0.22".toList) (linearOf [.fin 1, .fin 2, .fin 3] [.fin 4, .fin 5, .fin 6] (["a", "b", "c"].map PVal.str)))
    (.leaf "LinearSVC" (some "0.22".toList) (linearOf [.fin 3, .fin 1, .fin 2] [.fin 6, .fin 4, .fin 5] (["c", "a", "b"].map PVal.str))) := by
  have three : ∀ {α : Type} (x y z : α), Rearranged 3 [2, 0, 1] [x, y, z] [z, x, y] := fun x y z => ⟨rfl, .cons rfl (.cons rfl (.cons rfl .nil))⟩
  refine .linear (k := .plain) (linearOf_learned (by simp [linearClasses]) _ _ (strings_plain _)) (linearOf_learned (by simp [linearClasses]) _ _ (strings_plain _)) ?_
  exact .linear (d := 1) (m := Linear.ofFitted (([.fin 1, .fin 2, .fin 3] : List Ex).map fun x => [x]) (["a", "b", "c"].map (PVal.str (F := Ex))) (some (.vector [.fin 4, .fin 5, .fin 6]))
    (some "multinomial") (some "lbfgs") none) (by norm_num) rfl (by simp [Linear.ofFitted]) (three _ _ _) (three _ _ _) (three _ _ _)

/-- A request that its scores decide: they are 4, 5, 6 for the record 0 and 5, 7, 9 for the record 1. -/
example : Decided (.mat [[.fin 4, .fin 5, .fin 6], [.fin 5, .fin 7, .fin 9]]) := by
  have key : ∀ a b c : ℝ, a < b → b < c → OneLargest [(.fin a : Ex), .fin b, .fin c] := by
    intro a b c hab hbc i j p q hi hj hp hq
    have e : ∀ x y : ℝ, ((.fin x : Ex) <ₚ .fin y) = decide (x < y) := fun _ _ => rfl
    have big : ∀ (i : Nat) (p : Ex), [(.fin a : Ex), .fin b, .fin c][i]? = some p → (∀ r ∈ [(.fin a : Ex), .fin b, .fin c], (p <ₚ r) = false) → i = 2 := by
      intro i p hi hp
      have hc := hp (.fin c) (by simp)
      match i, hi with
      | 0, hi => cases hi; rw [e] at hc; simp at hc; linarith
      | 1, hi => cases hi; rw [e] at hc; simp at hc; linarith
      | 2, _ => rfl
    rw [big i p hi hp, big j q hj hq]
  intro row hrow
  simp only [List.mem_cons, List.not_mem_nil, or_false] at hrow
  rcases hrow with rfl | rfl
  · exact ⟨by simp, key _ _ _ (by norm_num) (by norm_num)⟩
  · exact ⟨by simp, key _ _ _ (by norm_num) (by norm_num)⟩

/-- Two classes and the score 0: both orders predict the class listed first. -/
theorem C111_false_zero_score (trunc : Ex → Py Int) :
    let o := fun l : List (PVal Ex) => SkObj.leaf "LinearSVC" (some "0.22".toList) (linearOf [.fin 0] [.fin 0] l)
    ∃ c c' p p', convert (singles trunc initXgb) (o [.str "a", .str "b"]) = .ok c ∧ convert (singles trunc initXgb) (o [.str "b", .str "a"]) = .ok c' ∧
      (c.methods lib encode).predict = some p ∧ (c'.methods lib encode).predict = some p' ∧
      p (.arr (.ofMat [[.fin 0]])) = .ok [.str "a"] ∧ p' (.arr (.ofMat [[.fin 0]])) = .ok [.str "b"] := by
  intro o
  have h := fun l : List String => linearOf_learned (F := Ex) (c := "LinearSVC") (k := .plain) (by simp [linearClasses]) [.fin 0] [.fin 0] (strings_plain l)
  obtain ⟨c, hc, e⟩ := C89_converted_behaves trunc lib encode _ _ (.single version_022 (h ["a", "b"]))
  obtain ⟨c', hc', e'⟩ := C89_converted_behaves trunc lib encode _ _ (.single version_022 (h ["b", "a"]))
  have h0 : (ofInt 0 : Ex) = .fin 0 := by
    show XR.round ((0 : ℤ) : ℝ) = _
    rw [Int.cast_zero, XR.round_exact]
  have lab : ∀ l : List (PVal Ex), (Linear.ofFitted (([.fin 0] : List Ex).map fun x => [x]) l (some (.vector [.fin 0])) (some "multinomial") (some "lbfgs") none).predict (.ofMat [[.fin 0]]) =
      (do return [← pyGet l 0]) := by
    intro l
    have s : (Linear.ofFitted (([.fin 0] : List Ex).map fun x => [x]) l (some (.vector [.fin 0])) (some "multinomial") (some "lbfgs") none).decisionFunction (.ofMat [[.fin 0]]) =
        .ok (.flat [(ofInt 0 +ₚ ((.fin 0 : Ex) *ₚ .fin 0)) +ₚ .fin 0]) := rfl
    have z : (ofInt 0 +ₚ ((.fin 0 : Ex) *ₚ .fin 0)) +ₚ .fin 0 = .fin 0 := by
      rw [h0, ex_times, ex_plus, ex_plus]
      norm_num
    unfold Linear.predict
    rw [s, z, py_ok_bind, h0]
    simp only [mapM_cons', mapM_nil']
    have lt : ((.fin 0 : Ex) <ₚ .fin 0) = false := by
      show decide _ = false
      simp
    rw [lt]
    rfl
  refine ⟨c, c', _, _, hc, hc', by rw [e]; rfl, by rw [e']; rfl, ?_, ?_⟩
  · exact lab _
  · exact lab _

end PurePredict
