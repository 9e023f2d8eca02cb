import Verif.Model.Pipeline
import Verif.Spec.Pipeline
import Verif.Lemmas.Basic
/-
C41: a pipeline is the composition of its steps.
-/
namespace PurePredict
open Spec
variable {D L P : Type}

/-- The steps `ss` are estimators whose `transform` methods are `fs`. -/
def HasTransforms (ss : List (String × Option (Est D L P))) (fs : List (D → Py D)) : Prop :=
  List.Forall₂ (fun s f => ∃ e, s.2 = some e ∧ e.transform = some f) ss fs

theorem applyAll_runs {ss : List (String × Option (Est D L P))} {fs : List (D → Py D)}
    (h : HasTransforms ss fs) (x y : D) : Pipeline.applyAll ss x = .ok y ↔ Runs fs x y := by
  induction h generalizing x with
  | nil =>
    constructor
    · intro h; cases h; exact .nil _
    · intro h; cases h; rfl
  | @cons s f ss fs hs _ ih =>
    obtain ⟨n, o⟩ := s
    obtain ⟨e, rfl, he⟩ := hs
    simp only [Pipeline.applyAll, he]
    constructor
    · intro h
      obtain ⟨z, hz, hy⟩ := bind_ok_iff.1 h
      exact .cons hz ((ih z).1 hy)
    · intro h
      cases h with
      | cons hz hy => exact bind_ok_iff.2 ⟨_, hz, (ih _).2 hy⟩

theorem applyAll_fails {ss : List (String × Option (Est D L P))} {fs : List (D → Py D)}
    (h : HasTransforms ss fs) (x : D) (e : PyErr) :
    Pipeline.applyAll ss x = .error e ↔ Fails fs x e := by
  induction h generalizing x with
  | nil =>
    constructor
    · intro h; cases h
    · intro h; cases h
  | @cons s f ss fs hs _ ih =>
    obtain ⟨n, o⟩ := s
    obtain ⟨est, rfl, he⟩ := hs
    simp only [Pipeline.applyAll, he]
    constructor
    · intro h
      rcases bind_error_iff.1 h with h | ⟨z, hz, hy⟩
      · exact .here h
      · exact .later hz ((ih z).1 hy)
    · intro h
      cases h with
      | here h => exact bind_error_iff.2 (.inl h)
      | later hz hy => exact bind_error_iff.2 (.inr ⟨_, hz, (ih _).2 hy⟩)

/-- The three delegated methods, as one statement: reading the method `m` of the final estimator. -/
theorem delegated_last {R : Type} (front : List (String × Option (Est D L P))) (name : String)
    (e : Est D L P) (m : Est D L P → Option (D → Py R)) :
    (⟨front ++ [(name, some e)]⟩ : Pipeline D L P).delegated m =
      match m e with
      | none => .error .attributeError
      | some f => .ok f := by
  simp only [Pipeline.delegated, Pipeline.finalEstimator, List.getLast?_append, List.getLast?_singleton,
    Option.some_or, py_ok_bind]
  cases m e <;> rfl

/-- Running a pipeline whose final method is `g`: what "transform in order, then call `g`" means. -/
structure Composition {R : Type} (fs : List (D → Py D)) (g : D → Py R) (run : D → Py R) : Prop where
  ok : ∀ x r, run x = .ok r ↔ ∃ y, Runs fs x y ∧ g y = .ok r
  error : ∀ x e, run x = .error e ↔ Fails fs x e ∨ ∃ y, Runs fs x y ∧ g y = .error e

theorem composition_of {R : Type} {ss : List (String × Option (Est D L P))} {fs : List (D → Py D)}
    (h : HasTransforms ss fs) (g : D → Py R) :
    Composition fs g (fun x => do g (← Pipeline.applyAll ss x)) where
  ok x r := by
    rw [bind_ok_iff]
    exact exists_congr fun y => and_congr_left fun _ => applyAll_runs h x y
  error x e := by
    rw [bind_error_iff]
    exact or_congr (applyAll_fails h x e)
      (exists_congr fun y => and_congr_left fun _ => applyAll_runs h x y)

theorem applyAll_append (a b : List (String × Option (Est D L P))) (x : D) :
    Pipeline.applyAll (a ++ b) x = (Pipeline.applyAll a x >>= Pipeline.applyAll b) := by
  induction a generalizing x with
  | nil => rfl
  | cons s a ih =>
    obtain ⟨n, _ | e⟩ := s
    · exact ih x
    · simp only [List.cons_append, Pipeline.applyAll]
      cases e.transform with
      | none => rfl
      | some f =>
        cases hf : f x with
        | error e => simp [hf]
        | ok y => simp only [hf, py_ok_bind]; exact ih y

section
variable {front : List (String × Option (Est D L P))} {fs : List (D → Py D)} (h : HasTransforms front fs)
  (name : String) (e : Est D L P)
include h

/-- **C41** for `predict`. -/
theorem C41_predict {g : D → Py L} (hg : e.predict = some g) :
    Composition fs g (⟨front ++ [(name, some e)]⟩ : Pipeline D L P).predict := by
  have := composition_of h g
  refine cast (congrArg _ ?_) this
  funext x
  simp [Pipeline.predict, delegated_last, hg, Pipeline.front]

/-- **C41** for `predict_proba`. -/
theorem C41_predict_proba {g : D → Py P} (hg : e.predictProba = some g) :
    Composition fs g (⟨front ++ [(name, some e)]⟩ : Pipeline D L P).predictProba := by
  have := composition_of h g
  refine cast (congrArg _ ?_) this
  funext x
  simp [Pipeline.predictProba, delegated_last, hg, Pipeline.front]

/-- **C41** for `predict_log_proba`. -/
theorem C41_predict_log_proba {g : D → Py P} (hg : e.predictLogProba = some g) :
    Composition fs g (⟨front ++ [(name, some e)]⟩ : Pipeline D L P).predictLogProba := by
  have := composition_of h g
  refine cast (congrArg _ ?_) this
  funext x
  simp [Pipeline.predictLogProba, delegated_last, hg, Pipeline.front]

/-- **C41** for `transform`. -/
theorem C41_transform {g : D → Py D} (hg : e.transform = some g) :
    Composition fs g (⟨front ++ [(name, some e)]⟩ : Pipeline D L P).transform := by
  have := composition_of h g
  refine cast (congrArg _ ?_) this
  funext x
  simp only [Pipeline.transform, Pipeline.finalEstimator, List.getLast?_append, List.getLast?_singleton,
    Option.some_or, py_ok_bind, hg, Option.isNone_some, Bool.false_eq_true, if_false, applyAll_append]
  congr 1
  funext y
  simp only [Pipeline.applyAll, hg]
  cases g y <;> rfl
end

/-- **C41**: a method the final step lacks is absent: every use raises `AttributeError`, whatever the
other steps would do. -/
theorem C41_absent (front : List (String × Option (Est D L P))) (name : String) (e : Est D L P) (x : D) :
    (e.predict = none →
      (⟨front ++ [(name, some e)]⟩ : Pipeline D L P).predict x = .error .attributeError) ∧
    (e.predictProba = none →
      (⟨front ++ [(name, some e)]⟩ : Pipeline D L P).predictProba x = .error .attributeError) ∧
    (e.predictLogProba = none →
      (⟨front ++ [(name, some e)]⟩ : Pipeline D L P).predictLogProba x = .error .attributeError) ∧
    (e.transform = none →
      (⟨front ++ [(name, some e)]⟩ : Pipeline D L P).transform x = .error .attributeError) := by
  refine ⟨fun h => ?_, fun h => ?_, fun h => ?_, fun h => ?_⟩
  · simp [Pipeline.predict, delegated_last, h]
  · simp [Pipeline.predictProba, delegated_last, h]
  · simp [Pipeline.predictLogProba, delegated_last, h]
  · simp [Pipeline.transform, Pipeline.finalEstimator, h]

/-- **C41**: steps that are `None`/`"passthrough"` are skipped. -/
theorem C41_passthrough (a b : List (String × Option (Est D L P))) (n : String) (s) (x : D) :
    (⟨a ++ (n, none) :: b ++ [s]⟩ : Pipeline D L P).predict x = (⟨a ++ b ++ [s]⟩ : Pipeline D L P).predict x ∧
    (⟨a ++ (n, none) :: b ++ [s]⟩ : Pipeline D L P).predictProba x =
      (⟨a ++ b ++ [s]⟩ : Pipeline D L P).predictProba x ∧
    (⟨a ++ (n, none) :: b ++ [s]⟩ : Pipeline D L P).transform x =
      (⟨a ++ b ++ [s]⟩ : Pipeline D L P).transform x := by
  have h : ∀ c : List (String × Option (Est D L P)),
      Pipeline.applyAll (a ++ (n, none) :: c) x = Pipeline.applyAll (a ++ c) x := by
    intro c
    rw [applyAll_append, applyAll_append]
    rfl
  have hb := h b
  have hbs := h (b ++ [s])
  refine ⟨?_, ?_, ?_⟩
  · simp only [Pipeline.predict, Pipeline.delegated, Pipeline.finalEstimator, Pipeline.front,
      List.dropLast_concat, List.getLast?_concat, hb]
  · simp only [Pipeline.predictProba, Pipeline.delegated, Pipeline.finalEstimator, Pipeline.front,
      List.dropLast_concat, List.getLast?_concat, hb]
  · simp only [Pipeline.transform, Pipeline.finalEstimator, List.getLast?_concat]
    simp only [List.append_assoc, List.cons_append, hbs]

/-- **C41**: nesting.  A pipeline used as a step behaves as its steps written out in place. -/
theorem C41_nested (inner : List (String × Option (Est D L P))) (n n' : String) (e : Est D L P)
    (he : e.transform.isSome) (nest : Est D L P)
    (hn : nest.transform = some (⟨inner ++ [(n', some e)]⟩ : Pipeline D L P).transform)
    (a b : List (String × Option (Est D L P))) (x : D) :
    Pipeline.applyAll (a ++ (n, some nest) :: b) x =
      Pipeline.applyAll (a ++ (inner ++ [(n', some e)]) ++ b) x := by
  rw [List.append_assoc, applyAll_append,
    applyAll_append]
  congr 1
  funext y
  rw [applyAll_append]
  simp only [Pipeline.applyAll, hn]
  congr 1
  obtain ⟨g, hg⟩ := Option.isSome_iff_exists.1 he
  simp [Pipeline.transform, Pipeline.finalEstimator, hg]

/-- **C41**: a pipeline without steps raises `IndexError`. -/
theorem C41_empty (x : D) : (⟨[]⟩ : Pipeline D L P).predict x = .error .indexError ∧
    (⟨[]⟩ : Pipeline D L P).predictProba x = .error .indexError ∧
    (⟨[]⟩ : Pipeline D L P).transform x = .error .indexError := ⟨rfl, rfl, rfl⟩

/-- Non-vacuity: two transformers (the second fails on 0) and a final classifier. -/
example :
    let inc : Est Int Int Int := ⟨some fun x => .ok (x + 1), none, none, none⟩
    let inv : Est Int Int Int := ⟨some fun x => if x = 0 then .error .zeroDivisionError else .ok (10 / x),
      none, none, none⟩
    let clf : Est Int Int Int := ⟨none, some fun x => .ok (2 * x), none, none⟩
    let p : Pipeline Int Int Int := ⟨[("a", some inc), ("b", some inv)] ++ [("c", some clf)]⟩
    Composition [fun x => .ok (x + 1), fun x => if x = 0 then .error .zeroDivisionError else .ok (10 / x)]
      (fun x => .ok (2 * x)) p.predict ∧
    p.predict 4 = .ok 4 ∧ p.predict (-1) = .error .zeroDivisionError ∧
    p.predictProba 4 = .error .attributeError ∧ p.transform 4 = .error .attributeError := by
  refine ⟨?_, rfl, rfl, rfl, rfl⟩
  refine C41_predict (front := [("a", some _), ("b", some _)]) ?_ _ _ rfl
  exact .cons ⟨_, rfl, rfl⟩ (.cons ⟨_, rfl, rfl⟩ .nil)

end PurePredict
