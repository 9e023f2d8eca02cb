import Verif.Lemmas.Linear
/-
C56: SGD-type classifiers offer probability methods only for `loss="log"`.
-/
namespace PurePredict
open Linear
variable {F C : Type} [Arith F]

/-- The loss names scikit-learn's SGDClassifier and Perceptron accept. -/
def Spec.sgdLosses : List String :=
  ["hinge", "log", "modified_huber", "squared_hinge", "perceptron", "squared_loss", "huber",
    "epsilon_insensitive", "squared_epsilon_insensitive"]

/-- **C56**: for any loss (any string) other than "log", no probabilities are ever returned. -/
theorem C56_no_probabilities (m : Linear F C) (l : String) (hl : m.loss = some l) (hne : l ≠ "log")
    (X : Arr F) : (∃ e, m.sgdPredictProba X = .error e) ∧ ∃ e, m.sgdPredictLogProba X = .error e := by
  have h1 : ∃ e, m.sgdPredictProba X = .error e := by
    simp only [sgdPredictProba, sgdPredictProba_, hl, attr, py_ok_bind, beq_iff_eq, hne, if_false]
    cases m.checkProba <;> exact ⟨_, rfl⟩
  refine ⟨h1, ?_⟩
  obtain ⟨e, he⟩ := h1
  simp only [sgdPredictLogProba, he]
  cases m.checkProba <;> exact ⟨_, rfl⟩

/-- **C56**: with a loss name of scikit-learn other than "log", reading the attribute already
raises AttributeError, for every request. -/
theorem C56_attribute_error (m : Linear F C) (l : String) (hl : m.loss = some l)
    (hmem : l ∈ Spec.sgdLosses) (hne : l ≠ "log") (X : Arr F) :
    m.checkProba = .error .attributeError ∧
    m.sgdPredictProba X = .error .attributeError ∧
    m.sgdPredictLogProba X = .error .attributeError := by
  have h : m.checkProba = .error .attributeError := by
    simp only [checkProba, hl, attr, py_ok_bind]
    simp only [Spec.sgdLosses, List.mem_cons, List.not_mem_nil, or_false] at hmem
    rcases hmem with rfl | rfl | rfl | rfl | rfl | rfl | rfl | rfl | rfl <;>
      first | exact absurd rfl hne | decide
  exact ⟨h, by simp [sgdPredictProba, h], by simp [sgdPredictLogProba, h]⟩

/-- **C56**: with `loss="log"` the guard passes and the methods are the logistic ones. -/
theorem C56_log_loss (m : Linear F C) (hl : m.loss = some "log") (X : Arr F) :
    m.checkProba = .ok () ∧ m.sgdPredictProba X = m.predictProbaLr X ∧
    m.sgdPredictLogProba X =
      m.predictProbaLr X >>= fun p => p.mapM fun a => a.mapM safeLog := by
  have h : m.checkProba = .ok () := by
    simp [checkProba, hl, attr]
  refine ⟨h, ?_, ?_⟩
  · simp [sgdPredictProba, h, sgdPredictProba_, hl, attr]
  · simp [sgdPredictLogProba, sgdPredictProba, h, sgdPredictProba_, hl, attr]

/-- The claim for *every* string is false: the guard is a substring test, so for the loss name "lo"
it passes and NotImplementedError, not AttributeError, is raised. -/
theorem C56_substring_guard : ∃ l : String, l ≠ "log" ∧ ∀ (m : Linear F C) (X : Arr F),
    m.loss = some l → m.checkProba = .ok () ∧
      m.sgdPredictProba X = .error .notImplementedError := by
  refine ⟨"lo", by decide, fun m X h => ?_⟩
  have h1 : m.checkProba = .ok () := by simp [checkProba, h, attr]
  exact ⟨h1, by simp [sgdPredictProba, h1, sgdPredictProba_, h, attr]⟩

/-- Non-vacuity: a hinge-loss model. -/
example (X : Arr F) : (⟨[], ([] : List C), none, none, none, some "hinge"⟩ : Linear F C).sgdPredictProba X
    = .error .attributeError :=
  (C56_attribute_error _ "hinge" rfl (by decide) (by decide) X).2.1

end PurePredict
