import Verif.Model.Ensemble
import Verif.Lemmas.XR
import Verif.Lemmas.Links
/-
C21: DummyClassifier.  `predict` returns the position of the largest prior, not the class label.
-/
namespace PurePredict
variable {F : Type} [Arith F]

/-- The claim, for integer labels: a dummy fitted with strategy "prior" predicts for every record
the label of the first largest prior. -/
def DummyPredictsLabel (F : Type) [Arith F] : Prop :=
  ∀ (classes : List Int) (prior : List F) (d : Dummy F) (i : Nat) (l : Int) (X : Arr F) (n : Nat),
    classes.length = prior.length → Dummy.ofFitted "prior" prior = .ok d →
    argmax prior = .ok i → classes[i]? = some l → X.len = .ok n →
    ∃ ys : List Nat, d.predict X = .ok ys ∧ ys.map (fun (y : Nat) => (y : Int)) = List.replicate n l

/-- What it does: the *position* of the first largest prior, once per record. -/
theorem C21_predict_is_position (d : Dummy F) (X : Arr F) (n i : Nat) (hX : X.len = .ok n)
    (hi : argmax d.classPrior = .ok i) : d.predict X = .ok (List.replicate n i) := by
  simp [Dummy.predict, hi, hX]

/-- `predict_proba` returns the prior for every record. -/
theorem C21_proba_is_prior (d : Dummy F) (X : Arr F) (n : Nat) (hX : X.len = .ok n) :
    d.predictProba X = .ok (List.replicate n d.classPrior) := by
  simp [Dummy.predictProba, hX]

/-- Strategies other than "prior" are refused at conversion. -/
theorem C21_strategy (strategy : String) (prior : List F) :
    (∃ d, Dummy.ofFitted strategy prior = .ok d) ↔ strategy = "prior" := by
  unfold Dummy.ofFitted
  by_cases h : strategy = "prior"
  · simp [h]
  · simp [h]

/-- **C21 is false**: labels 10 and 20 with priors 1/4 and 3/4; the code predicts 1. -/
theorem C21_label_false : ¬ DummyPredictsLabel Ex := by
  intro h
  have ham : argmax (fins [1 / 4, 3 / 4]) = .ok 1 := by
    refine argmax_fins.2 ?_
    have := isFirstMax_pair (a := 1 / 4) (b := 3 / 4)
    rw [if_pos (by norm_num)] at this
    exact this
  obtain ⟨ys, h1, h2⟩ := h [10, 20] (fins [1 / 4, 3 / 4]) ⟨fins [1 / 4, 3 / 4]⟩ 1 20 (.ofMat [[]]) 1
    (by simp) rfl ham rfl (by simp)
  rw [C21_predict_is_position ⟨fins [1 / 4, 3 / 4]⟩ _ 1 1 (by simp) ham] at h1
  cases h1
  simp at h2

/-- **C21, partial**: right when label `i` is the integer `i`. -/
theorem C21_index_labels_partial (k : Nat) (prior : List F) (d : Dummy F) (i : Nat) (X : Arr F)
    (n : Nat) (hk : prior.length = k) (hd : Dummy.ofFitted "prior" prior = .ok d)
    (hi : argmax prior = .ok i) (hX : X.len = .ok n) :
    ∃ l, (List.range k)[i]? = some l ∧ d.predict X = .ok (List.replicate n l) := by
  have : d = ⟨prior⟩ := by
    simp [Dummy.ofFitted] at hd; exact hd.symm
  subst this
  have hlt : i < k := by rw [← hk]; exact argmax_lt hi
  exact ⟨i, by simp [hlt], C21_predict_is_position _ X n i hX hi⟩

/-- Non-vacuity of the partial theorem. -/
example : argmax (fins [1 / 4, 3 / 4]) = .ok 1 := by
  refine argmax_fins.2 ?_
  have := isFirstMax_pair (a := 1 / 4) (b := 3 / 4)
  rw [if_pos (by norm_num)] at this
  exact this

end PurePredict
