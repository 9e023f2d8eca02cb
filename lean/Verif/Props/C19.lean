import Verif.Lemmas.NaiveBayes
/-
C19: naive Bayes predicts the first class of maximal joint log likelihood.
-/
namespace PurePredict
open Spec
variable {C : Type}

/-- The labels are those of the first largest score of each record. -/
def FirstMaxLabels (classes : List C) (score : List ℝ → Nat → ℝ) (R : List (List ℝ))
    (labels : List C) : Prop :=
  List.Forall₂ (fun x l => ∃ c, IsFirstMax ((List.range classes.length).map (score x)) c ∧
    classes[c]? = some l) R labels

theorem nbPredict_exact {jll : Arr Ex → Py (List (List Ex))} {classes : List C}
    (hc : classes ≠ []) {R : List (List ℝ)} (hR : R ≠ []) {score : List ℝ → Nat → ℝ}
    (h : jll (.ofMat (R.map fins)) =
      .ok (R.map fun x => fins ((List.range classes.length).map (score x)))) :
    ∃ labels, nbPredict jll classes (.ofMat (R.map fins)) = .ok labels ∧
      FirstMaxLabels classes score R labels := by
  have hpos : 0 < classes.length := List.length_pos_iff.2 hc
  have : Nonempty C := ⟨classes.head hc⟩
  have hrow : ∀ x : List ℝ, ∃ l c, argmax (fins ((List.range classes.length).map (score x))) = .ok c
      ∧ classes[c]? = some l := by
    intro x
    obtain ⟨c, hcm⟩ := argmax_total (l := fins ((List.range classes.length).map (score x))) (by
      intro e; have := congrArg List.length e; simp at this; exact hc this)
    have hlt : c < classes.length := by simpa using argmax_lt hcm
    exact ⟨classes[c], c, hcm, by simp [hlt]⟩
  choose l c h1 h2 using hrow
  refine ⟨R.map l, ?_, ?_⟩
  · simp only [nbPredict, checkArray_ofMat (show R.map fins ≠ [] by simpa using hR), py_ok_bind, h]
    rw [mapM_map']
    apply mapM_ok_map
    intro x _
    simp only [h1 x, py_ok_bind]
    exact pyGet_ok_nat.2 (h2 x)
  · unfold FirstMaxLabels
    rw [List.forall₂_map_right_iff, List.forall₂_same]
    exact fun x _ => ⟨c x, argmax_fins.1 (h1 x), h2 x⟩

/-- **C19** MultinomialNB: the label of the first class maximising
`log prior + sum of counts * log probabilities`. -/
theorem C19_multinomial (m : DiscreteNB Ex C) (w : Nat) (hc : m.classes ≠ []) (lp : Nat → ℝ)
    (f : Nat → Nat → ℝ) (hlp : m.classLogPrior = fins ((List.range m.classes.length).map lp))
    (hf : m.featureLogProb = (mat m.classes.length w f).map fins) (R : List (List ℝ)) (hR : R ≠ [])
    (hw : Rect w R) :
    ∃ labels, nbPredict m.jllMultinomial m.classes (.ofMat (R.map fins)) = .ok labels ∧
      FirstMaxLabels m.classes (multiJll w lp f) R labels :=
  nbPredict_exact hc hR (jllMultinomial_exact rfl lp f hlp hf hw)

/-- **C19** ComplementNB. -/
theorem C19_complement (m : DiscreteNB Ex C) (w : Nat) (hc : m.classes ≠ []) (lp : Nat → ℝ)
    (f : Nat → Nat → ℝ) (hlp : m.classLogPrior = fins ((List.range m.classes.length).map lp))
    (hf : m.featureLogProb = (mat m.classes.length w f).map fins) (R : List (List ℝ)) (hR : R ≠ [])
    (hw : Rect w R) :
    ∃ labels, nbPredict m.jllComplement m.classes (.ofMat (R.map fins)) = .ok labels ∧
      FirstMaxLabels m.classes (compJll w m.classes.length lp f) R labels :=
  nbPredict_exact hc hR (jllComplement_exact rfl lp f hlp hf hw)

/-- **C19** GaussianNB: log prior plus the sum of the log normal densities. -/
theorem C19_gaussian (m : GaussianNB Ex C) (w : Nat) (hc : m.classes ≠ []) (prior : Nat → ℝ)
    (θ σ : Nat → Nat → ℝ) (hp : m.classPrior = fins ((List.range m.classes.length).map prior))
    (hθ : m.theta = (mat m.classes.length w θ).map fins)
    (hσ : m.sigma = (mat m.classes.length w σ).map fins)
    (hpos : ∀ c < m.classes.length, 0 < prior c)
    (hσpos : ∀ c < m.classes.length, ∀ i < w, 0 < σ c i) (R : List (List ℝ)) (hR : R ≠ [])
    (hw : Rect w R) :
    ∃ labels, nbPredict m.jll m.classes (.ofMat (R.map fins)) = .ok labels ∧
      FirstMaxLabels m.classes (gaussJll w prior θ σ) R labels :=
  nbPredict_exact hc hR
    (jllGaussian_exact rfl (List.length_pos_iff.2 hc) hp hθ hσ hpos hσpos hw)

/-- **C19**, floating point: whatever the computed joint log likelihoods are (no NaN), `predict`
returns the label of the first largest one. -/
theorem C19_predict_first_max_rounded (fp : FP) (jll : Arr (XR fp) → Py (List (List (XR fp))))
    (classes : List C) (hc : classes ≠ []) (M : List (List (XR fp))) (hM : M ≠ [])
    (J : List (List (XR fp))) (hJ : jll (.ofMat M) = .ok J) (hlen : Rect classes.length J)
    (hnan : ∀ j ∈ J, XR.nan ∉ j) :
    ∃ labels, nbPredict jll classes (.ofMat M) = .ok labels ∧
      List.Forall₂ (fun j l => ∃ c, IsFirstMax (j.map XR.toE) c ∧ classes[c]? = some l) J labels := by
  have : Nonempty C := ⟨classes.head hc⟩
  have hrow : ∀ j ∈ J, ∃ l c, argmax j = .ok c ∧ classes[c]? = some l := by
    intro j hj
    obtain ⟨c, hcm⟩ := argmax_total (l := j) (by
      rintro rfl
      have := hlen [] hj
      simp at this
      exact hc (List.length_eq_zero_iff.1 this.symm))
    have hlt : c < classes.length := by rw [← hlen j hj]; exact argmax_lt hcm
    exact ⟨classes[c], c, hcm, by simp [hlt]⟩
  choose! l c h1 h2 using hrow
  refine ⟨J.map l, ?_, ?_⟩
  · simp only [nbPredict, checkArray_ofMat hM, py_ok_bind, hJ]
    apply mapM_ok_map
    intro j hj
    simp only [h1 j hj, py_ok_bind]
    exact pyGet_ok_nat.2 (h2 j hj)
  · rw [List.forall₂_map_right_iff, List.forall₂_same]
    exact fun j hj => ⟨c j, (argmax_iff _ (XR.ordOn_toE (hnan j hj))).1 (h1 j hj), h2 j hj⟩

/-- Sparse input is refused by all naive Bayes models (scikit-learn's multinomial and complement
models accept it). -/
theorem C19_sparse_refused {F : Type} [Arith F] (jll : Arr F → Py (List (List F)))
    (classes : List C) (ds : List (Dict Int F)) (n : Option Nat) (dt : DType) :
    nbPredict jll classes (.sparse ds n dt) = .error .valueError ∧
    nbPredictProba jll (.sparse ds n dt) = .error .valueError := ⟨rfl, rfl⟩

/-- Non-vacuity: two classes, one feature. -/
example : ∃ labels, nbPredict
    (⟨fins [-1, -2], ["a", "b"], [[-1], [-3]].map fins⟩ : DiscreteNB Ex String).jllMultinomial
      ["a", "b"] (.ofMat ([[2]].map fins)) = .ok labels ∧
      FirstMaxLabels ["a", "b"] (multiJll 1 (fun c => if c = 0 then -1 else -2)
        fun c _ => if c = 0 then -1 else -3) [[2]] labels :=
  C19_multinomial (⟨fins [-1, -2], ["a", "b"], [[-1], [-3]].map fins⟩ : DiscreteNB Ex String) 1
    (by simp) (fun c => if c = 0 then -1 else -2) (fun c _ => if c = 0 then -1 else -3)
    (by simp [List.range_succ]) (by simp [mat, List.range_succ]) [[2]] (by simp)
    (by intro r hr; simp at hr; subst hr; rfl)

/-- Non-vacuity of the Gaussian hypotheses: positive priors and variances. -/
example : ∃ labels, nbPredict
    (⟨fins [1 / 2, 1 / 2], ["a", "b"], [[1], [4]].map fins, [[0], [3]].map fins⟩ :
      GaussianNB Ex String).jll ["a", "b"] (.ofMat ([[2]].map fins)) = .ok labels ∧
      FirstMaxLabels ["a", "b"] (gaussJll 1 (fun _ => 1 / 2) (fun c _ => if c = 0 then 0 else 3)
        fun c _ => if c = 0 then 1 else 4) [[2]] labels :=
  C19_gaussian (⟨fins [1 / 2, 1 / 2], ["a", "b"], [[1], [4]].map fins, [[0], [3]].map fins⟩ :
      GaussianNB Ex String) 1 (by simp) (fun _ => 1 / 2) (fun c _ => if c = 0 then 0 else 3)
    (fun c _ => if c = 0 then 1 else 4) (by simp [List.range_succ])
    (by simp [mat, List.range_succ]) (by simp [mat, List.range_succ]) (fun _ _ => by norm_num)
    (fun c _ i _ => by split <;> norm_num) [[2]] (by simp)
    (by intro r hr; simp at hr; subst hr; rfl)

end PurePredict
