import Verif.Lemmas.NaiveBayes
import Verif.Props.C08
import Verif.Props.C06
/-
C20: naive Bayes probabilities.  True in exact arithmetic; false in floating point, where the
exponentials of very negative likelihoods underflow (`_logsumexp` is not stabilised).
-/
namespace PurePredict
open Spec
variable {C : Type}

/-- Probabilities of one record from its joint log likelihoods (what `predict_proba` does). -/
def nbRow {F : Type} [Arith F] (j : List F) : Py (List F) := do (← logNormalize j).mapM safeExp

/-- The claim for one arithmetic: for all finite joint log likelihoods the probabilities are
finite. -/
def NBProbaFinite (fp : FP) : Prop :=
  ∀ l : List ℝ, l ≠ [] → ∃ p, nbRow (l.map XR.fin : List (XR fp)) = .ok p ∧ ∀ q ∈ p, ∃ r, q = .fin r

/-- `predict_proba` is row by row `nbRow` of the joint log likelihoods. -/
theorem nbPredictProba_rows {F : Type} [Arith F] {jll : Arr F → Py (List (List F))}
    {M : List (List F)} (hM : M ≠ []) {J P : List (List F)} (hJ : jll (.ofMat M) = .ok J)
    (hP : J.mapM nbRow = .ok P) : nbPredictProba jll (.ofMat M) = .ok P := by
  simp only [nbPredictProba, nbPredictLogProba, checkArray_ofMat hM, py_ok_bind, hJ]
  obtain ⟨ys, h1, h2⟩ := bind_ok_iff.1 ((OkEq.mapM_comp logNormalize
    (fun a : List F => a.mapM safeExp) J P).2 hP)
  rw [h1, py_ok_bind]
  exact h2

theorem nbRow_exact (k : Nat) (hk : 0 < k) (s : Nat → ℝ) :
    nbRow (fins ((List.range k).map s)) = .ok (fins ((List.range k).map (softmax k s))) := by
  have hne : (List.range k).map s ≠ [] := by
    intro e; have := congrArg List.length e; simp at this; omega
  have hS := exp_sum_pos hne
  have hsum : (((List.range k).map s).map Real.exp).sum = ∑ j ∈ Finset.range k, Real.exp (s j) := by
    rw [List.map_map, list_sum_range]; rfl
  simp only [nbRow, logNormalize, mapM_fins (f := safeExp) (g := Real.exp) fun x _ => safeExp_exact x,
    py_ok_bind, pySum_fins, safeLog_pos hS]
  have e : ((fins ((List.range k).map s)).map fun x =>
      x -ₚ XR.fin (Real.log (((List.range k).map s).map Real.exp).sum)) =
      fins ((List.range k).map fun i =>
        s i - Real.log (((List.range k).map s).map Real.exp).sum) := by
    simp only [fins_range, List.map_map]
    apply List.map_congr_left
    intro i _
    simp
  simp only [e, py_pure, py_ok_bind]
  rw [mapM_fins (g := Real.exp) fun x _ => safeExp_exact x, List.map_map]
  congr 2
  apply List.map_congr_left
  intro i _
  simp only [Function.comp, softmax]
  rw [Real.exp_sub, Real.exp_log hS, hsum]

/-- **C20, partial** (exact arithmetic): `predict_proba` is the softmax of the joint log
likelihoods, and each row is a distribution.  Missing: floating point, where it fails. -/
theorem C20_distribution_exact_partial (jll : Arr Ex → Py (List (List Ex))) (k : Nat) (hk : 0 < k)
    (R : List (List ℝ)) (hR : R ≠ []) (score : List ℝ → Nat → ℝ)
    (h : jll (.ofMat (R.map fins)) = .ok (R.map fun x => fins ((List.range k).map (score x)))) :
    nbPredictProba jll (.ofMat (R.map fins)) =
      .ok (R.map fun x => fins ((List.range k).map (softmax k (score x)))) ∧
    ∀ x, IsDist k ((List.range k).map (softmax k (score x))) := by
  refine ⟨nbPredictProba_rows (by simpa using hR) h ?_, fun x => softmax_isDist hk _⟩
  rw [mapM_map']
  exact mapM_ok_map fun x _ => nbRow_exact k hk (score x)

/-- **C20, partial**: instances for the three models. -/
theorem C20_multinomial_exact_partial (m : DiscreteNB Ex C) (w : Nat) (hc : m.classes ≠ [])
    (lp : Nat → ℝ) (f : Nat → Nat → ℝ)
    (hlp : m.classLogPrior = fins ((List.range m.classes.length).map lp))
    (hf : m.featureLogProb = (mat m.classes.length w f).map fins) (R : List (List ℝ)) (hR : R ≠ [])
    (hw : Rect w R) :
    nbPredictProba m.jllMultinomial (.ofMat (R.map fins)) =
      .ok (R.map fun x => fins ((List.range m.classes.length).map
        (softmax m.classes.length (multiJll w lp f x)))) :=
  (C20_distribution_exact_partial _ _ (List.length_pos_iff.2 hc) R hR _
    (jllMultinomial_exact rfl lp f hlp hf hw)).1

/-- Non-vacuity of the exact part. -/
example : nbPredictProba
    (⟨fins [-1, -2], ["a", "b"], [[-1], [-3]].map fins⟩ : DiscreteNB Ex String).jllMultinomial
      (.ofMat ([[2]].map fins)) = .ok ([[2]].map fun x => fins ((List.range 2).map (softmax 2
        (multiJll 1 (fun c => if c = 0 then -1 else -2) (fun c _ => if c = 0 then -1 else -3) x)))) :=
  C20_multinomial_exact_partial
    (⟨fins [-1, -2], ["a", "b"], [[-1], [-3]].map fins⟩ : DiscreteNB Ex String) 1
    (by simp) (fun c => if c = 0 then -1 else -2) (fun c _ => if c = 0 then -1 else -3)
    (by simp [List.range_succ]) (by simp [mat, List.range_succ]) [[2]] (by simp)
    (by intro r hr; simp at hr; subst hr; rfl)

/-- In floating point, when every exponential underflows to 0, every probability is `+inf`. -/
theorem C20_underflow_infinite (fp : FP) (hs : fp.Sound) (l : List ℝ)
    (hu : ∀ x ∈ l, fp.exp x = some 0) :
    nbRow (l.map XR.fin : List (XR fp)) = .ok (List.replicate l.length .pinf) := by
  unfold nbRow logNormalize
  rw [mapM_map', mapM_ok_map (g := fun _ => (.fin 0 : XR fp))]
  · have h0 : safeLog (.fin 0 : XR fp) = .ok .ninf := by
      simp only [safeLog, XR.ofInt_zero hs, XR.eq_fin]
      simp
      rfl
    simp only [py_ok_bind, List.map_const', sum_const_zero hs, h0, py_pure, List.map_map]
    rw [mapM_map', mapM_ok_map (g := fun _ => (.pinf : XR fp))]
    · simp
    · intro x _
      rfl
  · intro x hx
    rw [C09_safe_exp_total]
    simp [npExp, hu x hx]

/-- **C20 is false of the code** in floating point: here in IEEE binary64. -/
theorem C20_finite_false : FP.binary64.Sound ∧ ¬ NBProbaFinite FP.binary64 := by
  refine ⟨FP.binary64_sound, fun h => ?_⟩
  obtain ⟨p, hp, hfin⟩ := h [-1000, -1000] (by simp)
  rw [C20_underflow_infinite _ FP.binary64_sound [-1000, -1000] (by
    intro x hx
    simp at hx
    subst hx
    exact FP.binary64_exp_underflow (by norm_num))] at hp
  cases hp
  obtain ⟨r, hr⟩ := hfin .pinf (by simp)
  cases hr

/-- The same through the API: a two-class MultinomialNB and a one-word document for which
`predict_proba` returns two infinities. -/
theorem C20_api_false :
    nbPredictProba (⟨[.fin 0, .fin 0], ["a", "b"], [[.fin (-1000)], [.fin (-1000)]]⟩ :
      DiscreteNB (XR FP.binary64) String).jllMultinomial (.ofMat [[.fin 1]]) =
      .ok [[.pinf, .pinf]] := by
  have hmul : (.fin 1 : XR FP.binary64) *ₚ .fin (-1000) = .fin (-1000) := by
    refine (FP.binary64_round (-1000) (by norm_num) (by norm_num)).trans ?_; norm_num
  have hadd : (.fin 0 : XR FP.binary64) +ₚ .fin (-1000) = .fin (-1000) := by
    refine (FP.binary64_round (-1000) (by norm_num) (by norm_num)).trans ?_; norm_num
  have hadd' : (.fin (-1000) : XR FP.binary64) +ₚ .fin 0 = .fin (-1000) := by
    refine (FP.binary64_round (-1000) (by norm_num) (by norm_num)).trans ?_; norm_num
  have h0 := XR.ofInt_zero FP.binary64_sound
  refine nbPredictProba_rows (by simp) (J := [[.fin (-1000), .fin (-1000)]]) ?_ ?_
  · simp only [DiscreteNB.jllMultinomial, rows_ofMat, py_ok_bind]
    have hd : dot (.list [.fin 1]) [[.fin (-1000)], [.fin (-1000)]] =
        .ok [(.fin (-1000) : XR FP.binary64), .fin (-1000)] := by
      simp [dot, dotList, pySum, h0, hmul, hadd]
    simp [hd, List.range_succ, hadd']
  · have := C20_underflow_infinite FP.binary64 FP.binary64_sound [-1000, -1000] (by
      intro x hx
      simp at hx
      subst hx
      exact FP.binary64_exp_underflow (by norm_num))
    simp only [List.map_cons, List.map_nil] at this
    simp [this]

end PurePredict
