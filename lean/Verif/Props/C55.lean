import Verif.Props.C09
import Verif.Props.C20
import Verif.Lemmas.Mat
import Verif.Lemmas.Links
/-
C55: `predict_log_proba` is the entrywise logarithm of `predict_proba`.  True of the linear, tree,
ensemble and dummy classifiers in every sound rounding, and of naive Bayes in exact arithmetic.
For naive Bayes in floating point it is false: there `predict_proba` is computed from
`predict_log_proba`, and an underflowing probability loses its logarithm.
-/
namespace PurePredict
open Spec
variable {C : Type}

/-- `logp` is the entrywise numpy logarithm of `proba`: same successes with the logarithms taken
entry by entry, same exceptions. -/
def Spec.IsLogOf (fp : FP) (proba logp : Py (List (List (XR fp)))) : Prop :=
  (∀ P, proba = .ok P → logp = .ok (P.map fun a => a.map (npLog fp))) ∧
  ∀ e, proba = .error e → logp = .error e

/-- Taking safe logarithms of every entry. -/
theorem isLogOf_mapM {fp : FP} (hs : fp.Sound) (proba : Py (List (List (XR fp)))) :
    IsLogOf fp proba (proba >>= fun P => P.mapM fun a => a.mapM safeLog) := by
  constructor
  · rintro P rfl
    rw [py_ok_bind, mapM_ok_map fun a _ => ?_]
    rw [mapM_ok_map fun x _ => C09_safe_log_total fp hs x]
  · rintro e rfl; rfl

theorem isLogOf_apply2d {fp : FP} (hs : fp.Sound) (proba : Py (List (List (XR fp)))) :
    IsLogOf fp proba (proba >>= fun P => apply2d (.ofMat P) safeLog) := by
  have := isLogOf_mapM hs proba
  simpa only [apply2d_ofMat] using this

variable {fp : FP}

/-- **C55** for LogisticRegression (and LogisticRegressionCV). -/
theorem C55_logistic (hs : fp.Sound) (m : Linear (XR fp) C) (X : Arr (XR fp)) :
    IsLogOf fp (m.predictProba X) (m.predictLogProba X) := isLogOf_mapM hs _

/-- **C55** for SGDClassifier: the same exceptions too, in particular the AttributeError of losses
without probabilities. -/
theorem C55_sgd (hs : fp.Sound) (m : Linear (XR fp) C) (X : Arr (XR fp)) :
    IsLogOf fp (m.sgdPredictProba X) (m.sgdPredictLogProba X) := by
  have h := isLogOf_mapM hs (m.sgdPredictProba X)
  have e : m.sgdPredictLogProba X =
      (m.sgdPredictProba X >>= fun P => P.mapM fun a => a.mapM safeLog) := by
    simp only [Linear.sgdPredictLogProba, Linear.sgdPredictProba]
    cases m.checkProba <;> rfl
  rw [e]; exact h

/-- **C55** for DecisionTreeClassifier and ExtraTreeClassifier. -/
theorem C55_tree (hs : fp.Sound) (t : Tree (XR fp) C) (X : Arr (XR fp)) :
    IsLogOf fp (t.predictProba X) (t.predictLogProba X) := isLogOf_mapM hs _

/-- **C55** for BaggingClassifier, RandomForestClassifier and ExtraTreesClassifier. -/
theorem C55_bagging (hs : fp.Sound) (b : Bagging (XR fp) C) (X : Arr (XR fp)) :
    IsLogOf fp (b.predictProba X) (b.predictLogProba X) := isLogOf_apply2d hs _

/-- **C55** for GradientBoostingClassifier. -/
theorem C55_gb (hs : fp.Sound) (g : GB (XR fp) C) (X : Arr (XR fp)) :
    IsLogOf fp (g.predictProba X) (g.predictLogProba X) := isLogOf_apply2d hs _

/-- **C55** for DummyClassifier. -/
theorem C55_dummy (hs : fp.Sound) (d : Dummy (XR fp)) (X : Arr (XR fp)) :
    IsLogOf fp (d.predictProba X) (d.predictLogProba X) := isLogOf_apply2d hs _

/-- Non-vacuity: a dummy classifier with a class of prior 0 has log-probability -inf there, and 0
for the certain class. -/
example : (⟨[.fin 0, .fin 1]⟩ : Dummy Ex).predictLogProba (.ofMat [[.fin 3]]) =
    .ok [[.ninf, .fin 0]] := by
  rw [(C55_dummy FP.exact_sound _ _).1 [[.fin 0, .fin 1]] (by simp [Dummy.predictProba, len_ofMat])]
  simp [npLog, FP.exact, show ¬ (1 : ℝ) < 0 by norm_num]
  rfl

/-- Non-vacuity: a one-leaf tree with class counts 1 and 3 has log-probabilities log(1/4) and
log(3/4). -/
example : (⟨[-1], [-1], [-2], [.fin (-2)], [fins [1, 3]], [0, 1]⟩ : Tree Ex Nat).predictLogProba
    (.ofMat [[.fin 0]]) = .ok [fins [Real.log (1 / 4), Real.log (3 / 4)]] := by
  rw [(C55_tree FP.exact_sound _ _).1 [fins [1 / 4, 3 / 4]] ?_]
  · have h1 : ¬ ((1 : ℝ) / 4 = 0 ∨ (1 : ℝ) / 4 < 0) := by norm_num
    have h2 : ¬ ((3 : ℝ) / 4 = 0 ∨ (3 : ℝ) / 4 < 0) := by norm_num
    rw [not_or] at h1 h2
    simp only [fins_def, List.map_cons, List.map_nil, npLog, h1.1, h1.2, h2.1, h2.2, if_false]
    rfl
  · simp only [Tree.predictProba, checkArray_ofMat (List.cons_ne_nil _ _), py_ok_bind, rows_ofMat]
    have h1 : (⟨[-1], [-1], [-2], [.fin (-2)], [fins [1, 3]], [0, 1]⟩ : Tree Ex Nat).getLeafNode
      (.list [.fin 0]) = .ok 0 := rfl
    have h2 : pyGet [(fins [1, 3] : List Ex)] 0 = .ok (fins [1, 3]) := rfl
    simp only [List.map_cons, List.map_nil, mapM_cons', h1, py_ok_bind, mapM_nil', py_pure,
      Tree.probaFromLeaf, h2, pySum_fins]
    rw [mapM_fins (g := fun x => x / 4) fun x _ => ?_]
    · simp
    · have : ([1, 3] : List ℝ).sum = 4 := by norm_num
      rw [this, XR.div_exact _ (by norm_num)]

/-! ### Naive Bayes -/

/-- `predict_log_proba` row by row. -/
theorem nbPredictLogProba_rows {F : Type} [Arith F] {jll : Arr F → Py (List (List F))}
    {M : List (List F)} (hM : M ≠ []) {J : List (List F)} (hJ : jll (.ofMat M) = .ok J) :
    nbPredictLogProba jll (.ofMat M) = J.mapM logNormalize := by
  simp only [nbPredictLogProba, checkArray_ofMat hM, py_ok_bind, hJ]

theorem logNormalize_exact (k : Nat) (hk : 0 < k) (s : Nat → ℝ) :
    logNormalize (fins ((List.range k).map s)) =
      .ok (fins ((List.range k).map fun i => Real.log (softmax k s i))) := by
  have hne : (List.range k).map s ≠ [] := by
    intro e; have := congrArg List.length e; simp at this; omega
  have hS := exp_sum_pos hne
  have hsum : (((List.range k).map s).map Real.exp).sum = ∑ j ∈ Finset.range k, Real.exp (s j) := by
    rw [List.map_map, list_sum_range]; rfl
  simp only [logNormalize, mapM_fins (f := safeExp) (g := Real.exp) fun x _ => safeExp_exact x,
    py_ok_bind, pySum_fins, safeLog_pos hS, py_pure]
  congr 1
  simp only [fins_range, List.map_map]
  apply List.map_congr_left
  intro i _
  simp only [Function.comp, softmax, XR.sub_exact]
  rw [Real.log_div (Real.exp_pos _).ne' (by rw [← hsum]; exact hS.ne'), Real.log_exp, ← hsum, List.map_map]

/-- **C55** for the naive Bayes classifiers, in exact arithmetic: log-probabilities are the
logarithms of the probabilities.  Missing: floating point, where it is false
(`C55_naive_bayes_false`). -/
theorem C55_naive_bayes_exact_partial (jll : Arr Ex → Py (List (List Ex))) (k : Nat) (hk : 0 < k)
    (R : List (List ℝ)) (hR : R ≠ []) (score : List ℝ → Nat → ℝ)
    (h : jll (.ofMat (R.map fins)) = .ok (R.map fun x => fins ((List.range k).map (score x)))) :
    ∃ P, nbPredictProba jll (.ofMat (R.map fins)) = .ok P ∧
      nbPredictLogProba jll (.ofMat (R.map fins)) = .ok (P.map fun a => a.map (npLog FP.exact)) := by
  refine ⟨_, (C20_distribution_exact_partial jll k hk R hR score h).1, ?_⟩
  rw [nbPredictLogProba_rows (by simpa using hR) h, mapM_map',
    mapM_ok_map fun x _ => logNormalize_exact k hk (score x), List.map_map]
  congr 1
  apply List.map_congr_left
  intro x _
  simp only [Function.comp, fins_range, List.map_map]
  apply List.map_congr_left
  intro i _
  have hp : 0 < softmax k (score x) i := by
    have : (0 : ℝ) < ∑ j ∈ Finset.range k, Real.exp (score x j) :=
      Finset.sum_pos (fun _ _ => Real.exp_pos _) ⟨0, by simpa using hk⟩
    exact div_pos (Real.exp_pos _) this
  simp only [Function.comp, npLog, hp.ne', not_lt.2 hp.le, if_false]
  rfl

/-- Non-vacuity of the exact part (the multinomial model of C20). -/
example : ∃ P, nbPredictProba
    (⟨fins [-1, -2], ["a", "b"], [[-1], [-3]].map fins⟩ : DiscreteNB Ex String).jllMultinomial
      (.ofMat ([[2]].map fins)) = .ok P ∧ nbPredictLogProba
    (⟨fins [-1, -2], ["a", "b"], [[-1], [-3]].map fins⟩ : DiscreteNB Ex String).jllMultinomial
      (.ofMat ([[2]].map fins)) = .ok (P.map fun a => a.map (npLog FP.exact)) :=
  C55_naive_bayes_exact_partial _ 2 (by norm_num) [[2]] (by simp) _
    (jllMultinomial_exact (m := (⟨fins [-1, -2], ["a", "b"], [[-1], [-3]].map fins⟩ :
      DiscreteNB Ex String)) rfl (fun c => if c = 0 then -1 else -2)
      (fun c _ => if c = 0 then -1 else -3) (by simp [List.range_succ])
      (by simp [mat, List.range_succ]) (w := 1) (by intro r hr; simp at hr; subst hr; rfl))

/-- In floating point the probability of an impossible class underflows while its log-probability
does not: log likelihoods 0 and -1000 give probabilities 1 and 0 but log-probabilities 0, -1000. -/
theorem C55_naive_bayes_underflow :
    nbRow ([.fin 0, .fin (-1000)] : List (XR FP.binary64)) = .ok [.fin 1, .fin 0] ∧
    logNormalize ([.fin 0, .fin (-1000)] : List (XR FP.binary64)) = .ok [.fin 0, .fin (-1000)] := by
  have hs := FP.binary64_sound
  have hadd1 : (.fin 0 : XR FP.binary64) +ₚ .fin 1 = .fin 1 := by
    refine (FP.binary64_round 1 (by norm_num) (by norm_num)).trans ?_; norm_num
  have hadd2 : (.fin 1 : XR FP.binary64) +ₚ .fin 0 = .fin 1 := by
    refine (FP.binary64_round 1 (by norm_num) (by norm_num)).trans ?_; norm_num
  have hsub1 : (.fin 0 : XR FP.binary64) -ₚ .fin 0 = .fin 0 := by
    refine (FP.binary64_round 0 (by norm_num) (by norm_num)).trans ?_; norm_num
  have hsub2 : (.fin (-1000) : XR FP.binary64) -ₚ .fin 0 = .fin (-1000) := by
    refine (FP.binary64_round (-1000) (by norm_num) (by norm_num)).trans ?_; norm_num
  have e0 : safeExp (.fin 0 : XR FP.binary64) = .ok (.fin 1) := by
    rw [C09_safe_exp_total]; simp only [npExp, hs.exp_zero]
  have e1 : safeExp (.fin (-1000) : XR FP.binary64) = .ok (.fin 0) := by
    rw [C09_safe_exp_total]
    have : FP.binary64.exp (-1000) = some 0 := 
      FP.binary64_exp_underflow le_rfl
    simp only [npExp, this]
  have hl : safeLog (.fin 1 : XR FP.binary64) = .ok (.fin 0) := by
    rw [C09_safe_log_total _ hs]
    have : FP.binary64.log 1 = 0 := by
      show B64.rndFin (Real.log 1) = 0
      rw [Real.log_one, B64.rndFin_zero]
    simp only [npLog, this]; norm_num
  have hln : logNormalize ([.fin 0, .fin (-1000)] : List (XR FP.binary64)) =
      .ok [.fin 0, .fin (-1000)] := by
    simp only [logNormalize, mapM_cons', e0, e1, py_ok_bind, mapM_nil', py_pure]
    have : pySum ([.fin 1, .fin 0] : List (XR FP.binary64)) = .fin 1 := by
      simp [pySum, XR.ofInt_zero hs, hadd1, hadd2]
    rw [this, hl]
    simp [hsub1, hsub2]
  refine ⟨?_, hln⟩
  rw [nbRow, hln]
  simp only [py_ok_bind, mapM_cons', e0, e1, mapM_nil', py_pure]

/-- **C55 is false of naive Bayes in floating point**, through the API: a fitted two-class
MultinomialNB and one document for which the logarithm of `predict_proba` is not
`predict_log_proba`. -/
theorem C55_naive_bayes_false : ∃ (m : DiscreteNB (XR FP.binary64) String) (X : Arr (XR FP.binary64)),
    FP.binary64.Sound ∧
    ¬ IsLogOf FP.binary64 (nbPredictProba m.jllMultinomial X)
      (nbPredictLogProba m.jllMultinomial X) := by
  refine ⟨⟨[.fin 0, .fin 0], ["a", "b"], [[.fin 0], [.fin (-1000)]]⟩, .ofMat [[.fin 1]],
    FP.binary64_sound, fun hlog => ?_⟩
  have hmul : (.fin 1 : XR FP.binary64) *ₚ .fin (-1000) = .fin (-1000) := by
    refine (FP.binary64_round (-1000) (by norm_num) (by norm_num)).trans ?_; norm_num
  have hadd : (.fin 0 : XR FP.binary64) +ₚ .fin (-1000) = .fin (-1000) := by
    refine (FP.binary64_round (-1000) (by norm_num) (by norm_num)).trans ?_; norm_num
  have hmul0 : (.fin 1 : XR FP.binary64) *ₚ .fin 0 = .fin 0 := by
    refine (FP.binary64_round 0 (by norm_num) (by norm_num)).trans ?_; norm_num
  have hadd0 : (.fin 0 : XR FP.binary64) +ₚ .fin 0 = .fin 0 := by
    refine (FP.binary64_round 0 (by norm_num) (by norm_num)).trans ?_; norm_num
  have hadd' : (.fin (-1000) : XR FP.binary64) +ₚ .fin 0 = .fin (-1000) := by
    refine (FP.binary64_round (-1000) (by norm_num) (by norm_num)).trans ?_; norm_num
  have h0 := XR.ofInt_zero FP.binary64_sound
  have hJ : (⟨[.fin 0, .fin 0], ["a", "b"], [[.fin 0], [.fin (-1000)]]⟩ :
      DiscreteNB (XR FP.binary64) String).jllMultinomial (.ofMat [[.fin 1]]) =
      .ok [[.fin 0, .fin (-1000)]] := by
    simp only [DiscreteNB.jllMultinomial, rows_ofMat, py_ok_bind]
    have hd : dot (.list [.fin 1]) [[.fin 0], [.fin (-1000)]] =
        .ok [(.fin 0 : XR FP.binary64), .fin (-1000)] := by
      simp [dot, dotList, pySum, h0, hmul, hadd, hmul0, hadd0]
    simp [hd, List.range_succ, hadd', hadd0]
  have hP := nbPredictProba_rows (P := [[.fin 1, .fin 0]]) (List.cons_ne_nil _ _) hJ (by
    simp [C55_naive_bayes_underflow.1])
  have hL := hlog.1 _ hP
  rw [nbPredictLogProba_rows (List.cons_ne_nil _ _) hJ] at hL
  simp [C55_naive_bayes_underflow.2, npLog] at hL

end PurePredict
