import Verif.Lemmas.GBBatch
import Verif.Lemmas.TreeBatch
import Verif.Spec.Boosting
/-
C15: gradient boosting is an additive model.
-/
namespace PurePredict
open Spec
variable {C : Type}

/-- The specification's name of a loss. -/
def Loss.kind : Loss → GBLoss
  | .multinomial _ => .multinomial
  | .binomial => .binomial
  | .exponential => .exponential

theorem eps_pos : 0 < eps := by unfold eps; norm_num
theorem eps_le : eps ≤ 1 - eps := by unfold eps; norm_num

theorem gbEps_exact : (gbEps : Ex) = .fin eps := by
  simp [gbEps, eps]

theorem clip_exact (p : ℝ) : clip (.fin p : Ex) gbEps (ofInt 1 -ₚ gbEps) = .fin (clampP p) := by
  have h := eps_le
  simp only [clip, gbEps_exact, XR.ofInt_exact, XR.sub_exact, XR.lt_fin, decide_eq_true_eq,
    Int.cast_one, clampP]
  split
  · rename_i h1
    rw [min_eq_left (by linarith), max_eq_left (by linarith)]
  · split
    · rename_i h1 h2
      rw [min_eq_right h2.le, max_eq_right h]
    · rename_i h1 h2
      rw [min_eq_left (by linarith), max_eq_right (by linarith)]

theorem clampP_bounds (p : ℝ) : eps ≤ clampP p ∧ clampP p ≤ 1 - eps :=
  ⟨le_max_left _ _, max_le eps_le (min_le_right _ _)⟩

theorem safeLog_exact {x : ℝ} (h : 0 < x) : safeLog (.fin x : Ex) = .ok (.fin (Real.log x)) := by
  simp only [safeLog, XR.ofInt_exact, XR.eq_fin, XR.lt_fin, Int.cast_zero, h.ne', h.not_gt,
    decide_false, Bool.false_eq_true, if_false, XR.log_exact h]

theorem logit_exact (p : ℝ) :
    ((XR.fin (clampP p) : Ex) /ₚ (ofInt 1 -ₚ .fin (clampP p)) >>= safeLog) =
      .ok (.fin (logit (clampP p))) := by
  obtain ⟨h1, h2⟩ := clampP_bounds p
  have he := eps_pos
  have h3 : 0 < 1 - clampP p := by linarith
  simp only [XR.ofInt_exact, XR.sub_exact, Int.cast_one, XR.div_exact _ h3.ne', py_ok_bind]
  exact safeLog_exact (div_pos (by linarith) h3)

/-- The init scores of one record. -/
theorem initRow_exact (l : Loss) {kc : Nat} (q : Nat → ℝ)
    (hk : match l with | .multinomial n => kc = n | _ => 2 ≤ kc) :
    l.initRow (fins ((List.range kc).map q)) =
      .ok ((List.range l.cols).map fun c => .fin (initScore l.kind q c)) := by
  cases l with
  | multinomial n =>
    simp only at hk
    subst hk
    simp only [Loss.initRow]
    rw [mapM_fins (g := fun x => Real.log (clampP x))]
    · simp [fins, Loss.cols, Loss.kind, initScore, Function.comp_def]
    · intro x _
      rw [clip_exact]
      exact safeLog_exact (lt_of_lt_of_le eps_pos (clampP_bounds x).1)
  | binomial =>
    have h1 : pyGet (fins ((List.range kc).map q)) 1 = .ok (.fin (q 1)) := by
      have : pyGet (fins ((List.range kc).map q)) ((1 : Nat) : Int) = .ok (.fin (q 1)) := by
        rw [pyGet_ok_nat]
        have : 1 < kc := hk
        simp [fins, this]
      exact this
    have h2 := logit_exact (q 1)
    simp only [Loss.initRow, h1, py_ok_bind, clip_exact]
    obtain ⟨a, ha, hb⟩ := bind_ok_iff.1 h2
    simp only [ha, hb, py_ok_bind]
    simp [Loss.cols, Loss.kind, initScore]
  | exponential =>
    have h1 : pyGet (fins ((List.range kc).map q)) 1 = .ok (.fin (q 1)) := by
      have : pyGet (fins ((List.range kc).map q)) ((1 : Nat) : Int) = .ok (.fin (q 1)) := by
        rw [pyGet_ok_nat]
        have : 1 < kc := hk
        simp [fins, this]
      exact this
    have h2 := logit_exact (q 1)
    simp only [Loss.initRow, h1, py_ok_bind, clip_exact]
    obtain ⟨a, ha, hb⟩ := bind_ok_iff.1 h2
    simp only [ha, hb, py_ok_bind]
    simp [Loss.cols, Loss.kind, initScore]

theorem foldl_boost (ts : List ℝ) (lr a : ℝ) :
    ts.foldl (fun (a : Ex) t => a +ₚ (.fin t *ₚ .fin lr)) (.fin a) = .fin (a + lr * ts.sum) := by
  induction ts generalizing a with
  | nil => simp
  | cons t ts ih =>
    rw [List.foldl_cons, XR.mul_exact, XR.add_exact, ih, List.sum_cons]
    congr 1; ring

/-- Stage `s`'s tree for class `c` returns `T s c i` for record `i`; the init estimator returns
the probabilities `Q i c`. -/
structure GB.Returns (g : GB Ex C) (M : List (List ℝ)) (kc : Nat) (Q : Nat → Nat → ℝ)
    (T : Nat → Nat → Nat → ℝ) : Prop where
  init : g.initProba (.ofMat (M.map fins)) = .ok (mat M.length kc fun i c => .fin (Q i c))
  width : ∀ st ∈ g.estimators, st.length = g.loss.cols
  stage : ∀ s (hs : s < g.estimators.length) c (hc : c < (g.estimators[s]).length),
    (g.estimators[s])[c] (.ofMat (M.map fins)) =
      .ok ((List.range M.length).map fun i => .fin (T s c i))

/-- **C15**: the raw score of class `c` for record `i` is the initial score from the init
estimator's probabilities plus the learning rate times the sum of all stages' predictions. -/
theorem C15_raw_scores_additive (g : GB Ex C) (M : List (List ℝ)) (hM : M ≠ [])
    (hw : Rect g.nFeatures M) (lr : ℝ) (hlr : g.learningRate = .fin lr) (kc : Nat)
    (hkc : match g.loss with | .multinomial n => kc = n ∧ 0 < n | _ => 2 ≤ kc)
    (Q : Nat → Nat → ℝ) (T : Nat → Nat → Nat → ℝ) (hS : g.estimators ≠ [])
    (h : g.Returns M kc Q T) :
    g.rawPredict (.ofMat (M.map fins)) =
      .ok (mat M.length g.loss.cols fun i c =>
        .fin (boosted (initScore g.loss.kind (Q i) c) lr g.estimators.length fun s => T s c i)) := by
  have hK : 0 < g.loss.cols := by
    unfold Loss.cols
    split
    · rename_i n hn; rw [hn] at hkc; exact hkc.2
    · exact Nat.one_pos
  have hkc' : match g.loss with | .multinomial n => kc = n | _ => 2 ≤ kc := by
    revert hkc
    cases g.loss <;> simp +contextual
  have hinit : (g.initProba (.ofMat (M.map fins)) >>= g.loss.initRaw) =
      .ok (mat (M.map fins).length g.loss.cols fun i c => .fin (initScore g.loss.kind (Q i) c)) := by
    rw [h.init, py_ok_bind, Loss.initRaw_eq, List.length_map]
    unfold mat
    rw [mapM_map']
    apply mapM_ok_map
    intro i _
    have := initRow_exact g.loss (Q i) hkc'
    rw [← this]
    simp [fins, Function.comp_def]
  have hT : ∀ c < g.loss.cols, List.Forall₂
      (GB.StageReturns (.ofMat (M.map fins)) (M.map fins).length c) g.estimators
      ((List.range g.estimators.length).map fun s i => .fin (T s c i)) := by
    intro c hc
    rw [List.forall₂_iff_get]
    refine ⟨by simp, ?_⟩
    intro s h1 h2
    have hc' : c < (g.estimators[s]).length := by
      rw [h.width _ (List.getElem_mem h1)]; exact hc
    refine ⟨(g.estimators[s])[c], by simp [hc'], ?_⟩
    rw [h.stage s h1 c hc']
    simp
  have hne : M.map fins ≠ [] := by simpa using hM
  have hrect : Rect g.nFeatures (M.map fins) := by
    intro r hr
    obtain ⟨x, hx, rfl⟩ := List.mem_map.1 hr
    rw [fins_length]; exact hw x hx
  rw [GB.rawPredict_eq hne hrect hK hS h.width hinit hT, List.length_map]
  congr 2
  funext i c
  have := foldl_boost ((List.range g.estimators.length).map fun s => T s c i) lr 0
  rw [hlr, XR.ofInt_exact]
  simp only [List.foldl_map] at this ⊢
  rw [Int.cast_zero, this, XR.add_exact, boosted, list_sum_range, zero_add]

/-- Non-vacuity: two stages, binary deviance, one record. -/
example : ∃ s, (⟨["a", "b"], [[fun _ => .ok [.fin 1]], [fun _ => .ok [.fin 2]]],
      fun _ => .ok [[.fin (1 / 4), .fin (3 / 4)]], .fin (1 / 2), 1, .binomial⟩ :
      GB Ex String).rawPredict (.ofMat ([[5]].map fins)) = .ok [[.fin s]] := by
  have h := C15_raw_scores_additive (⟨["a", "b"], [[fun _ => .ok [.fin 1]],
    [fun _ => .ok [.fin 2]]], fun _ => .ok [[.fin (1 / 4), .fin (3 / 4)]], .fin (1 / 2), 1,
    .binomial⟩ : GB Ex String) [[5]] (by simp) (by intro r hr; simp at hr; subst hr; rfl) (1 / 2)
    rfl 2 (by simp) (fun _ c => if c = 0 then 1 / 4 else 3 / 4)
    (fun s _ _ => if s = 0 then 1 else 2) (by simp) ?_
  · exact ⟨_, h⟩
  · refine ⟨?_, ?_, ?_⟩
    · simp [mat, List.range_succ]
    · intro st hst
      simp at hst
      rcases hst with rfl | rfl <;> rfl
    · intro s hs c hc
      match s, hs, c, hc with
      | 0, _, 0, _ => simp [List.range_succ]
      | 1, _, 0, _ => simp [List.range_succ]

/-- **C15**, batches: in any arithmetic, gradient boosting over parts that treat records
independently treats records independently, in all its methods. -/
theorem C15_batch_independent {F : Type} [Arith F] (g : GB F C)
    (h : g.Parts fun r => r.length = g.nFeatures) :
    (BatchIndependent (fun r => r.length = g.nFeatures) fun A => g.rawPredict (.ofMat A)) ∧
    (BatchIndependent (fun r => r.length = g.nFeatures) fun A => g.predictProba (.ofMat A)) ∧
    (BatchIndependent (fun r => r.length = g.nFeatures) fun A => g.predictLogProba (.ofMat A)) ∧
    (BatchIndependent (fun r => r.length = g.nFeatures) fun A => g.predict (.ofMat A)) :=
  ⟨GB.rawPredict_batch h fun _ => id, GB.predictProba_batch h fun _ => id,
    GB.predictLogProba_batch h fun _ => id, GB.predict_batch h fun _ => id⟩

/-- **C15**, batches, for what the library builds: regression trees as stages and a dummy (prior)
init estimator. -/
theorem C15_batch_independent_trees {F : Type} [Arith F] (classes : List C) (loss : Loss)
    (trees : List (List (Tree F C))) (prior : List F) (lr : F) (nf : Nat)
    (hne : trees ≠ []) (hw : ∀ st ∈ trees, st.length = loss.cols) (hc : 0 < loss.cols)
    (hp : ∀ n, loss = .multinomial n → prior.length = n) :
    let g : GB F C := ⟨classes, trees.map fun st => st.map fun t => t.predictReg,
      (⟨prior⟩ : Dummy F).predictProba, lr, nf, loss⟩
    (BatchIndependent (fun r => r.length = nf) fun A => g.rawPredict (.ofMat A)) ∧
    (BatchIndependent (fun r => r.length = nf) fun A => g.predictProba (.ofMat A)) ∧
    (BatchIndependent (fun r => r.length = nf) fun A => g.predict (.ofMat A)) := by
  intro g
  have h : g.Parts fun r => r.length = nf := by
    refine ⟨(Dummy.predictProba_batch _).weaken fun _ _ => trivial, ?_, ?_, hc, ?_, ?_⟩
    · intro st hst f hf
      obtain ⟨ts, _, rfl⟩ := List.mem_map.1 hst
      obtain ⟨t, _, rfl⟩ := List.mem_map.1 hf
      exact t.predictReg_batch.weaken fun _ _ => trivial
    · intro st hst
      obtain ⟨ts, hts, rfl⟩ := List.mem_map.1 hst
      rw [List.length_map]; exact hw ts hts
    · simpa [g] using hne
    · intro n hn A Q hQ q hq
      simp only [g, Dummy.predictProba, len_ofMat, py_ok_bind, py_pure, Except.ok.injEq] at hQ
      subst hQ
      rw [List.eq_of_mem_replicate hq]
      exact hp n hn
  have := C15_batch_independent g h
  exact ⟨this.1, this.2.1, this.2.2.2⟩

/-- A single-leaf tree. -/
def oneLeaf : Tree Ex String := ⟨[-1], [-1], [-2], [.fin 0], [[.fin 1]], []⟩

/-- Non-vacuity: one stage with a single-leaf tree, binary deviance; the records must have one
feature. -/
example (half : Ex) : BatchIndependent (fun r : List Ex => r.length = 1) fun A =>
    (⟨["a", "b"], [[oneLeaf]].map fun st => st.map fun t => t.predictReg,
      (⟨[half, half]⟩ : Dummy Ex).predictProba, half, 1, .binomial⟩ :
      GB Ex String).predict (.ofMat A) :=
  (C15_batch_independent_trees ["a", "b"] .binomial [[oneLeaf]] [half, half] half 1
    (by simp) (by intro st hst; simp at hst; subst hst; rfl) (by simp [Loss.cols])
    (by intro n h; cases h)).2.2

end PurePredict
