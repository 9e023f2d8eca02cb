import Verif.Props.C17
import Verif.Props.C18
import Verif.Spec.Boosting
/-
C66: a converted booster returns the booster's probabilities.
-/
namespace PurePredict
open Spec
variable {C : Type}

section
variable {F : Type} [Arith F]

/-- `trees_to_dataframe()` of a booster: the tree of round `e` and class `c` is number
`e * perRound + c`. -/
def Spec.Booster.Printed (b : Booster F) (frames : Nat → XgbFrame F) : Prop :=
  ∀ e < b.rounds, ∀ c < b.perRound,
    (frames (e * b.perRound + c)).Printed (e * b.perRound + c) ∧
    (frames (e * b.perRound + c)).Describes (e * b.perRound + c) 0 (b.tree e c)

/-- No split uses a column from 10 on (C17), and no record equals a split value (C59). -/
def Spec.Booster.Plain (b : Booster F) (M : List (List F)) : Prop :=
  ∀ e < b.rounds, ∀ c < b.perRound, ∀ s ∈ (b.tree e c).splits, s.1 < 10 ∧
    ∀ r ∈ M, ∀ v, r[s.1]? = some v → (v ≤ₚ s.2) = (v <ₚ s.2)

theorem xgbRound_ok (frames : Nat → XgbFrame F) (k idx : Nat)
    (h : ∀ j < k, ∃ t : Tree F C, Tree.ofXgb (frames (idx + j)) = .ok t) :
    ∃ ts : List (Tree F C), xgbRound frames idx k = .ok ts ∧ ts.length = k ∧
      ∀ j (hj : j < ts.length), Tree.ofXgb (frames (idx + j)) = .ok ts[j] := by
  induction k generalizing idx with
  | zero => exact ⟨[], rfl, rfl, by simp⟩
  | succ k ih =>
    obtain ⟨t, ht⟩ := h 0 (by omega)
    obtain ⟨ts, h1, h2, h3⟩ := ih (idx + 1) fun j hj => by
      have := h (j + 1) (by omega)
      rwa [show idx + (j + 1) = idx + 1 + j by omega] at this
    refine ⟨t :: ts, ?_, by simp [h2], ?_⟩
    · simp only [xgbRound, show frames idx = frames (idx + 0) from rfl, ht, py_ok_bind, h1, py_pure]
    · intro j hj
      cases j with
      | zero => exact ht
      | succ j =>
        rw [show idx + (j + 1) = idx + 1 + j by omega]
        exact h3 j (by simpa using hj)

theorem xgbRounds_ok (frames : Nat → XgbFrame F) (K n idx : Nat)
    (h : ∀ e < n, ∀ c < K, ∃ t : Tree F C, Tree.ofXgb (frames (idx + (e * K + c))) = .ok t) :
    ∃ tss : List (List (Tree F C)), xgbRounds frames K idx n = .ok tss ∧ tss.length = n ∧
      (∀ ts ∈ tss, ts.length = K) ∧
      ∀ e (he : e < tss.length) c (hc : c < (tss[e]).length),
        Tree.ofXgb (frames (idx + (e * K + c))) = .ok tss[e][c] := by
  induction n generalizing idx with
  | zero => exact ⟨[], rfl, rfl, by simp, by simp⟩
  | succ n ih =>
    obtain ⟨ts, h1, h2, h3⟩ := xgbRound_ok frames K idx fun c hc => by
      simpa using h 0 (by omega) c hc
    obtain ⟨tss, g1, g2, g3, g4⟩ := ih (idx + K) fun e he c hc => by
      have := h (e + 1) (by omega) c hc
      rwa [show idx + ((e + 1) * K + c) = idx + K + (e * K + c) by ring] at this
    refine ⟨ts :: tss, ?_, by simp [g2], ?_, ?_⟩
    · simp only [xgbRounds, h1, g1, py_ok_bind, py_pure]
    · intro us hus
      rcases List.mem_cons.1 hus with rfl | hus
      · exact h2
      · exact g3 us hus
    · intro e he c hc
      cases e with
      | zero => simpa using h3 c hc
      | succ e =>
        rw [show idx + ((e + 1) * K + c) = idx + K + (e * K + c) by ring]
        exact g4 e (by simpa using he) c hc

/-- One converted tree on the records it was asked about. -/
theorem Spec.Booster.treeReturns {b : Booster F} {frames : Nat → XgbFrame F} (hp : b.Printed frames)
    {M : List (List F)} (hM : M ≠ []) (hpl : b.Plain M) {e c : Nat} (he : e < b.rounds)
    (hc : c < b.perRound) {o : Nat → F}
    (ho : ∀ i (hi : i < M.length), (b.tree e c).eval (fun f => M[i][f]?) = some (o i))
    {t : Tree F C} (ht : Tree.ofXgb (frames (e * b.perRound + c)) = .ok t) :
    TreeReturns (.ofMat M) M.length t o := by
  obtain ⟨h1, h2⟩ := hp e he c hc
  obtain ⟨t', ht', henc⟩ := ofXgb_encodes (C := C) h1
  rw [ht] at ht'
  cases ht'
  have hev : ∀ r ∈ M, ∃ y, (b.tree e c).eval (fun f => r[f]?) = some y := by
    intro r hr
    obtain ⟨i, hi, rfl⟩ := List.getElem_of_mem hr
    exact ⟨_, ho i hi⟩
  have : Nonempty F := ⟨ofInt 0⟩
  choose! g hg using hev
  have hpred := predictReg_encodes (henc 0 _ h2) hM (g := g) fun r hr => by
    rw [converted_eval _ (fun s hs => (hpl e he c hc s hs).1)
      (fun s hs v hv => (hpl e he c hc s hs).2 r hr v hv), hg r hr]
    rfl
  unfold TreeReturns
  rw [hpred]
  congr 1
  apply List.ext_getElem
  · simp
  · intro i h1 h2
    have hi : i < M.length := by simpa using h1
    simp only [List.getElem_map, List.getElem_range]
    have := hg M[i] (List.getElem_mem hi)
    rw [ho i hi] at this
    exact (Option.some.inj this).symm

end

/-- **C66**, multi-class (`multi:softprob`): conversion succeeds, and on every dense request the
probabilities are the softmax of the margins, tree `e * K + c` contributing to class `c`.  The
claim is restricted to columns below 10 and records without ties (C17, C59); the bias `base_score`
cancels in the softmax. -/
theorem C66_multi_partial (b : Booster Ex) (hK : 0 < b.perRound) (hK2 : b.perRound ≠ 2)
    (frames : Nat → XgbFrame Ex) (hp : b.Printed frames) (classes : List C) :
    ∃ m, Xgb.ofBooster "multi:softprob" "gbtree" classes b.perRound b.rounds frames = .ok m ∧
      m.classes = classes ∧
      ∀ (M : List (List Ex)), M ≠ [] → b.Plain M → ∀ o : Nat → Nat → Nat → ℝ,
        (∀ e < b.rounds, ∀ c < b.perRound, ∀ i (hi : i < M.length),
          (b.tree e c).eval (fun f => M[i][f]?) = some (.fin (o e c i))) →
        ∀ β : ℝ, m.predictProba (.ofMat M) = .ok ((List.range M.length).map fun i =>
          fins ((List.range b.perRound).map
            (softmax b.perRound fun c => β + b.margin (fun e c => o e c i) c))) := by
  have hconv : ∀ e < b.rounds, ∀ c < b.perRound,
      ∃ t : Tree Ex C, Tree.ofXgb (frames (0 + (e * b.perRound + c))) = .ok t := by
    intro e he c hc
    obtain ⟨t, ht, _⟩ := ofXgb_encodes (C := C) (hp e he c hc).1
    exact ⟨t, by simpa using ht⟩
  obtain ⟨tss, h1, h2, h3, h4⟩ := xgbRounds_ok frames b.perRound b.rounds 0 hconv
  refine ⟨⟨.multiSoftprob, classes, b.perRound, b.rounds, .multi tss⟩, ?_, rfl, ?_⟩
  · have : (b.perRound == 2) = false := by simpa using hK2
    simp [Xgb.ofBooster, xgbCheck, xgbBuild, this, h1]
  · intro M hM hpl o ho β
    have := (C18_multi (⟨.multiSoftprob, classes, b.perRound, b.rounds, .multi tss⟩ : Xgb Ex C) rfl
      tss rfl h2.symm hK h3 M hM o (by
        intro e he c hc
        refine Booster.treeReturns hp hM hpl (by omega) hc (ho e (by omega) c hc) ?_
        have := h4 e he c (by rw [h3 _ (List.getElem_mem he)]; exact hc)
        simpa using this)).1
    rw [this, h2]
    simp only [Booster.margin]
    have hsm : ∀ i, softmax b.perRound (fun c => β + ∑ e ∈ Finset.range b.rounds, o e c i) =
        softmax b.perRound fun c => ∑ e ∈ Finset.range b.rounds, o e c i := by
      intro i
      funext j
      simp only [softmax, Real.exp_add, ← Finset.mul_sum]
      rw [mul_div_mul_left _ _ (Real.exp_pos β).ne']
    simp only [hsm]

/-- **C66**, binary (`binary:logistic`), for the default bias `base_score = 0.5` (whose log-odds are
0): the probability of the second class is the logistic function of the margin. -/
theorem C66_binary_partial (b : Booster Ex) (hK : b.perRound = 1)
    (frames : Nat → XgbFrame Ex) (hp : b.Printed frames) (classes : List C) :
    ∃ m, Xgb.ofBooster "binary:logistic" "gbtree" classes 2 b.rounds frames = .ok m ∧
      m.classes = classes ∧
      ∀ (M : List (List Ex)), M ≠ [] → b.Plain M → ∀ o : Nat → Nat → Nat → ℝ,
        (∀ e < b.rounds, ∀ c < b.perRound, ∀ i (hi : i < M.length),
          (b.tree e c).eval (fun f => M[i][f]?) = some (.fin (o e c i))) →
        m.predictProba (.ofMat M) = .ok ((List.range M.length).map fun i =>
          fins [1 - sigmoid (logit (1 / 2) + b.margin (fun e c => o e c i) 0),
            sigmoid (logit (1 / 2) + b.margin (fun e c => o e c i) 0)]) := by
  have hconv : ∀ e < b.rounds, ∃ t : Tree Ex C, Tree.ofXgb (frames (0 + e)) = .ok t := by
    intro e he
    obtain ⟨t, ht, _⟩ := ofXgb_encodes (C := C) (hp e he 0 (by omega)).1
    exact ⟨t, by simpa [hK] using ht⟩
  obtain ⟨ts, h1, h2, h3⟩ := xgbRound_ok frames b.rounds 0 hconv
  refine ⟨⟨.binaryLogistic, classes, 2, b.rounds, .binary ts⟩, ?_, rfl, ?_⟩
  · simp [Xgb.ofBooster, xgbCheck, xgbBuild, h1]
  · intro M hM hpl o ho
    have := (C18_binary (⟨.binaryLogistic, classes, 2, b.rounds, .binary ts⟩ : Xgb Ex C) rfl ts rfl
      M hM ((List.range b.rounds).map fun e => o e 0) (by
        rw [List.forall₂_iff_get]
        refine ⟨by simp [h2], fun e he he' => ?_⟩
        simp only [List.get_eq_getElem, List.getElem_map, List.getElem_range]
        refine Booster.treeReturns hp hM hpl (e := e) (c := 0) (by omega) (by omega)
          (ho e (by omega) 0 (by omega)) ?_
        simpa [hK] using h3 e he)).1
    rw [this]
    have hl : logit (1 / 2) = 0 := by unfold logit; norm_num
    have ht : ∀ i, total ((List.range b.rounds).map fun e => o e 0) i = b.margin (fun e c => o e c i) 0 := by
      intro i
      simp only [total, Booster.margin, List.map_map]
      rw [← List.sum_toFinset _ List.nodup_range, List.toFinset_range]
      rfl
    simp only [ht, hl, zero_add]

theorem sigmoid_inj {a b : ℝ} (h : sigmoid a = sigmoid b) : a = b := by
  unfold sigmoid at h
  have ha := Real.exp_pos (-a)
  have hb := Real.exp_pos (-b)
  rw [div_eq_div_iff (by positivity) (by positivity)] at h
  have : Real.exp (-b) = Real.exp (-a) := by linarith
  have := Real.exp_injective this
  linarith

theorem logit_half_ne {p : ℝ} (h0 : 0 < p) (h1 : p < 1) (h2 : p ≠ 1 / 2) : logit p ≠ logit (1 / 2) := by
  intro h
  have hp : 0 < p / (1 - p) := div_pos h0 (by linarith)
  have := Real.log_injOn_pos (Set.mem_Ioi.2 hp) (Set.mem_Ioi.2 (by norm_num)) h
  rw [div_eq_iff (by linarith)] at this
  norm_num at this
  apply h2
  linarith

/-- **C66 is false** for any other bias: the converted model drops `base_score`, so on every request
every probability it returns differs from the booster's `sigmoid (logit base_score + margin)`. -/
theorem C66_base_score_false (b : Booster Ex) (hK : b.perRound = 1)
    (frames : Nat → XgbFrame Ex) (hp : b.Printed frames) (classes : List C)
    (p : ℝ) (_hb : b.baseScore = .fin p) (h0 : 0 < p) (h1 : p < 1) (h2 : p ≠ 1 / 2) :
    ∃ m, Xgb.ofBooster "binary:logistic" "gbtree" classes 2 b.rounds frames = .ok m ∧
      ∀ (M : List (List Ex)), M ≠ [] → b.Plain M → ∀ o : Nat → Nat → Nat → ℝ,
        (∀ e < b.rounds, ∀ c < b.perRound, ∀ i (hi : i < M.length),
          (b.tree e c).eval (fun f => M[i][f]?) = some (.fin (o e c i))) →
        ∃ q : Nat → ℝ, m.predictProba (.ofMat M) =
            .ok ((List.range M.length).map fun i => fins [1 - q i, q i]) ∧
          ∀ i, q i ≠ sigmoid (logit p + b.margin (fun e c => o e c i) 0) := by
  obtain ⟨m, hm, -, hall⟩ := C66_binary_partial b hK frames hp classes
  refine ⟨m, hm, fun M hM hpl o ho => ⟨_, hall M hM hpl o ho, fun i h => ?_⟩⟩
  have := sigmoid_inj h
  exact logit_half_ne h0 h1 h2 (by linarith)

/-- The data frame has no rows for this tree. -/
def XgbFrame.empty {F : Type} : XgbFrame F := ⟨[], [], [], [], []⟩

/-- **C66 is false** after early stopping: `n_estimators` exceeds the number of rounds the booster
has trees for, the missing trees are converted to empty arrays without complaint, and then every
request raises IndexError.  (Binary booster, any arithmetic; `k` trees exist and answer.) -/
theorem C66_early_stopping_false {F : Type} [Arith F] (frames : Nat → XgbFrame F) (k n : Nat) (hk : k < n)
    (hpr : ∀ e < k, (frames e).Printed e) (hmiss : ∀ e, k ≤ e → frames e = XgbFrame.empty)
    (classes : List C) :
    ∃ m, Xgb.ofBooster "binary:logistic" "gbtree" classes 2 n frames = .ok m ∧
      ∀ (M : List (List F)), M ≠ [] → ∃ e, m.predictProba (.ofMat M) = .error e ∧
        ((∀ e < k, ∀ t : Tree F C, Tree.ofXgb (frames e) = .ok t → ∃ y, t.predictReg (.ofMat M) = .ok y) →
          e = .indexError) := by
  have hempty : Tree.ofXgb (XgbFrame.empty : XgbFrame F) =
      .ok (⟨[], [], [], [], [], []⟩ : Tree F C) := rfl
  have hconv : ∀ e < n, ∃ t : Tree F C, Tree.ofXgb (frames (0 + e)) = .ok t := by
    intro e _
    by_cases h : e < k
    · obtain ⟨t, ht, _⟩ := ofXgb_encodes (C := C) (hpr e h)
      exact ⟨t, by simpa using ht⟩
    · exact ⟨_, by rw [hmiss _ (by omega)]; exact hempty⟩
  obtain ⟨ts, h1, h2, h3⟩ := xgbRound_ok frames n 0 hconv
  refine ⟨⟨.binaryLogistic, classes, 2, n, .binary ts⟩, ?_, ?_⟩
  · simp [Xgb.ofBooster, xgbCheck, xgbBuild, h1]
  intro M hM
  have hreg : (⟨[], [], [], [], [], []⟩ : Tree F C).predictReg (.ofMat M) = .error .indexError := by
    obtain ⟨r, M, rfl⟩ := List.exists_cons_of_ne_nil hM
    simp [Tree.predictReg, checkArray_ofMat_cons, Tree.getLeafNode, Tree.walk, Tree.step, pyGet]
  have hk' : k < ts.length := by omega
  have htk : ts[k] = ⟨[], [], [], [], [], []⟩ := by
    have := h3 k hk'
    rw [hmiss _ (by omega), hempty] at this
    exact (Except.ok.inj this).symm
  have hsplit : ts = ts.take k ++ ⟨[], [], [], [], [], []⟩ :: ts.drop (k + 1) := by
    rw [← htk, List.getElem_cons_drop, List.take_append_drop]
  have hfold : ∀ (us vs : List (Tree F C)) (acc : List F),
      ∃ e, (us ++ (⟨[], [], [], [], [], []⟩ : Tree F C) :: vs).foldlM (Xgb.addTree (.ofMat M)) acc = .error e ∧
        ((∀ t ∈ us, ∃ y, t.predictReg (.ofMat M) = .ok y) → e = .indexError) := by
    intro us vs
    induction us with
    | nil =>
      intro acc
      exact ⟨.indexError, by simp [Xgb.addTree, hreg], fun _ => rfl⟩
    | cons u us ih =>
      intro acc
      simp only [List.cons_append, List.foldlM_cons, Xgb.addTree]
      cases hu : u.predictReg (.ofMat M) with
      | error e =>
        refine ⟨e, rfl, fun h => ?_⟩
        obtain ⟨y, hy⟩ := h u (by simp)
        rw [hu] at hy
        cases hy
      | ok y =>
        obtain ⟨e, he, h⟩ := ih (List.zipWith Arith.add acc y)
        exact ⟨e, he, fun hall => h fun t ht => hall t (by simp [ht])⟩
  obtain ⟨e, he, h⟩ := hfold (ts.take k) (ts.drop (k + 1)) (List.replicate M.length (ofInt 0))
  refine ⟨e, ?_, fun hall => h ?_⟩
  · simp only [Xgb.predictProba, checkArray_ofMat hM, py_ok_bind, Xgb.predictBinary, len_ofMat]
    rw [hsplit, he]
    rfl
  · intro t ht
    obtain ⟨j, hj, rfl⟩ := List.getElem_of_mem ht
    have hj' : j < k := by simp at hj; omega
    refine hall j hj' _ ?_
    rw [List.getElem_take]
    simpa using h3 j (by omega)

/-- **C66 is false** of a softmax booster on two classes: the conversion takes one tree per round, and
every request raises TypeError. -/
theorem C66_two_class_softprob_false {F : Type} [Arith F] (frames : Nat → XgbFrame F) (n : Nat) (hn : 0 < n)
    (hpr : ∀ e < n, (frames e).Printed e) (classes : List C) :
    ∃ m, Xgb.ofBooster "multi:softprob" "gbtree" classes 2 n frames = .ok m ∧
      ∀ (M : List (List F)), M ≠ [] → m.predictProba (.ofMat M) = .error .typeError ∧
        m.predict (.ofMat M) = .error .typeError := by
  have hconv : ∀ e < n, ∃ t : Tree F C, Tree.ofXgb (frames (0 + e)) = .ok t := by
    intro e he
    obtain ⟨t, ht, _⟩ := ofXgb_encodes (C := C) (hpr e he)
    exact ⟨t, by simpa using ht⟩
  obtain ⟨ts, h1, h2, h3⟩ := xgbRound_ok frames n 0 hconv
  refine ⟨⟨.multiSoftprob, classes, 2, n, .binary ts⟩, ?_, ?_⟩
  · simp [Xgb.ofBooster, xgbCheck, xgbBuild, h1]
  intro M hM
  have hp : (⟨.multiSoftprob, classes, 2, n, .binary ts⟩ : Xgb F C).predictProba (.ofMat M) =
      .error .typeError := by
    obtain ⟨n, rfl⟩ : ∃ k, n = k + 1 := ⟨n - 1, by omega⟩
    have h0 : pyGet ts ((0 : Nat) : Int) = .ok ts[0] := pyGet_lt (by omega)
    simp only [Xgb.predictProba, checkArray_ofMat hM, py_ok_bind, Xgb.predict_, len_ofMat,
      List.range_succ_eq_map (n := n), List.foldlM_cons, h0]
    rfl
  exact ⟨hp, by simp only [Xgb.predict, hp]; rfl⟩

/-- **C66**, guards: any other objective, and any other booster, is refused with ValueError. -/
theorem C66_refused {F : Type} [Arith F] (objective booster : String) (classes : List C) (k n : Nat)
    (frames : Nat → XgbFrame F)
    (h : (objective ≠ "binary:logistic" ∧ objective ≠ "multi:softprob") ∨ booster ≠ "gbtree") :
    Xgb.ofBooster objective booster classes k n frames = .error .valueError := by
  simp only [Xgb.ofBooster, xgbCheck]
  rcases h with ⟨h1, h2⟩ | h
  · simp [h1, h2]
  · have : (booster == "gbtree") = false := by simpa using h
    simp only [this, Bool.false_eq_true, if_false]
    split
    · rfl
    · split <;> rfl

/-- Non-vacuity: a binary booster of one stump on column 3, and the probability it gives a record. -/
noncomputable def stumpBooster (p : ℝ) : Booster Ex := ⟨1, 1, fun _ _ => stump 3, .fin p⟩

theorem stumpBooster_printed (p : ℝ) : (stumpBooster p).Printed fun _ => stumpFrame 3 := by
  intro e he c hc
  have he : e < 1 := he
  have hc : c < 1 := hc
  obtain rfl : e = 0 := by omega
  obtain rfl : c = 0 := by omega
  exact ⟨stumpFrame_printed 3, stumpFrame_describes 3⟩

example : ∃ m, Xgb.ofBooster "binary:logistic" "gbtree" ["a", "b"] 2 1 (fun _ => stumpFrame 3) = .ok m ∧
    m.predictProba (.ofMat [fins [0, 0, 0, 0]]) =
      .ok [fins [1 - sigmoid (logit (1 / 2) + 1), sigmoid (logit (1 / 2) + 1)]] := by
  obtain ⟨m, hm, -, h⟩ := C66_binary_partial (stumpBooster (1 / 2)) rfl _ (stumpBooster_printed _) ["a", "b"]
  refine ⟨m, hm, ?_⟩
  have := h [fins [0, 0, 0, 0]] (by simp) (by
    intro e _ c _ s hs
    simp [stumpBooster, stump, XTree.splits] at hs
    subst hs
    refine ⟨by norm_num, ?_⟩
    intro r hr v hv
    simp at hr
    subst hr
    simp at hv
    subst hv
    simp) (fun _ _ _ => 1) (by
    intro e _ c _ i hi
    have : i = 0 := by simpa using hi
    subst this
    simp [stumpBooster, stump, XTree.eval, fins])
  simpa [Booster.margin, stumpBooster] using this

/-- The frame of a tree that is a single leaf. -/
noncomputable def leafFrame (v : ℝ) : XgbFrame Ex := ⟨[.nan], [.fin v], [none], [none], ["Leaf".toList]⟩

/-- Non-vacuity: a three-class booster of one round; the margins are 1, 2 and 4. -/
example : ∃ m, Xgb.ofBooster "multi:softprob" "gbtree" ["a", "b", "c"] 3 1
      (fun n => leafFrame (2 ^ n)) = .ok m ∧
    m.predictProba (.ofMat [fins [5]]) =
      .ok [fins ((List.range 3).map (softmax 3 fun c => 0 + 2 ^ c))] := by
  obtain ⟨m, hm, -, h⟩ := C66_multi_partial ⟨1, 3, fun _ c => .leaf (.fin (2 ^ c)), .fin 0⟩
    (by norm_num) (by norm_num) (fun n => leafFrame (2 ^ n)) (by
      intro e he c hc
      have he : e < 1 := he
      obtain rfl : e = 0 := by omega
      simp only [zero_mul, zero_add]
      exact ⟨⟨by simp [leafFrame], by simp [leafFrame], by simp [leafFrame]⟩, .leaf rfl rfl rfl⟩)
    ["a", "b", "c"]
  refine ⟨m, hm, ?_⟩
  have := h [fins [5]] (by simp) (by intro e _ c _ s hs; simp [XTree.splits] at hs)
    (fun _ c _ => 2 ^ c) (by intro e _ c _ i _; rfl) 0
  simpa [Booster.margin] using this

end PurePredict
