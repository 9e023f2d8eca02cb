import Verif.Lemmas.LinearExact
import Verif.Lemmas.Links
import Verif.Lemmas.RoundedLinks
/-
C05: logistic probabilities are a distribution.
-/
namespace PurePredict
open Spec Linear
variable {C : Type}

/-- **C05**, binary `_predict_proba_lr`: `[1-sigmoid, sigmoid]` of the score. -/
theorem C05_lr_binary (m : Linear Ex C) (w : Nat) (W : List (List ℝ)) (b : List ℝ)
    (h : m.IsExact w 1 W b) (R : List (List ℝ)) (hR : R ≠ []) (hRw : Rect w R) :
    m.predictProbaLr (.ofMat (R.map fins)) = .ok (R.map fun x =>
      fins [1 - sigmoid (linScore w W b x 0), sigmoid (linScore w W b x 0)]) := by
  simp only [predictProbaLr, h.decision_one hR hRw, py_ok_bind]
  rw [fins, List.map_map, mapM_map']
  apply mapM_ok_map
  intro x _
  simp [expit_exact]

/-- **C05**, multi-class `_predict_proba_lr`: the logistic functions of the scores divided by
their sum. -/
theorem C05_lr_multiclass (m : Linear Ex C) (w k : Nat) (W : List (List ℝ)) (b : List ℝ)
    (h : m.IsExact w k W b) (hk : 2 ≤ k) (R : List (List ℝ)) (hR : R ≠ []) (hRw : Rect w R) :
    m.predictProbaLr (.ofMat (R.map fins)) =
      .ok (R.map fun x => fins ((List.range k).map (ovr k (linScore w W b x)))) := by
  simp only [predictProbaLr, h.decision_many (by omega) hR hRw, py_ok_bind]
  rw [mapM_map']
  have h1 : (R.mapM fun x => (fins ((List.range k).map (linScore w W b x))).mapM expit) =
      .ok (R.map fun x => fins ((List.range k).map fun c => sigmoid (linScore w W b x c))) := by
    apply mapM_ok_map
    intro x _
    rw [mapM_fins (g := sigmoid) fun y _ => expit_exact y, List.map_map]
    rfl
  rw [show (fun x => List.mapM expit (fins ((List.range k).map (linScore w W b x)))) =
    fun x => (fins ((List.range k).map (linScore w W b x))).mapM expit from rfl, h1]
  simp only [py_ok_bind]
  rw [mapM_map']
  apply mapM_ok_map
  intro x _
  have hpos : 0 < ((List.range k).map fun c => sigmoid (linScore w W b x c)).sum := by
    apply List.sum_pos
    · intro y hy; obtain ⟨c, _, rfl⟩ := List.mem_map.1 hy; exact sigmoid_pos _
    · simp; omega
  simp only [normRow, pySum_fins]
  rw [mapM_fins (g := fun y => y / ((List.range k).map fun c => sigmoid (linScore w W b x c)).sum)]
  · rw [List.map_map, list_sum_range]
    rfl
  · intro y _
    simp [hpos.ne', XR.div_exact y hpos.ne']

/-- **C05**, multinomial, one row of coefficients: softmax of `[-score, score]`. -/
theorem C05_multinomial_binary (m : Linear Ex C) (w : Nat) (W : List (List ℝ)) (b : List ℝ)
    (h : m.IsExact w 1 W b) (hm : m.isOvr = .ok false) (R : List (List ℝ)) (hR : R ≠ [])
    (hRw : Rect w R) :
    m.predictProba (.ofMat (R.map fins)) = .ok (R.map fun x => fins ((List.range 2).map
      (softmax 2 fun c => if c = 0 then - linScore w W b x 0 else linScore w W b x 0))) := by
  simp only [predictProba, hm, py_ok_bind, h.decision_one hR hRw, Bool.false_eq_true, if_false]
  rw [fins, List.map_map, mapM_map']
  apply mapM_ok_map
  intro x _
  have := sfmax_exact (l := [-linScore w W b x 0, linScore w W b x 0]) (by simp)
  simp only [fins_cons, fins_nil] at this
  simp only [Function.comp, XR.neg_fin]
  rw [this]
  simp [softmax, List.range_succ, Finset.sum_range_succ]

/-- **C05**, multinomial, `k ≥ 2` rows of coefficients: softmax of the scores. -/
theorem C05_multinomial (m : Linear Ex C) (w k : Nat) (W : List (List ℝ)) (b : List ℝ)
    (h : m.IsExact w k W b) (hk : 2 ≤ k) (hm : m.isOvr = .ok false) (R : List (List ℝ))
    (hR : R ≠ []) (hRw : Rect w R) :
    m.predictProba (.ofMat (R.map fins)) =
      .ok (R.map fun x => fins ((List.range k).map (softmax k (linScore w W b x)))) := by
  simp only [predictProba, hm, py_ok_bind, h.decision_many (by omega) hR hRw, Bool.false_eq_true,
    if_false]
  rw [mapM_map']
  apply mapM_ok_map
  intro x _
  rw [sfmax_exact (by simp; omega), List.map_map, List.map_map, list_sum_range]
  rfl

/-- **C05**: which formula is used, for every `multi_class`/`solver` combination (the rule of
scikit-learn's `LogisticRegression.predict_proba`). -/
theorem C05_dispatch (m : Linear Ex C) (mc sol : String) (hmc : m.multiClass = some mc)
    (hsol : m.solver = some sol) :
    m.isOvr = .ok (decide (mc = "ovr" ∨ mc = "warn" ∨
      (mc = "auto" ∧ (m.classes.length ≤ 2 ∨ sol = "liblinear")))) := by
  simp only [isOvr, hmc, hsol, attr, py_ok_bind]
  by_cases h1 : mc = "ovr"
  · simp [h1]
  · by_cases h2 : mc = "warn"
    · simp [h2]
    · by_cases h3 : mc = "auto"
      · subst h3
        by_cases h4 : m.classes.length ≤ 2
        · simp [h4]
        · by_cases h5 : sol = "liblinear" <;> simp [h4, h5]
      · simp [h1, h2, h3]

theorem C05_ovr_uses_lr (m : Linear Ex C) (X : Arr Ex) (hm : m.isOvr = .ok true) :
    m.predictProba X = m.predictProbaLr X := by
  simp [predictProba, hm]

theorem ovr_isDist {k : Nat} (hk : 0 < k) (s : Nat → ℝ) :
    IsDist k ((List.range k).map (ovr k s)) := by
  have h := isDist_div (l := (List.range k).map fun c => sigmoid (s c)) (by
    intro y hy; obtain ⟨c, _, rfl⟩ := List.mem_map.1 hy; exact (sigmoid_pos _).le) (by
    apply List.sum_pos
    · intro y hy; obtain ⟨c, _, rfl⟩ := List.mem_map.1 hy; exact sigmoid_pos _
    · simp; omega)
  rw [List.map_map, list_sum_range, List.length_map, List.length_range] at h
  exact h

theorem softmax_isDist {k : Nat} (hk : 0 < k) (s : Nat → ℝ) :
    IsDist k ((List.range k).map (softmax k s)) := by
  have h := isDist_div (l := (List.range k).map fun c => Real.exp (s c)) (by
    intro y hy; obtain ⟨c, _, rfl⟩ := List.mem_map.1 hy; exact (Real.exp_pos _).le) (by
    apply List.sum_pos
    · intro y hy; obtain ⟨c, _, rfl⟩ := List.mem_map.1 hy; exact Real.exp_pos _
    · simp; omega)
  rw [List.map_map, list_sum_range, List.length_map, List.length_range] at h
  exact h

theorem pair_isDist (x : ℝ) : IsDist 2 [1 - sigmoid x, sigmoid x] := by
  refine ⟨rfl, ?_, by simp⟩
  intro y hy
  simp at hy
  rcases hy with rfl | rfl
  · linarith [sigmoid_lt_one x]
  · exact (sigmoid_pos x).le

/-- **C05**: whatever `multi_class` and `solver` are, `LogisticRegression.predict_proba` returns
for every record a probability distribution over the classes (two classes for one row of
coefficients, `k` for `k ≥ 2` rows). -/
theorem C05_probabilities_are_distributions (m : Linear Ex C) (w k : Nat) (W : List (List ℝ))
    (b : List ℝ) (h : m.IsExact w k W b) (mc sol : String) (hmc : m.multiClass = some mc)
    (hsol : m.solver = some sol) (R : List (List ℝ)) (hR : R ≠ []) (hRw : Rect w R) :
    ∃ p : List ℝ → List ℝ, m.predictProba (.ofMat (R.map fins)) = .ok (R.map fun x => fins (p x)) ∧
      ∀ x, IsDist (if k = 1 then 2 else k) (p x) := by
  have hd := C05_dispatch m mc sol hmc hsol
  by_cases hk : k = 1
  · subst hk
    simp only [if_true]
    cases ho : decide (mc = "ovr" ∨ mc = "warn" ∨
      (mc = "auto" ∧ (m.classes.length ≤ 2 ∨ sol = "liblinear"))) with
    | true =>
      rw [ho] at hd
      exact ⟨_, (C05_ovr_uses_lr m _ hd).trans (C05_lr_binary m w W b h R hR hRw),
        fun x => pair_isDist _⟩
    | false =>
      rw [ho] at hd
      exact ⟨_, C05_multinomial_binary m w W b h hd R hR hRw,
        fun x => softmax_isDist (by norm_num) _⟩
  · have hk2 : 2 ≤ k := by have := h.pos; omega
    rw [if_neg hk]
    cases ho : decide (mc = "ovr" ∨ mc = "warn" ∨
      (mc = "auto" ∧ (m.classes.length ≤ 2 ∨ sol = "liblinear"))) with
    | true =>
      rw [ho] at hd
      exact ⟨_, (C05_ovr_uses_lr m _ hd).trans (C05_lr_multiclass m w k W b h hk2 R hR hRw),
        fun x => ovr_isDist h.pos _⟩
    | false =>
      rw [ho] at hd
      exact ⟨_, C05_multinomial m w k W b h hk2 hd R hR hRw, fun x => softmax_isDist h.pos _⟩

/-- **C05**, SGD with `loss="log"`: always the one-vs-rest formula, hence a distribution. -/
theorem C05_sgd_log (m : Linear Ex C) (w k : Nat) (W : List (List ℝ))
    (b : List ℝ) (h : m.IsExact w k W b) (hl : m.loss = some "log")
    (R : List (List ℝ)) (hR : R ≠ []) (hRw : Rect w R) :
    m.sgdPredictProba (.ofMat (R.map fins)) = m.predictProbaLr (.ofMat (R.map fins)) ∧
    ∃ p : List ℝ → List ℝ,
      m.sgdPredictProba (.ofMat (R.map fins)) = .ok (R.map fun x => fins (p x)) ∧
      ∀ x, IsDist (if k = 1 then 2 else k) (p x) := by
  have e : m.sgdPredictProba (.ofMat (R.map fins)) = m.predictProbaLr (.ofMat (R.map fins)) := by
    simp [sgdPredictProba, checkProba, sgdPredictProba_, hl, attr]
  refine ⟨e, ?_⟩
  rw [e]
  by_cases hk : k = 1
  · subst hk
    exact ⟨_, C05_lr_binary m w W b h R hR hRw, fun x => pair_isDist _⟩
  · rw [if_neg hk]
    exact ⟨_, C05_lr_multiclass m w k W b h (by have := h.pos; omega) R hR hRw,
      fun x => ovr_isDist h.pos _⟩

/-- **C05**, floating point: in every sound arithmetic, on scores without NaN, the one-vs-rest
formula never raises — not even when every logistic value underflows to 0.  Each row then either
lies in [0,1] or, exactly in that case, consists of NaN only. -/
theorem C05_lr_rounded (fp : FP) (hs : fp.Sound) (m : Linear (XR fp) C) (X : Arr (XR fp))
    (S : List (List (XR fp))) (hd : m.decisionFunction X = .ok (.mat S))
    (hn : ∀ s ∈ S, XR.nan ∉ s) :
    ∃ P, m.predictProbaLr X = .ok P ∧ List.Forall₂ (fun s p => p.length = s.length ∧
      ∃ a, s.mapM expit = .ok a ∧
        ((∃ y ∈ a, y ≠ .fin 0) → ∀ q ∈ p, XR.Unit q) ∧
        ((∀ y ∈ a, y = .fin 0) → ∀ q ∈ p, q = .nan)) S P := by
  have hrow : ∀ s ∈ S, ∃ a p, s.mapM expit = .ok a ∧ normRow a = .ok p ∧ p.length = s.length ∧
      ((∃ y ∈ a, y ≠ .fin 0) → ∀ q ∈ p, XR.Unit q) ∧
      ((∀ y ∈ a, y = .fin 0) → ∀ q ∈ p, q = .nan) := by
    intro s hs'
    have hE : ∀ x ∈ s, ∃ p, expit x = .ok p ∧ XR.Unit p ∧ XR.Rep p := fun x hx =>
      XR.expit_unit hs (fun e => hn s hs' (e ▸ hx))
    have : Nonempty (XR fp) := ⟨.nan⟩
    choose! e he using hE
    have ha : s.mapM expit = .ok (s.map e) := mapM_ok_map fun x hx => (he x hx).1
    have hNN : ∀ y ∈ s.map e, XR.NN y := by
      intro y hy
      obtain ⟨x, hx, rfl⟩ := List.mem_map.1 hy
      obtain ⟨-, ⟨r, hr, h0, -⟩, hrep⟩ := he x hx
      rw [hr] at hrep ⊢
      exact XR.NN.fin h0 hrep
    obtain ⟨hS, hle⟩ := XR.pySum_NN hs hNN
    rcases hS.cases with hinf | ⟨T, hT, hT0, -⟩
    · refine ⟨s.map e, (s.map e).map fun _ => .fin 0, ha, ?_, by simp, ?_, ?_⟩
      · unfold normRow
        rw [hinf, XR.ofInt_zero hs]
        apply mapM_ok_map
        intro y hy
        obtain ⟨x, hx, rfl⟩ := List.mem_map.1 hy
        obtain ⟨-, ⟨r, hr, -, -⟩, -⟩ := he x hx
        rw [hr]
        rfl
      · intro _ q hq
        obtain ⟨_, _, rfl⟩ := List.mem_map.1 hq
        exact ⟨0, rfl, le_rfl, zero_le_one⟩
      · intro hz
        exfalso
        have : ∀ l : List (XR fp), (∀ y ∈ l, y = .fin 0) → pySum l = .fin 0 := by
          intro l hl
          unfold pySum
          rw [XR.ofInt_zero hs]
          induction l with
          | nil => rfl
          | cons y l ih =>
            rw [List.foldl_cons, hl y (by simp)]
            have h0 : Arith.add (.fin 0 : XR fp) (.fin 0) = .fin 0 := by
              show XR.round (0 + 0) = _
              rw [add_zero, XR.round, hs.zero]
              exact XR.ofEReal_coe 0
            rw [h0]
            exact ih fun z hz' => hl z (by simp [hz'])
        rw [this _ hz] at hinf
        cases hinf
    · by_cases hTz : T = 0
      · refine ⟨s.map e, (s.map e).map fun _ => .nan, ha, ?_, by simp, ?_, ?_⟩
        · unfold normRow
          rw [hT, XR.ofInt_zero hs, hTz]
          apply mapM_ok_map
          intro y _
          simp
          rfl
        · rintro ⟨y, hy, hne⟩
          exfalso
          have h1 := hle y hy
          have h2 := (hNN y hy)
          rw [hT, hTz] at h1
          rcases h2.cases with rfl | ⟨r, rfl, h0, -⟩
          · simp [XR.toE] at h1
          · have h3 : (r : EReal) ≤ ((0 : ℝ) : EReal) := h1
            have h4 : r ≤ 0 := by exact_mod_cast h3
            exact hne (by rw [le_antisymm h4 h0])
        · intro _ q hq
          obtain ⟨_, _, rfl⟩ := List.mem_map.1 hq
          rfl
      · have hTpos : 0 < T := lt_of_le_of_ne hT0 (Ne.symm hTz)
        have hdiv : ∀ y ∈ s.map e, ∃ q, y /ₚ (.fin T : XR fp) = .ok q ∧ XR.Unit q := by
          intro y hy
          have h1 := hle y hy
          obtain ⟨x, hx, rfl⟩ := List.mem_map.1 hy
          obtain ⟨-, ⟨r, hr, h0, -⟩, -⟩ := he x hx
          rw [hT] at h1
          rw [hr] at h1 ⊢
          have h2 : (r : EReal) ≤ (T : EReal) := h1
          obtain ⟨q, h3, h4, -⟩ := XR.div_unit hs h0 hTpos (by exact_mod_cast h2)
          exact ⟨q, h3, h4⟩
        choose! q hq using hdiv
        refine ⟨s.map e, (s.map e).map q, ha, ?_, by simp, ?_, ?_⟩
        · unfold normRow
          rw [hT, XR.ofInt_zero hs]
          apply mapM_ok_map
          intro y hy
          have : (!((.fin T : XR fp) ==ₚ .fin 0)) = true := by simp [hTz]
          rw [if_pos this]
          exact (hq y hy).1
        · intro _ z hz
          obtain ⟨y, hy, rfl⟩ := List.mem_map.1 hz
          exact (hq y hy).2
        · intro hz
          exfalso
          have : ∀ l : List (XR fp), (∀ y ∈ l, y = .fin 0) → pySum l = .fin 0 := by
            intro l hl
            unfold pySum
            rw [XR.ofInt_zero hs]
            induction l with
            | nil => rfl
            | cons y l ih =>
              rw [List.foldl_cons, hl y (by simp)]
              have h0 : Arith.add (.fin 0 : XR fp) (.fin 0) = .fin 0 := by
                show XR.round (0 + 0) = _
                rw [add_zero, XR.round, hs.zero]
                exact XR.ofEReal_coe 0
              rw [h0]
              exact ih fun z hz' => hl z (by simp [hz'])
          rw [this _ hz] at hT
          exact hTz (XR.fin_inj.1 hT).symm
  have : Nonempty (List (XR fp)) := ⟨[]⟩
  choose! a p hp using hrow
  refine ⟨S.map p, ?_, ?_⟩
  · simp only [predictProbaLr, hd, py_ok_bind]
    rw [mapM_ok_map fun s hs' => (hp s hs').1, py_ok_bind, mapM_map']
    exact mapM_ok_map fun s hs' => (hp s hs').2.1
  · rw [List.forall₂_map_right_iff, List.forall₂_same]
    exact fun s hs' => ⟨(hp s hs').2.2.1, a s, (hp s hs').1, (hp s hs').2.2.2⟩

/-- Non-vacuity: a three-class multinomial model. -/
example : ∃ p : List ℝ → List ℝ,
    (⟨[[1, 0], [0, 1], [0, 0]].map fins, ["a", "b", "c"], some (fins [0, 0, 0]),
      some "multinomial", some "lbfgs", none⟩ : Linear Ex String).predictProba
        (.ofMat ([[1, 1], [0, 2]].map fins)) = .ok ([[1, 1], [0, 2]].map fun x => fins (p x)) ∧
    ∀ x, IsDist 3 (p x) := by
  obtain ⟨p, h1, h2⟩ := C05_probabilities_are_distributions
    (⟨[[1, 0], [0, 1], [0, 0]].map fins, ["a", "b", "c"],
    some (fins [0, 0, 0]), some "multinomial", some "lbfgs", none⟩ : Linear Ex String) 2 3
    [[1, 0], [0, 1], [0, 0]]
    [0, 0, 0] ⟨rfl, by intro r hr; simp at hr; rcases hr with rfl | rfl | rfl <;> rfl, rfl, rfl,
      rfl, by norm_num⟩ _ _ rfl rfl [[1, 1], [0, 2]] (by simp)
    (by intro r hr; simp at hr; rcases hr with rfl | rfl <;> rfl)
  exact ⟨p, h1, h2⟩

end PurePredict
