import Verif.Lemmas.RisingObject
import Verif.Props.C100
/-
C101: columns with coefficients (or splits) of one direction have an effect of that direction, through any nesting of
objects, including all rounding errors.
-/
namespace PurePredict
open Spec
variable {lib : String → TextLib} {encode : Str → List Nat}

section
variable {fp : FP} (hs : fp.Sound)
include hs

/-- **C101** in any floating point arithmetic with monotone rounding and a monotone `exp`: a fitted object with parameters
of the right signs is converted, and the answers of the converted object move as they should when the columns of a
request move. -/
theorem C101_answers_move (hm : fp.MonoExp) (trunc : XR fp → Py Int) {o : SkObj (Attrs (XR fp)) (PVal (XR fp)) (XR fp)} {ws : List Way} {e : Effect fp} (h : Isotonic o ws e)
    {f : Methods (XR fp)} (hb : Behaves lib encode o f) :
    ∃ c, convert (singles trunc initXgb) o = .ok c ∧ Rises (c.methods lib encode) ws e := by
  obtain ⟨c, hc, rfl⟩ := C89_converted_behaves trunc lib encode o f hb
  exact ⟨c, hc, behaves_rises hs hm h hb⟩

/-- **C101** for linear classifiers without probabilities (`LinearSVC`, `RidgeClassifier`, `Perceptron`, ...): every request
of the right width is answered; raising columns with coefficients that are not negative and lowering columns with
coefficients that are not positive keeps the second label, unless the new score is NaN. -/
theorem C101_linear_labels {m : Linear (XR fp) (PVal (XR fp))} {ws : List Way} {c0 c1 : PVal (XR fp)} (h : SignedLinear m ws c0 c1)
    {M N : List (List (XR fp))} (hMN : Moved ws M N) :
    ∃ s t ls ms, m.decisionFunction (.ofMat M) = .ok (.flat s) ∧ m.decisionFunction (.ofMat N) = .ok (.flat t) ∧
      m.predict (.ofMat M) = .ok ls ∧ m.predict (.ofMat N) = .ok ms ∧ List.Forall₂ NotAbove s t ∧
      ∀ i : Nat, t[i]? ≠ some .nan → ls[i]? = some c1 → ms[i]? = some c1 := by
  obtain ⟨s, t, e1, e2, hst⟩ := decision_moves hs h hMN
  have lab : ∀ l : List (XR fp), (l.mapM fun x => pyGet m.classes (if ofInt 0 <ₚ x then 1 else 0)) =
      .ok (l.map fun x => if ofInt 0 <ₚ x then c1 else c0) := fun l => by
    rw [h.2.2.1]
    exact mapM_ok_map fun x _ => by split <;> rfl
  refine ⟨s, t, _, _, e1, e2, by rw [Linear.predict, e1, py_ok_bind]; exact lab s, by rw [Linear.predict, e2, py_ok_bind]; exact lab t, hst,
    fun i hi hl => ?_⟩
  clear e1 e2
  induction hst generalizing i with
  | nil => simp at hl
  | @cons x y s t hxy _ ih =>
    cases i with
    | succ i => exact ih i (by simpa using hi) (by simpa using hl)
    | zero =>
      simp only [List.map_cons, List.getElem?_cons_zero, Option.some.injEq, ne_eq] at hl hi ⊢
      have hx : (ofInt 0 <ₚ x) = true := by
        by_contra hx
        rw [if_neg hx] at hl
        exact h.2.2.2 hl
      have : (ofInt 0 <ₚ y) = true := by
        obtain ⟨h1, h2, h3⟩ := XR.below_iff.1 hx
        rcases XR.notAbove_iff.1 hxy with rfl | rfl | h4
        · exact absurd rfl h2
        · exact absurd rfl hi
        · exact XR.below_iff.2 ⟨h1, hi, lt_of_lt_of_le h3 h4⟩
      rw [if_pos this]

/-- Class counts in proportion: the second leaf does not hold a smaller share of the second class.  Counts whose sums are
floats (such as whole numbers below 2^53) are then ordered as `Isotonic` asks. -/
theorem C101_counts {a b c d : ℝ} (h0 : 0 < a + b) (h1 : 0 < c + d)
    (fa : fp.rnd a = (a : EReal)) (fc : fp.rnd c = (c : EReal)) (fab : fp.rnd (a + b) = ((a + b : ℝ) : EReal))
    (fcd : fp.rnd (c + d) = ((c + d : ℝ) : EReal)) (h : b / (a + b) ≤ d / (c + d)) :
    LowerShare (fp := fp) [.fin a, .fin b] [.fin c, .fin d] := by
  have total : ∀ a b : ℝ, fp.rnd a = (a : EReal) → fp.rnd (a + b) = ((a + b : ℝ) : EReal) → pySum [(.fin a : XR fp), .fin b] = .fin (a + b) := by
    intro a b fa fab
    show ((ofInt 0 : XR fp) +ₚ .fin a) +ₚ .fin b = _
    rw [XR.ofInt_zero hs]
    show XR.add (XR.round (0 + a)) _ = _
    rw [zero_add, XR.round_rep fa]
    exact XR.round_rep fab
  have div : ∀ {x y : ℝ} {p q : XR fp} {n m : ℝ}, 0 < n → 0 < m → x / n ≤ y / m → (.fin x : XR fp) /ₚ .fin n = .ok p → (.fin y : XR fp) /ₚ .fin m = .ok q → NotAbove p q := by
    intro x y p q n m hn hm hle hp hq
    rw [XR.div_fin, if_neg hn.ne'] at hp
    rw [XR.div_fin, if_neg hm.ne'] at hq
    cases hp; cases hq
    refine XR.notAbove_of ?_
    rw [XR.toE_round, XR.toE_round]
    exact hs.mono hle
  refine ⟨_, _, _, _, rfl, rfl, fun hab => ?_, fun p q hp hq => ?_, fun p q hp hq => ?_⟩
  · rw [XR.lt_fin, decide_eq_true_eq] at hab ⊢
    rw [div_le_div_iff₀ h0 h1] at h
    nlinarith
  · rw [total a b fa fab] at hp
    rw [total c d fc fcd] at hq
    refine div h1 h0 ?_ hq hp
    rw [div_le_div_iff₀ h0 h1] at h
    rw [div_le_div_iff₀ h1 h0]
    nlinarith
  · rw [total a b fa fab] at hp
    rw [total c d fc fcd] at hq
    exact div h0 h1 h hp hq

end

section
variable (trunc : XR FP.binary64 → Py Int)

/-- **C101** in double precision, for objects with two classes whose parameters have the right sizes and signs: both requests
are answered, row by row the probability of the second class does not fall and that of the first does not rise, and
records labelled with the second class keep that label unless their probabilities are NaN. -/
theorem C101_two_classes {o : SkObj (Attrs (XR FP.binary64)) (PVal (XR FP.binary64)) (XR FP.binary64)} {ws : List Way} {l : Layout}
    {cs : List (PVal (XR FP.binary64))} {k : Nat} {c0 c1 : PVal (XR FP.binary64)} (h : Isotonic o ws (.share c0 c1))
    (hr : Robust o (.matrix l ws.length) (.labels cs (some k))) (hl : l.Fits false)
    {f : Methods (XR FP.binary64)} (hb : Behaves lib encode o f) :
    ∃ c p q, convert (singles trunc initXgb) o = .ok c ∧ (c.methods lib encode).predict = some p ∧
      (c.methods lib encode).predictProba = some q ∧ ∀ M N, Moved ws M N →
        ∃ P Q ls ms, q (.arr (.ofMat M)) = .ok P ∧ q (.arr (.ofMat N)) = .ok Q ∧ p (.arr (.ofMat M)) = .ok ls ∧ p (.arr (.ofMat N)) = .ok ms ∧
          P.length = M.length ∧ ls.length = M.length ∧ ms.length = M.length ∧ List.Forall₂ Shifted P Q ∧
          ∀ (i : Nat) (r : List (XR FP.binary64)), Q[i]? = some r → XR.nan ∉ r → ls[i]? = some c1 → ms[i]? = some c1 := by
  obtain ⟨c, p, q, hc, hp, hq, hd, -⟩ := C100_classifiers (lib := lib) (encode := encode) trunc hr hb
  obtain ⟨c', hc', p', q', hp', hq', hm⟩ := C101_answers_move (lib := lib) (encode := encode) FP.binary64_sound FP.binary64_monoExp trunc h hb
  rw [hc] at hc'
  cases hc'
  rw [hp] at hp'
  rw [hq] at hq'
  cases hp'; cases hq'
  refine ⟨c, p, q, hc, hp, hq, fun M N hMN => ?_⟩
  obtain ⟨⟨ls, l1, l2, -⟩, P, p1, p2, -⟩ := hd hl M hMN.left.1 hMN.left.2
  obtain ⟨⟨ms, m1, m2, -⟩, Q, q1, q2, -⟩ := hd hl N hMN.right.1 hMN.right.2
  obtain ⟨a1, a2⟩ := hm M N hMN P Q p1 q1
  exact ⟨P, Q, ls, ms, p1, q1, l1, m1, p2, l2, by rw [m2, hMN.length], a1, a2 ls ms l1 m1⟩

/-- **C101** for a single record: `y` comes from `x` by raising some columns and lowering others. -/
theorem C101_one_record {o : SkObj (Attrs (XR FP.binary64)) (PVal (XR FP.binary64)) (XR FP.binary64)} {ws : List Way} {l : Layout}
    {cs : List (PVal (XR FP.binary64))} {k : Nat} {c0 c1 : PVal (XR FP.binary64)} (h : Isotonic o ws (.share c0 c1))
    (hr : Robust o (.matrix l ws.length) (.labels cs (some k))) (hl : l.Fits false)
    {f : Methods (XR FP.binary64)} (hb : Behaves lib encode o f) :
    ∃ c p q, convert (singles trunc initXgb) o = .ok c ∧ (c.methods lib encode).predict = some p ∧
      (c.methods lib encode).predictProba = some q ∧ ∀ x y, Below ws x y →
        ∃ a b a' b' l l', q (.arr (.ofMat [x])) = .ok [[a, b]] ∧ q (.arr (.ofMat [y])) = .ok [[a', b']] ∧
          p (.arr (.ofMat [x])) = .ok [l] ∧ p (.arr (.ofMat [y])) = .ok [l'] ∧ (b' <ₚ b) = false ∧ (a <ₚ a') = false ∧
          (a' ≠ .nan → b' ≠ .nan → l = c1 → l' = c1) := by
  obtain ⟨c, p, q, hc, hp, hq, hd⟩ := C101_two_classes (lib := lib) (encode := encode) trunc h hr hl hb
  refine ⟨c, p, q, hc, hp, hq, fun x y hxy => ?_⟩
  obtain ⟨P, Q, ls, ms, h1, h2, h3, h4, h5, h6, h7, h8, h9⟩ := hd [x] [y] ⟨by simp, .cons hxy .nil⟩
  obtain ⟨r, rfl⟩ := List.length_eq_one_iff.1 h5
  obtain ⟨u, rfl⟩ := List.length_eq_one_iff.1 h6
  obtain ⟨v, rfl⟩ := List.length_eq_one_iff.1 h7
  cases h8 with
  | @cons _ r' _ _ hr hn =>
    cases hn
    cases hr with
    | @mk a b a' b' e1 e2 =>
      refine ⟨a, b, a', b', u, v, h1, h2, h3, h4, e2, e1, fun n1 n2 hu => ?_⟩
      have := h9 0 [a', b'] rfl (by simp [n1.symm, n2.symm]) (by rw [hu]; rfl)
      simpa using this

end

/-! ### Trees as scikit-learn grows them -/

/-- **C101**: a decision tree grown by scikit-learn in which every split on a rising column has the leaves with the smaller
shares of the second class on its left (on its right for a falling column). -/
theorem C101_grown_classifiers {fp : FP} {c : String} {v : Option (List Char)} {e : Attrs (XR fp)} {s : SkTree (XR fp)} {c0 c1 : PVal (XR fp)}
    {ws : List Way} (hc : c = "DecisionTreeClassifier" ∨ c = "ExtraTreeClassifier") (he : HoldsTree e s) (hl : HasLabels e [c0, c1])
    (hne : c0 ≠ c1) (hv : ∀ a ∈ s.values, a ≠ []) (hs : Steady ws LowerShare s.first) :
    Isotonic (.leaf c v e) ws (.share c0 c1) := by
  obtain ⟨t, h1, h2, h3⟩ := Tree.ofSklearn_encodes s hv (some [c0, c1]) [.int 0, .int 1]
  exact .single (.treeClassifier (cs := some _) hc he hl h1) (.treeClassifier h2 hs h3 hne)

/-- **C101**: likewise a regression tree with the smaller values on the left of a rising column. -/
theorem C101_grown_regressors {fp : FP} {c : String} {v : Option (List Char)} {e : Attrs (XR fp)} {s : SkTree (XR fp)}
    {cs : Option (List (PVal (XR fp)))} {ws : List Way} (hc : c = "DecisionTreeRegressor" ∨ c = "ExtraTreeRegressor")
    (he : HoldsTree e s) (hl : HasLabelsOrNot e cs) (hv : ∀ a ∈ s.values, a ≠ []) (hs : Steady ws Lower s.first) :
    Isotonic (.leaf c v e) ws .number := by
  obtain ⟨t, h1, h2, -⟩ := Tree.ofSklearn_encodes s hv cs [.int 0, .int 1]
  exact .single (.treeRegressor hc he hl h1) (.treeRegressor h2 hs)

/-! ### Non-vacuity -/

theorem floatScaling_isotonic (w1 w2 : Way) : Isotonic (.leaf "StandardScaler" (some "0.22".toList) floatScaling) [w1, w2] (.rows [w1, w2]) :=
  .single floatScaling_learned (.scaler (.standard (fun _ => ⟨_, rfl, rfl, by simp⟩) fun _ => ⟨_, rfl, rfl, by simp⟩))

theorem floatLogistic_isotonic : Isotonic (.leaf "LogisticRegression" (some "0.22".toList) floatLogistic) [.up, .down] (.share (.str "no") (.str "yes")) :=
  .single floatLogistic_learned (.logistic (mc := "auto") ⟨⟨_, rfl, .up (by norm_num) (.down (by norm_num) .nil)⟩, ⟨_, rfl⟩, rfl, by simp⟩ rfl (.inr (.inr rfl)))

/-- scaling, then coefficients 1 and -1 -/
theorem floatPipe_isotonic : Isotonic floatPipe [.up, .down] (.share (.str "no") (.str "yes")) :=
  .firstStep (floatScaling_isotonic _ _) (.lastStep floatLogistic_isotonic)

/-- Raising the first column and lowering the second of the records of the scaled model, by however little or much. -/
example (trunc : XR FP.binary64 → Py Int) : ∃ c q, convert (singles trunc initXgb) floatPipe = .ok c ∧ (c.methods lib encode).predictProba = some q ∧
    ∃ a b a' b', q (.arr (.ofMat [[.fin 0, .pinf]])) = .ok [[a, b]] ∧ q (.arr (.ofMat [[.fin 3, .fin 1]])) = .ok [[a', b']] ∧ (b' <ₚ b) = false := by
  obtain ⟨c, p, q, hc, hp, hq, h⟩ := C101_one_record (lib := lib) (encode := encode) trunc floatPipe_isotonic floatPipe_robust rfl
    (.pipeline (steps := [(_, _), (_, _)]) (es := [_, _]) version_022 (.cons (.single version_022 floatScaling_learned)
      (.cons (.single version_022 floatLogistic_learned) .nil)))
  obtain ⟨a, b, a', b', -, -, h1, h2, -, -, h3, -⟩ := h [.fin 0, .pinf] [.fin 3, .fin 1]
    (.cons (XR.ordered_iff.2 (by simp [XR.toE])) (.cons (XR.ordered_iff.2 (by simp [XR.toE])) .nil))
  exact ⟨c, q, hc, hq, a, b, a', b', h1, h2, h3⟩

/-- Two such models under bagging, on given columns; a weighted union of scalers. -/
example : Isotonic (.ensemble .bagging (some "0.22".toList) (some [[0, 1], [0, 1]]) [.str "no", .str "yes"] [floatPipe, floatPipe]) [.up, .down]
      (.share (.str "no") (.str "yes")) ∧
    Isotonic (.union (some "0.22".toList) [("a", .leaf "StandardScaler" (some "0.22".toList) floatScaling),
      ("b", .leaf "StandardScaler" (some "0.22".toList) floatScaling)] (some [("b", .fin 3)])) [.up, .still] (.rows [.up, .still, .up, .still]) := by
  constructor
  · refine .subspaces (ls := fun _ => .str "no") (ls' := fun _ => .str "yes") (by simp) rfl (by simp) fun p hp => ?_
    simp only [List.zip_cons_cons, List.zip_nil_right, List.mem_cons, List.not_mem_nil, or_false, or_self] at hp
    subst hp
    exact floatPipe_isotonic
  · refine .union (steps := [("a", _, [.up, .still]), ("b", _, [.up, .still])]) (by simp) (fun s hm => ?_) fun s hm => ?_
    · simp only [List.mem_cons, List.not_mem_nil, or_false] at hm
      rcases hm with rfl | rfl
      · intro c hc
        cases hc
      · intro c hc
        cases hc
        exact ⟨3, by norm_num, rfl⟩
    · simp only [List.mem_cons, List.not_mem_nil, or_false] at hm
      rcases hm with rfl | rfl <;> exact floatScaling_isotonic _ _

/-- a stump on the first column with these values in its leaves -/
noncomputable def riseStump {fp : FP} (u v : List (XR fp)) : SkTree (XR fp) := .split [u] 0 (.fin 1) (.leaf [u]) (.leaf [v])

noncomputable def riseTree {fp : FP} (s : SkTree (XR fp)) (rest : Attrs (XR fp)) : Attrs (XR fp) :=
  ("tree_", .obj "Tree" none ["children_left", "children_right", "feature", "threshold", "value"]
    [.ndarray (vints s.arrays.left), .ndarray (vints s.arrays.right), .ndarray (vints s.arrays.feature),
     .ndarray (vnums s.arrays.threshold), .ndarray (.list (s.arrays.value.map vmat))]) :: rest

theorem riseTree_holds {fp : FP} (s : SkTree (XR fp)) (rest : Attrs (XR fp)) : HoldsTree (riseTree s rest) s :=
  ⟨_, _, _, _, rfl, rfl, rfl, rfl, rfl, rfl⟩

/-- counts 3 and 1 to the left, 1 and 3 to the right -/
theorem riseCounts : Steady [.up] LowerShare (riseStump (fp := FP.binary64) [.fin 3, .fin 1] [.fin 1, .fin 3]).first := by
  have f : ∀ n : ℤ, |n| < 2 ^ 53 → ∀ {r : ℝ}, r = n → FP.binary64.rnd r = (r : EReal) := by
    intro n hn r hr
    have := FP.binary64_round_int n hn
    rw [hr]
    have h := congrArg XR.toE this
    rw [XR.toE_round] at h
    exact h
  have k : ∀ {a b c d : ℝ} (na nc nab ncd : ℤ), |na| < 2 ^ 53 → |nc| < 2 ^ 53 → |nab| < 2 ^ 53 → |ncd| < 2 ^ 53 → a = na → c = nc → a + b = nab → c + d = ncd →
      0 < a + b → 0 < c + d → b / (a + b) ≤ d / (c + d) → LowerShare (fp := FP.binary64) [.fin a, .fin b] [.fin c, .fin d] :=
    fun na nc nab ncd h1 h2 h3 h4 e1 e2 e3 e4 p1 p2 h => C101_counts FP.binary64_sound p1 p2 (f na h1 e1) (f nc h2 e2) (f nab h3 e3) (f ncd h4 e4) h
  refine ⟨?_, ?_, fun _ u hu v hv => ?_, fun h => absurd h (by simp)⟩
  · exact k 3 3 4 4 (by norm_num) (by norm_num) (by norm_num) (by norm_num) (by norm_num) (by norm_num) (by norm_num) (by norm_num) (by norm_num) (by norm_num) (by norm_num)
  · exact k 1 1 4 4 (by norm_num) (by norm_num) (by norm_num) (by norm_num) (by norm_num) (by norm_num) (by norm_num) (by norm_num) (by norm_num) (by norm_num) (by norm_num)
  · rw [List.mem_singleton.1 hu, List.mem_singleton.1 hv]
    exact k 3 1 4 4 (by norm_num) (by norm_num) (by norm_num) (by norm_num) (by norm_num) (by norm_num) (by norm_num) (by norm_num) (by norm_num) (by norm_num) (by norm_num)

/-- A forest of that stump, twice. -/
example : Isotonic (.ensemble .randomForest (some "0.22".toList) none [.int 0, .int 1]
    (List.replicate 2 (.leaf "DecisionTreeClassifier" (some "0.22".toList)
      (riseTree (riseStump (fp := FP.binary64) [.fin 3, .fin 1] [.fin 1, .fin 3]) [("classes_", .ndarray (.list [.int 0, .int 1]))]))))
    [.up] (.share (.int 0) (.int 1)) := by
  refine .ensemble (ls := fun _ => .int 0) (ls' := fun _ => .int 1) (by simp) fun m hm => ?_
  rw [List.eq_of_mem_replicate hm]
  refine C101_grown_classifiers (.inl rfl) (riseTree_holds _ _) ⟨rfl, ?_⟩ (by simp) (by simp [riseStump, SkTree.values]) riseCounts
  intro c hc
  simp only [List.mem_cons, List.not_mem_nil, or_false] at hc
  rcases hc with rfl | rfl <;> exact .int _

noncomputable def floatInit : Attrs (XR FP.binary64) :=
  [("strategy", .str "prior"), ("class_prior_", .ndarray (vnums [.fin (1 / 2), .fin (1 / 2)])), ("n_classes_", .int 2), ("n_outputs_", .int 1)]

/-- Gradient boosting with one stump of values -1 and 2 and learning rate 1/10 (as a real number). -/
example : Isotonic (.boosting (some "0.22".toList) [.int 0, .int 1]
    [[.leaf "DecisionTreeRegressor" (some "0.22".toList) (riseTree (riseStump (fp := FP.binary64) [.fin (-1)] [.fin 2]) [])]]
    (.leaf "DummyClassifier" (some "0.22".toList) floatInit) "exponential" [.float (.fin (1 / 10)), .int (1 : Nat)])
    [.up] (.share (.int 0) (.int 1)) := by
  refine .boosting (d := ⟨[.fin (1 / 2), .fin (1 / 2)]⟩) (l := .exponential) (by simp) rfl
    (.dummy (.inr ⟨rfl, rfl⟩) rfl ⟨_, rfl, .int _⟩ ⟨_, rfl, .int _⟩) (by norm_num) fun st hst m hm => ?_
  rw [List.mem_singleton.1 hst] at hm
  rw [List.mem_singleton.1 hm]
  refine C101_grown_regressors (cs := none) (.inl rfl) (riseTree_holds _ _) (.inl rfl) (by simp [riseStump, SkTree.values]) ?_
  have r : ∀ x y : ℝ, x ≤ y → Lower (fp := FP.binary64) [.fin x] [.fin y] :=
    fun x y h => ⟨_, _, rfl, rfl, XR.notAbove_of (by simpa [XR.toE] using h)⟩
  refine ⟨r _ _ le_rfl, r _ _ le_rfl, fun _ u hu v hv => ?_, fun h => absurd h (by simp)⟩
  rw [List.mem_singleton.1 hu, List.mem_singleton.1 hv]
  exact r _ _ (by norm_num)

/-- A linear classifier without probabilities. -/
example : SignedLinear (fp := FP.binary64) ⟨[[.fin 1, .fin (-2), .nan]], [.int 0, .int 1], some [.fin 5], none, none, none⟩ [.up, .down, .still] (.int 0) (.int 1) :=
  ⟨⟨_, rfl, .up (by norm_num) (.down (by norm_num) (.still .nil))⟩, ⟨_, rfl⟩, rfl, by simp⟩

end PurePredict
