import Verif.Lemmas.UnfailingObject
import Verif.Props.C99
import Verif.Props.C08
/-
C100: in double precision no well-formed request makes a converted object raise, whatever numbers the request contains.
-/
namespace PurePredict
open Spec
variable {lib : String → TextLib} {encode : Str → List Nat}

section
variable {fp : FP} (hs : fp.Sound) (hm : fp.MonoExp) (ho : fp.Odds) (trunc : XR fp → Py Int)
include hs hm ho

/-- **C100** in any floating point arithmetic with monotone rounding and a monotone `exp`: a fitted object whose parts have
parameters of matching sizes and no zero divisors is converted, and the converted object answers every request of that
form without raising, with an entry for each record: NaN, infinities and numbers of any size are answered too. -/
theorem C100_no_request_raises {o : SkObj (Attrs (XR fp)) (PVal (XR fp)) (XR fp)} {A : Posed} {r : Outcome fp} (h : Robust o A r)
    {f : Methods (XR fp)} (hb : Behaves lib encode o f) :
    ∃ c, convert (singles trunc initXgb) o = .ok c ∧ Unfailing (c.methods lib encode) A r := by
  obtain ⟨c, hc, rfl⟩ := C89_converted_behaves trunc lib encode o f hb
  exact ⟨c, hc, behaves_unfailing hs (noTrap hs hm ho) h hb⟩

end

section
variable (trunc : XR FP.binary64 → Py Int)

/-- **C100** in double precision, classifiers on matrices: `predict` returns as many labels as there are rows, each of
them one of the classes, and `predict_proba` as many rows of as many numbers as there are classes, for every matrix
with the right number of columns, dense or (if the layout says so) sparse. -/
theorem C100_classifiers {o : SkObj (Attrs (XR FP.binary64)) (PVal (XR FP.binary64)) (XR FP.binary64)} {w k : Nat} {l : Layout}
    {cs : List (PVal (XR FP.binary64))} (h : Robust o (.matrix l w) (.labels cs (some k)))
    {f : Methods (XR FP.binary64)} (hb : Behaves lib encode o f) :
    ∃ c p q, convert (singles trunc initXgb) o = .ok c ∧ (c.methods lib encode).predict = some p ∧
      (c.methods lib encode).predictProba = some q ∧
      (l.Fits false → ∀ M : List (List (XR FP.binary64)), M ≠ [] → (∀ r ∈ M, r.length = w) →
        (∃ ls, p (.arr (.ofMat M)) = .ok ls ∧ ls.length = M.length ∧ ∀ l ∈ ls, l ∈ cs) ∧
        ∃ P, q (.arr (.ofMat M)) = .ok P ∧ P.length = M.length ∧ ∀ a ∈ P, a.length = k) ∧
      (l.Fits true → ∀ (ds : List (Dict Int (XR FP.binary64))) (dt : DType), ds ≠ [] → (∀ d ∈ ds, ValidRow w d) →
        (∃ ls, p (.arr (.sparse ds (some w) dt)) = .ok ls ∧ ls.length = ds.length ∧ ∀ l ∈ ls, l ∈ cs) ∧
        ∃ P, q (.arr (.sparse ds (some w) dt)) = .ok P ∧ P.length = ds.length ∧ ∀ a ∈ P, a.length = k) := by
  obtain ⟨c, hc, rfl⟩ := C89_converted_behaves trunc lib encode o f hb
  obtain ⟨⟨p, hp, h1⟩, h2⟩ := behaves_unfailing FP.binary64_sound noTrap_binary64 h hb
  obtain ⟨⟨q, hq, h3⟩, -⟩ := h2 k rfl
  exact ⟨c, p, q, hc, hp, hq, fun hl M hM hw => ⟨h1 _ _ (.dense hl hM hw rfl), h3 _ _ (.dense hl hM hw rfl)⟩,
    fun hl ds dt hM hw => ⟨h1 _ _ (.sparse hl hM hw rfl), h3 _ _ (.sparse hl hM hw rfl)⟩⟩

/-- **C100** in double precision, text classifiers: every non-empty list of documents is answered. -/
theorem C100_text_classifiers {o : SkObj (Attrs (XR FP.binary64)) (PVal (XR FP.binary64)) (XR FP.binary64)} {k : Nat}
    {cs : List (PVal (XR FP.binary64))} (h : Robust o .docs (.labels cs (some k)))
    {f : Methods (XR FP.binary64)} (hb : Behaves lib encode o f) :
    ∃ c p q, convert (singles trunc initXgb) o = .ok c ∧ (c.methods lib encode).predict = some p ∧
      (c.methods lib encode).predictProba = some q ∧ ∀ ds, ds ≠ [] →
        (∃ ls, p (.docs ds) = .ok ls ∧ ls.length = ds.length ∧ ∀ l ∈ ls, l ∈ cs) ∧
        ∃ P, q (.docs ds) = .ok P ∧ P.length = ds.length ∧ ∀ a ∈ P, a.length = k := by
  obtain ⟨c, hc, rfl⟩ := C89_converted_behaves trunc lib encode o f hb
  obtain ⟨⟨p, hp, h1⟩, h2⟩ := behaves_unfailing FP.binary64_sound noTrap_binary64 h hb
  obtain ⟨⟨q, hq, h3⟩, -⟩ := h2 k rfl
  exact ⟨c, p, q, hc, hp, hq, fun ds hds => ⟨h1 _ _ (.docs hds rfl), h3 _ _ (.docs hds rfl)⟩⟩

end

/-! ### Trees as scikit-learn grows them -/

/-- **C100**: a decision tree grown by scikit-learn, of any shape and with any thresholds, answers every matrix with the
columns it tests; its nodes hold class counts that are floats, not negative and not all zero. -/
theorem C100_grown_classifiers {fp : FP} {c : String} {v : Option (List Char)} {e : Attrs (XR fp)} {s : SkTree (XR fp)} {cs : List (PVal (XR fp))}
    {w : Nat} (l : Layout) (hc : c = "DecisionTreeClassifier" ∨ c = "ExtraTreeClassifier") (he : HoldsTree e s) (hl : HasLabels e cs)
    (hv : ∀ a ∈ s.values, a ≠ [] ∧ Weights cs.length (a.headD [])) (hf : ∀ f ∈ s.features, f < w) :
    Robust (.leaf c v e) (.matrix l w) (.labels cs (some cs.length)) := by
  obtain ⟨t, h1, h2, h3⟩ := grown_fitted s w hv hf (some cs) [.int 0, .int 1]
  have h3 : t.classes = cs := h3
  subst h3
  exact .final (.treeClassifier (cs := some _) hc he hl h1) (.treeClassifier h2)

/-- **C100**: likewise a regression tree, whatever numbers its nodes hold. -/
theorem C100_grown_regressors {fp : FP} {c : String} {v : Option (List Char)} {e : Attrs (XR fp)} {s : SkTree (XR fp)}
    {cs : Option (List (PVal (XR fp)))} {w : Nat} (l : Layout) (hc : c = "DecisionTreeRegressor" ∨ c = "ExtraTreeRegressor")
    (he : HoldsTree e s) (hl : HasLabelsOrNot e cs) (hv : ∀ a ∈ s.values, a ≠ [] ∧ a.headD [] ≠ []) (hf : ∀ f ∈ s.features, f < w) :
    Robust (.leaf c v e) (.matrix l w) .values := by
  obtain ⟨t, h1, h2, -⟩ := grown_fitted (Good := (· ≠ [])) s w hv hf cs [.int 0, .int 1]
  exact .final (.treeRegressor hc he hl h1) (.treeRegressor h2)

/-! ### The models left out do raise -/

/-- **C100 is false** of a softmax over several scores: whenever the scores of the first record all are -1000 or less,
`predict_proba` of a multinomial LogisticRegression raises ZeroDivisionError. -/
theorem C100_softmax_raises {m : Linear (XR FP.binary64) (PVal (XR FP.binary64))} (hov : m.isOvr = .ok false) {X : Arr (XR FP.binary64)}
    {s : List ℝ} {S : List (List (XR FP.binary64))} (h : m.decisionFunction X = .ok (.mat (s.map .fin :: S))) (hne : s ≠ [])
    (hlow : ∀ x ∈ s, x ≤ -1000) : m.predictProba X = .error .zeroDivisionError := by
  simp only [Linear.predictProba, hov, py_ok_bind, Bool.false_eq_true, if_false, h, mapM_cons',
    C08_underflow_raises FP.binary64 FP.binary64_sound s hne fun x hx => FP.binary64_exp_underflow (hlow x hx)]
  rfl

/-- a fitted LogisticRegression on one column with three classes and a common softmax -/
noncomputable def slopes3 : Attrs (XR FP.binary64) :=
  [("coef_", .ndarray (vmat [[.fin 1], [.fin 1], [.fin 1]])), ("intercept_", .ndarray (vnums [.fin 0, .fin 0, .fin 0])),
   ("classes_", .ndarray (.list [.int 0, .int 1, .int 2])), ("multi_class", .str "multinomial"), ("solver", .str "lbfgs")]

noncomputable def slopes3Model : Linear (XR FP.binary64) (PVal (XR FP.binary64)) :=
  Linear.ofFitted [[.fin 1], [.fin 1], [.fin 1]] [.int 0, .int 1, .int 2] (some (.vector [.fin 0, .fin 0, .fin 0])) (some "multinomial")
    (some "lbfgs") none

theorem slopes3_learned : Learned "LogisticRegression" slopes3 (.linear .logistic slopes3Model) := by
  refine .linear (by simp [linearClasses]) rfl ⟨rfl, ?_⟩ rfl rfl rfl rfl
  intro c hc
  simp only [List.mem_cons, List.not_mem_nil, or_false] at hc
  rcases hc with rfl | rfl | rfl <;> exact .int _

theorem round64 (n : ℤ) (h : |n| < 2 ^ 53) {r : ℝ} (hr : r = n) : (XR.round r : XR FP.binary64) = .fin n := by
  rw [hr]; exact FP.binary64_round_int n h

theorem slopes3_scores : slopes3Model.decisionFunction (.ofMat [[.fin (-1000)]]) =
    .ok (.mat [[-1000, -1000, -1000].map (.fin : ℝ → XR FP.binary64)]) := by
  have e1 : (ofInt 0 : XR FP.binary64) = .fin 0 := XR.ofInt_zero FP.binary64_sound
  have e2 : (.fin (-1000) : XR FP.binary64) *ₚ .fin 1 = .fin (-1000) := by
    have := round64 (-1000) (by norm_num) (r := -1000 * 1) (by norm_num)
    push_cast at this
    exact this
  have e3 : (.fin 0 : XR FP.binary64) +ₚ .fin (-1000) = .fin (-1000) := by
    have := round64 (-1000) (by norm_num) (r := 0 + -1000) (by norm_num)
    push_cast at this
    exact this
  have e4 : (.fin (-1000) : XR FP.binary64) +ₚ .fin 0 = .fin (-1000) := by
    have := round64 (-1000) (by norm_num) (r := -1000 + 0) (by norm_num)
    push_cast at this
    exact this
  have hacc : slopes3Model.Accepts (.ofMat [[.fin (-1000)]]) [.list [.fin (-1000)]] :=
    ⟨rfl, rfl, rfl, by simp⟩
  rw [Linear.decision_eq hacc (b := [.fin 0, .fin 0, .fin 0]) rfl]
  simp only [mapM_cons', mapM_nil', Linear.rowScores, dot_list, py_ok_bind, slopes3Model, Linear.ofFitted, attr, py_pure, dotList, pySum,
    List.map_cons, List.map_nil, List.zipWith_cons_cons, List.zipWith_nil_left, List.foldl_cons, List.foldl_nil, e1, e2, e3, Option.map_some, e4]
  rfl

/-- The converted object of such a model raises on the finite request `[[-1000.0]]`, of the right width. -/
theorem C100_softmax_false (trunc : XR FP.binary64 → Py Int) : ∃ c q,
    convert (singles trunc initXgb) (.leaf "LogisticRegression" (some "0.22".toList) slopes3) = .ok c ∧
      (c.methods lib encode).predictProba = some q ∧ q (.arr (.ofMat [[.fin (-1000)]])) = .error .zeroDivisionError := by
  obtain ⟨c, hc, hm⟩ := C89_converted_behaves trunc lib encode (.leaf "LogisticRegression" (some "0.22".toList) slopes3) _
    (.single version_022 slopes3_learned)
  refine ⟨c, _, hc, by rw [hm]; rfl, ?_⟩
  exact C100_softmax_raises rfl slopes3_scores (by simp) (by simp)

/-- **C100 is false** of Gaussian naive Bayes: a finite value 2^512 or more away from the mean of the first class makes
`(x - theta) ** 2` raise OverflowError. -/
theorem C100_gaussian_raises {m : GaussianNB (XR FP.binary64) (PVal (XR FP.binary64))} {c0 : PVal (XR FP.binary64)} {cs : List (PVal (XR FP.binary64))}
    (hc : m.classes = c0 :: cs) {p0 : XR FP.binary64} {ps : List (XR FP.binary64)} (hp : m.classPrior = p0 :: ps)
    {sg : List (XR FP.binary64)} {sgs : List (List (XR FP.binary64))} (hsg : m.sigma = sg :: sgs)
    {t0 : XR FP.binary64} {t : List (XR FP.binary64)} {ts : List (List (XR FP.binary64))} (ht : m.theta = (t0 :: t) :: ts)
    {x : XR FP.binary64} {xs : List (XR FP.binary64)} {M : List (List (XR FP.binary64))} {d : ℝ} (hd : x -ₚ t0 = .fin d) (hbig : 2 ^ 512 ≤ |d|) :
    nbPredict m.jll m.classes (.ofMat ((x :: xs) :: M)) = .error .overflowError ∧
    nbPredictProba m.jll (.ofMat ((x :: xs) :: M)) = .error .overflowError := by
  have hsq : Arith.sq (.fin d : XR FP.binary64) = .error .overflowError := by
    have h1 : (2 : ℝ) ^ (1024 : ℤ) ≤ d * d := by
      have : (2 : ℝ) ^ 512 * 2 ^ 512 ≤ |d| * |d| := mul_le_mul hbig hbig (by positivity) (abs_nonneg d)
      rw [abs_mul_abs_self, ← pow_add] at this
      exact_mod_cast this
    have h2 : (XR.round (d * d) : XR FP.binary64) = .pinf := by
      show XR.ofEReal (B64.rnd (d * d)) = _
      have h3 : B64.rnd ((2 : ℝ) ^ (1024 : ℤ)) = ⊤ := by
        have : B64.rndFin ((2 : ℝ) ^ (1024 : ℤ)) = 2 ^ (1024 : ℤ) := B64.rndFin_of_representable ⟨1, 1024, by norm_num, by norm_num, by norm_num⟩
        unfold B64.rnd
        rw [this, if_pos le_rfl]
      have h4 := FP.binary64_sound.mono h1
      have h5 : B64.rnd (d * d) = ⊤ := top_le_iff.1 (h3 ▸ h4)
      rw [h5]; rfl
    show XR.sq _ = _
    simp only [XR.sq, h2]
  obtain ⟨a, ha⟩ := (noTrap_binary64).log p0
  obtain ⟨lg, hlg⟩ := mapM_total (f := fun x => safeLog (ofInt 2 *ₚ Arith.pi *ₚ x)) fun x (_ : x ∈ sg) => (noTrap_binary64).log _
  have hterms : GaussianNB.terms (t0 :: t) sg (.list (x :: xs)) = .error .overflowError := by
    simp only [GaussianNB.terms, Row.len, py_ok_bind, List.length_cons, List.range_succ_eq_map, mapM_cons']
    have e1 : (Row.list (x :: xs)).getItem ((0 : Nat) : Int) = .ok x := pyGet_lt (l := x :: xs) (i := 0) (by simp)
    have e2 : pyGet (t0 :: t) ((0 : Nat) : Int) = .ok t0 := pyGet_lt (i := 0) (by simp)
    simp only [e1, e2, py_ok_bind, hd, hsq]
    rfl
  have hj : m.jll (.ofMat ((x :: xs) :: M)) = .error .overflowError := by
    have e1 : pyGet m.classPrior ((0 : Nat) : Int) = .ok p0 := by rw [hp]; exact pyGet_lt (i := 0) (by simp)
    have e2 : pyGet m.sigma ((0 : Nat) : Int) = .ok sg := by rw [hsg]; exact pyGet_lt (i := 0) (by simp)
    have e3 : pyGet m.theta ((0 : Nat) : Int) = .ok (t0 :: t) := by rw [ht]; exact pyGet_lt (i := 0) (by simp)
    simp only [GaussianNB.jll, hc, List.length_cons, List.range_succ_eq_map, mapM_cons', rows_ofMat, py_ok_bind, GaussianNB.column, e1, ha, e2, hlg,
      List.map_cons, e3, hterms]
    rfl
  have hchk : checkArray (.ofMat ((x :: xs) :: M)) .error = .ok (.ofMat ((x :: xs) :: M)) := checkArray_ofMat (by simp) _
  constructor
  · simp only [nbPredict, hchk, py_ok_bind, hj]; rfl
  · simp only [nbPredictProba, nbPredictLogProba, hchk, py_ok_bind, hj]; rfl

/-! ### Non-vacuity -/

/-- The hypotheses of the last theorem: one class of mean 0, the request `[[2.0 ** 600]]`. -/
example : nbPredict (⟨[.fin 1], [.int 0], [[.fin 1]], [[.fin 0]]⟩ : GaussianNB (XR FP.binary64) (PVal (XR FP.binary64))).jll ([.int 0] : List (PVal (XR FP.binary64)))
    (.ofMat [[.fin (2 ^ 600)]]) = .error .overflowError := by
  refine (C100_gaussian_raises (m := ⟨[.fin 1], [.int 0], [[.fin 1]], [[.fin 0]]⟩) (d := 2 ^ 600) rfl rfl rfl rfl ?_ ?_).1
  · show XR.round ((2 : ℝ) ^ 600 - 0) = _
    rw [sub_zero]
    have hr : B64.rndFin ((2 : ℝ) ^ 600) = 2 ^ 600 := B64.rndFin_of_representable ⟨1, 600, by norm_num, by norm_num, by norm_num⟩
    show XR.ofEReal (B64.rnd _) = _
    rw [B64.rnd_of_fin] <;> rw [hr]
    · rfl
    · rw [abs_of_pos (by positivity), ← zpow_natCast]
      exact zpow_lt_zpow_right₀ (by norm_num) (by norm_num)
  · rw [abs_of_pos (by positivity)]
    exact pow_le_pow_right₀ (by norm_num) (by norm_num)

noncomputable def floatScaling : Attrs (XR FP.binary64) :=
  [("copy", .bool true), ("with_mean", .bool true), ("with_std", .bool true),
   ("scale_", .ndarray (vnums [.fin 2, .fin 2])), ("mean_", .ndarray (vnums [.fin 1, .fin 1]))]

noncomputable def floatLogistic : Attrs (XR FP.binary64) :=
  [("C", .float (.fin 1)), ("coef_", .ndarray (vmat [[.fin 1, .fin (-1)]])), ("intercept_", .ndarray (vnums [.fin 0])),
   ("classes_", .ndarray (.list [.str "no", .str "yes"])), ("multi_class", .str "auto"), ("solver", .str "lbfgs")]

noncomputable def floatPipe : SkObj (Attrs (XR FP.binary64)) (PVal (XR FP.binary64)) (XR FP.binary64) :=
  .pipeline (some "0.22".toList) [("scale", .leaf "StandardScaler" (some "0.22".toList) floatScaling),
    ("clf", .leaf "LogisticRegression" (some "0.22".toList) floatLogistic)]

theorem floatScaling_learned : Learned "StandardScaler" floatScaling
    (.standard ⟨true, true, some [.fin 2, .fin 2], some [.fin 1, .fin 1]⟩) :=
  .standard rfl rfl rfl rfl

theorem floatLogistic_learned : Learned "LogisticRegression" floatLogistic (.linear .logistic
    (Linear.ofFitted [[.fin 1, .fin (-1)]] [.str "no", .str "yes"] (some (.vector [.fin 0])) (some "auto") (some "lbfgs") none)) := by
  refine .linear (by simp [linearClasses]) rfl ⟨rfl, ?_⟩ rfl rfl rfl rfl
  intro c hc
  simp only [List.mem_cons, List.not_mem_nil, or_false] at hc
  rcases hc with rfl | rfl <;> exact .str _

theorem floatLogistic_robust (l : Layout) : Robust (.leaf "LogisticRegression" (some "0.22".toList) floatLogistic) (.matrix l 2)
    (.labels [.str "no", .str "yes"] (some 2)) :=
  .final floatLogistic_learned (.logistic (k := 1) ⟨Nat.one_pos, rfl, by simp [Linear.ofFitted], ⟨_, rfl, rfl⟩, rfl⟩ rfl rfl (.inl rfl))

theorem floatScaling_robust : Robust (.leaf "StandardScaler" (some "0.22".toList) floatScaling) (.matrix .dense 2) (.form (.matrix .dense 2)) :=
  .step floatScaling_learned (.standard (fun _ => ⟨rfl, _, rfl, rfl⟩) (fun _ => ⟨_, rfl, rfl, by simp⟩) fun h => absurd h (by simp))

theorem floatPipe_robust : Robust floatPipe (.matrix .dense 2) (.labels [.str "no", .str "yes"] (some 2)) :=
  .firstStep floatScaling_robust (.lastStep (floatLogistic_robust .dense))

/-- The scaled model answers a record of NaN and infinity. -/
example (trunc : XR FP.binary64 → Py Int) : ∃ c p, convert (singles trunc initXgb) floatPipe = .ok c ∧ (c.methods lib encode).predict = some p ∧
    ∃ l, p (.arr (.ofMat [[.nan, .pinf]])) = .ok [l] ∧ (l = .str "no" ∨ l = .str "yes") := by
  obtain ⟨c, p, q, hc, hp, -, h, -⟩ := C100_classifiers (lib := lib) (encode := encode) trunc floatPipe_robust
    (.pipeline (steps := [(_, _), (_, _)]) (es := [_, _]) version_022 (.cons (.single version_022 floatScaling_learned)
      (.cons (.single version_022 floatLogistic_learned) .nil)))
  obtain ⟨⟨ls, e1, e2, e3⟩, -⟩ := h rfl [[.nan, .pinf]] (by simp) (by simp)
  obtain ⟨l, rfl⟩ := List.length_eq_one_iff.1 e2
  exact ⟨c, p, hc, hp, l, e1, by simpa using e3 l (by simp)⟩

/-- A union of two scalers, one weighted by NaN, and the two-class model twice under bagging. -/
example : Robust (.union (some "0.22".toList) [("a", .leaf "StandardScaler" (some "0.22".toList) floatScaling),
      ("b", .leaf "StandardScaler" (some "0.22".toList) floatScaling)] (some [("b", .nan)])) (.matrix .dense 2) (.form (.matrix .dense 4)) ∧
    Robust (.ensemble .bagging (some "0.22".toList) none [.str "no", .str "yes"] [floatPipe, floatPipe]) (.matrix .dense 2)
      (.labels [.str "no", .str "yes"] (some 2)) := by
  constructor
  · refine .union (steps := [("a", _, .dense, 2), ("b", _, .dense, 2)]) (by simp) (fun s hm => ?_) fun s hm => ?_
    · simp only [List.mem_cons, List.not_mem_nil, or_false] at hm
      rcases hm with rfl | rfl <;> exact ⟨by norm_num, .inr rfl⟩
    · simp only [List.mem_cons, List.not_mem_nil, or_false] at hm
      rcases hm with rfl | rfl <;> exact floatScaling_robust
  · refine .ensemble (ls := fun _ => [.str "no", .str "yes"]) (by simp) (by simp) fun m hm => ?_
    simp only [List.mem_cons, List.not_mem_nil, or_false, or_self] at hm
    subst hm
    exact floatPipe_robust

end PurePredict
