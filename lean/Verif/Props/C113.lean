import Verif.Lemmas.GaugeObject
import Verif.Props.C08
import Verif.Props.C112
/-
C113: offsets and factors common to all classes cancel.
-/
namespace PurePredict
open Spec
variable {lib : String → TextLib} {encode : Str → List Nat}

/-- **C113** in exact arithmetic: a fitted object and the same object with an offset or factor common to all classes are both converted, have the same
methods, and on the requests in question both give the same answer, or both raise. -/
theorem C113_cancel_partial (trunc : Ex → Py Int) {P : Data Ex → Prop} {o o' : SkObj (Attrs Ex) (PVal Ex) Ex} (h : Cancelled lib encode P o o')
    {f : Methods Ex} (hb : Behaves lib encode o f) :
    ∃ c c', convert (singles trunc initXgb) o = .ok c ∧ convert (singles trunc initXgb) o' = .ok c' ∧
      AgreeFor P (c.methods lib encode) (c'.methods lib encode) := by
  obtain ⟨f', hb', hr⟩ := Gauge.behaves_cancelled h hb
  obtain ⟨c, hc, rfl⟩ := C89_converted_behaves trunc lib encode o f hb
  obtain ⟨c', hc', rfl⟩ := C89_converted_behaves trunc lib encode o' f' hb'
  exact ⟨c, c', hc, hc', hr⟩

theorem mem_of_lookup {κ α : Type} [DecidableEq κ] {d : Dict κ α} {i : κ} {v : α} (h : d.get? i = some v) : (i, v) ∈ (d : List (κ × α)) := by
  unfold Dict.get? at h
  induction d with
  | nil => cases h
  | cons p d ih =>
    obtain ⟨k, w⟩ := p
    rw [List.lookup_cons] at h
    split at h
    · rename_i e
      cases h
      obtain rfl : i = k := by simpa using e
      exact .head _
    · exact .tail _ (ih h)

/-- Requests of finite numbers still are when only some of the columns are read, so `Cancelled.inEnsemble` applies to them. -/
theorem C113_columns_finite {cols : List Int} {X Y : Arr Ex} (h : FiniteRequest (.arr X)) (hc : TakesColumns cols X Y) : FiniteRequest (.arr Y) := by
  obtain ⟨rs, rs', hr, rfl, hF⟩ := hc
  have hf := Gauge.finite_rows h hr
  intro x hx
  obtain ⟨r', hr', rfl⟩ := List.mem_map.1 hx
  obtain ⟨r, hrm, hrr⟩ := forall₂_mem_right hF hr'
  intro y hy
  obtain ⟨i, -, hi⟩ := forall₂_mem_right hrr hy
  have := hf r hrm
  cases r with
  | list l => exact this y (pyGet_ok_mem hi)
  | dict d =>
    have hi : Dict.getItem d i = .ok y := hi
    unfold Dict.getItem at hi
    cases hv : Dict.get? d i with
    | none => rw [hv] at hi; cases hi
    | some v =>
      rw [hv] at hi
      cases hi
      exact this (i, y) (mem_of_lookup hv)
  | scalar a => cases hi

/-! ### Cases -/

/-- a linear classifier with one column -/
def linearOf {F : Type} [Arith F] (W b : List F) (l : List (PVal F)) : Attrs F :=
  [("coef_", .ndarray (vmat (W.map fun x => [x]))), ("intercept_", .ndarray (vnums b)), ("classes_", .ndarray (.list l)),
   ("multi_class", .str "multinomial"), ("solver", .str "lbfgs")]

theorem linearOf_learned {F : Type} [Arith F] {c : String} {k : LinKind} (hk : (c, k) ∈ linearClasses) (W b : List F) {l : List (PVal F)} (hl : ∀ c ∈ l, Plain c) :
    Learned c (linearOf W b l) (.linear k (Linear.ofFitted (W.map fun x => [x]) l (some (.vector b)) (some "multinomial") (some "lbfgs") none)) :=
  .linear hk rfl ⟨rfl, hl⟩ rfl rfl rfl rfl

theorem ex_plus (a b : ℝ) : ((.fin a : Ex) +ₚ .fin b) = .fin (a + b) := by
  show (XR.round (a + b) : Ex) = _
  rw [XR.round_exact]

theorem ex_times (a b : ℝ) : ((.fin a : Ex) *ₚ .fin b) = .fin (a * b) := by
  show (XR.round (a * b) : Ex) = _
  rw [XR.round_exact]

/-- Logistic regression with three classes: 10 added to the coefficients of all classes, −7 to the intercepts. -/
theorem shiftedLogistic : Cancelled lib encode FiniteRequest
    (.leaf "LogisticRegression" (some "0.22".toList) (linearOf [.fin 1, .fin 2, .fin 3] [.fin 4, .fin 5, .fin 6] [.str "a", .str "b", .str "c"]))
    (.leaf "LogisticRegression" (some "0.22".toList) (linearOf [.fin 11, .fin 12, .fin 13] [.fin (-3), .fin (-2), .fin (-1)] [.str "a", .str "b", .str "c"])) := by
  refine .offset (linearOf_learned (k := .logistic) (by simp [linearClasses]) _ _ (strings_plain ["a", "b", "c"])) (linearOf_learned (k := .logistic) (by simp [linearClasses]) _ _ (strings_plain ["a", "b", "c"])) ?_
  have := Offset.linear (kind := .logistic) (v := [10]) (c := -7)
    (m := Linear.ofFitted (([.fin 1, .fin 2, .fin 3] : List Ex).map fun x => [x]) [.str "a", .str "b", .str "c"] (some (.vector [.fin 4, .fin 5, .fin 6])) (some "multinomial") (some "lbfgs") none)
    (b := [.fin 4, .fin 5, .fin 6]) (.inr ⟨rfl, .inl rfl⟩) (by simp [Linear.ofFitted]) rfl (by simp [Linear.ofFitted]) rfl
  simp only [plusVec, plusAll, Linear.ofFitted, List.map_cons, List.map_nil, List.zipWith_cons_cons, List.zipWith_nil_left, ex_plus] at this
  norm_num at this
  exact this

/-- The whole statement for it. -/
example (trunc : Ex → Py Int) :=
  C113_cancel_partial (lib := lib) (encode := encode) trunc shiftedLogistic (.single version_022 (linearOf_learned (k := .logistic) (by simp [linearClasses]) _ _ (strings_plain ["a", "b", "c"])))

/-- A ridge classifier with three times the coefficients and intercepts. -/
example : Cancelled lib encode (fun _ => True)
    (.leaf "RidgeClassifier" (some "0.22".toList) (linearOf [.fin 1, .fin 2, .fin 3] [.fin 4, .fin 5, .fin 6] [.str "a", .str "b", .str "c"]))
    (.leaf "RidgeClassifier" (some "0.22".toList) (linearOf [.fin 3, .fin 6, .fin 9] [.fin 12, .fin 15, .fin 18] [.str "a", .str "b", .str "c"])) := by
  refine .rescaled (linearOf_learned (k := .plain) (by simp [linearClasses]) _ _ (strings_plain ["a", "b", "c"])) (linearOf_learned (k := .plain) (by simp [linearClasses]) _ _ (strings_plain ["a", "b", "c"])) ?_
  have := Rescaled.linear (kind := .plain) (k := 3)
    (m := Linear.ofFitted (([.fin 1, .fin 2, .fin 3] : List Ex).map fun x => [x]) [.str "a", .str "b", .str "c"] (some (.vector [.fin 4, .fin 5, .fin 6])) (some "multinomial") (some "lbfgs") none)
    (b := [.fin 4, .fin 5, .fin 6]) (.inl rfl) (by norm_num) rfl
  simp only [timesAll, Linear.ofFitted, List.map_cons, List.map_nil, ex_times] at this
  norm_num at this
  exact this

/-- A tree that counts 3 and 5 records of the classes, and one with the shares 3/8 and 5/8; both after a scaler, in a forest. -/
example (s : Attrs Ex) : let v := some "0.22".toList
    let o := fun x y : ℝ => SkObj.ensemble .bagging v (some [[0]]) [.str "a", .str "b"] [.pipeline v ([("scale", .leaf "StandardScaler" v s)] ++
      [("tree", .leaf "DecisionTreeClassifier" v (leafTree [.fin x, .fin y] [.str "a", .str "b"]))])]
    Cancelled lib encode (fun _ => True) (o 3 5) (o (3 / 8) (5 / 8)) := by
  intro v o
  refine .inEnsemble (fun _ _ _ _ _ => trivial) rfl fun p hp => ?_
  simp only [List.zip_cons_cons, List.zip_nil_right, List.mem_cons, List.not_mem_nil, or_false] at hp
  subst hp
  refine .fewer (.inPipeline (P := fun _ => True) (.rescaled (leafTree_learned _ (by simp) (strings_plain ["a", "b"])) (leafTree_learned _ (by simp) (strings_plain ["a", "b"])) ?_)) fun _ _ _ _ => trivial
  have := Rescaled.tree (t := leafModel [.fin 3, .fin 5] [.str "a", .str "b"]) (value' := [timesAll (1 / 8) [.fin 3, .fin 5]]) (.cons ⟨1 / 8, by norm_num, rfl⟩ .nil)
  simp only [timesAll, List.map_cons, List.map_nil, ex_times] at this
  norm_num at this
  exact this

/-- Boosting with three classes: 5 added to the answers of the trees in the first stage. -/
example (init : SkObj (Attrs Ex) (PVal Ex) Ex) :
    let r : ℝ → SkObj (Attrs Ex) (PVal Ex) Ex := fun z => .leaf "DecisionTreeRegressor" (some "0.22".toList) (regTree (.fin z))
    Cancelled lib encode (fun _ => True)
      (.boosting (some "0.22".toList) [.int 0, .int 1, .int 2] [[r 1, r 2, r 3], [r 4, r 5, r 6]] init "deviance" [.float (.fin (1 / 10)), .int 1])
      (.boosting (some "0.22".toList) [.int 0, .int 1, .int 2] [[r 6, r 7, r 8], [r 4, r 5, r 6]] init "deviance" [.float (.fin (1 / 10)), .int 1]) := by
  intro r
  have up : ∀ c x y : ℝ, y = x + c → Raised c (r x) (r y) := by
    intro c x y h
    refine .mk (regTree_learned _) ?_
    have : (leafModel [(.fin y : Ex)] [.int 0, .int 1]) = raisedTree c (leafModel [.fin x] [.int 0, .int 1]) := by
      unfold raisedTree leafModel plusAll
      simp only [List.map_cons, List.map_nil, ex_plus, h]
    rw [← this]
    exact regTree_learned _
  refine .stages (by simp) (.cons ⟨5, .cons (up _ _ _ (by norm_num)) (.cons (up _ _ _ (by norm_num)) (.cons (up _ _ _ (by norm_num)) .nil))⟩
    (.cons ⟨0, .cons (up _ _ _ (by norm_num)) (.cons (up _ _ _ (by norm_num)) (.cons (up _ _ _ (by norm_num)) .nil))⟩ .nil))

/-- The restriction to finite records is needed for offsets of the coefficients, even without rounding: at +∞ the coefficients 1, 2, 3 all give +∞, so the
first class is the answer; 2 less gives −∞, NaN and +∞, and the last class is the answer. -/
theorem C113_infinite_record (trunc : Ex → Py Int) :
    let o := fun d : ℝ => SkObj.leaf "RidgeClassifier" (some "0.22".toList)
      (linearOf [(.fin (1 - d) : Ex), .fin (2 - d), .fin (3 - d)] [.fin 0, .fin 0, .fin 0] [.str "a", .str "b", .str "c"])
    ∃ c c' q q', convert (singles trunc initXgb) (o 0) = .ok c ∧ convert (singles trunc initXgb) (o 2) = .ok c' ∧
      (c.methods lib encode).predict = some q ∧ (c'.methods lib encode).predict = some q' ∧
      q (.arr (.ofMat [[.pinf]])) = .ok [.str "a"] ∧ q' (.arr (.ofMat [[.pinf]])) = .ok [.str "c"] := by
  intro o
  have hl := fun d : ℝ => linearOf_learned (k := .plain) (c := "RidgeClassifier") (by simp [linearClasses]) [(.fin (1 - d) : Ex), .fin (2 - d), .fin (3 - d)]
    [.fin 0, .fin 0, .fin 0] (strings_plain ["a", "b", "c"])
  obtain ⟨c, hc, e⟩ := C89_converted_behaves trunc lib encode _ _ (.single version_022 (hl 0))
  obtain ⟨c', hc', e'⟩ := C89_converted_behaves trunc lib encode _ _ (.single version_022 (hl 2))
  have sc : ∀ d : ℝ, (Linear.ofFitted (([.fin (1 - d), .fin (2 - d), .fin (3 - d)] : List Ex).map fun x => [x]) (["a", "b", "c"].map PVal.str : List (PVal Ex)) (some (.vector [.fin 0, .fin 0, .fin 0]))
      (some "multinomial") (some "lbfgs") none).decisionFunction (.ofMat [[.pinf]]) =
      .ok (.mat [[(ofInt 0 +ₚ ((.pinf : Ex) *ₚ .fin (1 - d))) +ₚ .fin 0, (ofInt 0 +ₚ ((.pinf : Ex) *ₚ .fin (2 - d))) +ₚ .fin 0, (ofInt 0 +ₚ ((.pinf : Ex) *ₚ .fin (3 - d))) +ₚ .fin 0]]) :=
    fun d => rfl
  have pos : ∀ r : ℝ, 0 < r → (ofInt 0 +ₚ ((.pinf : Ex) *ₚ .fin r)) +ₚ .fin 0 = .pinf := by
    intro r hr
    have : (.pinf : Ex) *ₚ .fin r = .pinf := by
      show XR.mul _ _ = _
      simp [XR.mul, XR.infMul, hr, hr.ne', hr.not_gt]
    rw [this, XR.ofInt_zero FP.exact_sound]
    rfl
  have neg : ∀ r : ℝ, r < 0 → (ofInt 0 +ₚ ((.pinf : Ex) *ₚ .fin r)) +ₚ .fin 0 = .ninf := by
    intro r hr
    have : (.pinf : Ex) *ₚ .fin r = .ninf := by
      show XR.mul _ _ = _
      simp [XR.mul, XR.infMul, hr, hr.ne, hr.not_gt]
    rw [this, XR.ofInt_zero FP.exact_sound]
    rfl
  have zero : (ofInt 0 +ₚ ((.pinf : Ex) *ₚ .fin 0)) +ₚ .fin 0 = .nan := by
    have : (.pinf : Ex) *ₚ .fin 0 = .nan := by
      show XR.mul _ _ = _
      simp [XR.mul, XR.infMul]
    rw [this, XR.ofInt_zero FP.exact_sound]
    rfl
  refine ⟨c, c', _, _, hc, hc', by rw [e]; rfl, by rw [e']; rfl, ?_, ?_⟩
  · show Linear.predict _ _ = _
    unfold Linear.predict
    rw [sc, pos _ (by norm_num), pos _ (by norm_num), pos _ (by norm_num)]
    rfl
  · show Linear.predict _ _ = _
    unfold Linear.predict
    rw [sc, neg _ (by norm_num), sub_self, zero, pos _ (by norm_num)]
    rfl

/-! ### Double precision -/

/-- the scores of a record `[0]` when all coefficients are zero: the intercepts -/
theorem zero_scores (k : String) (b1 b2 b3 b4 : ℝ) (l : List (PVal (XR FP.binary64)))
    (h1 : (XR.round b1 : XR FP.binary64) = .fin b1) (h2 : (XR.round b2 : XR FP.binary64) = .fin b2)
    (h3 : (XR.round b3 : XR FP.binary64) = .fin b3) (h4 : (XR.round b4 : XR FP.binary64) = .fin b4) :
    (Linear.ofFitted (([.fin 0, .fin 0, .fin 0, .fin 0] : List (XR FP.binary64)).map fun x => [x]) l (some (.vector [.fin b1, .fin b2, .fin b3, .fin b4]))
      (some "multinomial") (some k) none).decisionFunction (.ofMat [[.fin 0]]) = .ok (.mat [[.fin b1, .fin b2, .fin b3, .fin b4]]) := by
  have z : (XR.round 0 : XR FP.binary64) = .fin 0 := FP.binary64_round 0 (by norm_num) (by norm_num)
  have m : (.fin 0 : XR FP.binary64) *ₚ .fin 0 = .fin 0 := by
    show XR.round (0 * 0) = _
    rw [mul_zero, z]
  have d : dotList [(.fin 0 : XR FP.binary64)] [.fin 0] = .fin 0 := by
    show ofInt 0 +ₚ ((.fin 0 : XR FP.binary64) *ₚ .fin 0) = _
    rw [m, XR.ofInt_zero FP.binary64_sound]
    show XR.round (0 + 0) = _
    rw [add_zero, z]
  have a : ∀ b : ℝ, (XR.round b : XR FP.binary64) = .fin b → (.fin 0 : XR FP.binary64) +ₚ .fin b = .fin b := by
    intro b h
    show XR.round (0 + b) = _
    rw [zero_add, h]
  have : (Linear.ofFitted (([.fin 0, .fin 0, .fin 0, .fin 0] : List (XR FP.binary64)).map fun x => [x]) l (some (.vector [.fin b1, .fin b2, .fin b3, .fin b4]))
      (some "multinomial") (some k) none).decisionFunction (.ofMat [[.fin 0]]) =
      .ok (.mat [[dotList [.fin 0] [.fin 0] +ₚ .fin b1, dotList [.fin 0] [.fin 0] +ₚ .fin b2, dotList [.fin 0] [.fin 0] +ₚ .fin b3, dotList [.fin 0] [.fin 0] +ₚ .fin b4]]) := rfl
  rw [this, d, a b1 h1, a b2 h2, a b3 h3, a b4 h4]

/-- **C113 is false of the code in double precision**, for probabilities: four classes with equal intercepts get the probability 1/4 each; with all intercepts
1000 smaller `predict_proba` raises ZeroDivisionError, because `sfmax` does not subtract the largest score. -/
theorem C113_false_softmax (trunc : XR FP.binary64 → Py Int) :
    let o := fun b : ℝ => SkObj.leaf "LogisticRegression" (some "0.22".toList)
      (linearOf [.fin 0, .fin 0, .fin 0, .fin 0] [.fin b, .fin b, .fin b, .fin b] [.str "a", .str "b", .str "c", .str "d"])
    ∃ c c' q q', convert (singles trunc initXgb) (o 0) = .ok c ∧ convert (singles trunc initXgb) (o (-1000)) = .ok c' ∧
      (c.methods lib encode).predictProba = some q ∧ (c'.methods lib encode).predictProba = some q' ∧
      q (.arr (.ofMat [[.fin 0]])) = .ok [[.fin (1 / 4), .fin (1 / 4), .fin (1 / 4), .fin (1 / 4)]] ∧
      q' (.arr (.ofMat [[.fin 0]])) = .error .zeroDivisionError := by
  intro o
  have hl := fun b : ℝ => linearOf_learned (k := .logistic) (c := "LogisticRegression") (by simp [linearClasses]) [.fin 0, .fin 0, .fin 0, .fin 0]
    [(.fin b : XR FP.binary64), .fin b, .fin b, .fin b] (strings_plain ["a", "b", "c", "d"])
  obtain ⟨c, hc, e⟩ := C89_converted_behaves trunc lib encode _ _ (.single version_022 (hl 0))
  obtain ⟨c', hc', e'⟩ := C89_converted_behaves trunc lib encode _ _ (.single version_022 (hl (-1000)))
  refine ⟨c, c', _, _, hc, hc', by rw [e]; rfl, by rw [e']; rfl, ?_, ?_⟩
  · have z : ∀ n : ℤ, |n| < 2 ^ 53 → (XR.round (n : ℝ) : XR FP.binary64) = .fin n := FP.binary64_round_int
    have hz := z 0 (by norm_num)
    push_cast at hz
    show Linear.predictProba _ _ = _
    unfold Linear.predictProba
    rw [zero_scores "lbfgs" 0 0 0 0 _ hz hz hz hz]
    show ([_].mapM sfmax : Py _) = _
    rw [mapM_cons']
    have h1 : safeExp (.fin 0 : XR FP.binary64) = .ok (.fin 1) := by rw [XR.safeExp_fin, FP.binary64_sound.exp_zero]
    have ad : ∀ n : ℤ, |n + 1| < 2 ^ 53 → ((.fin (n : ℝ) : XR FP.binary64) +ₚ .fin 1) = .fin ((n : ℝ) + 1) := by
      intro n hn
      show XR.round ((n : ℝ) + 1) = _
      have := z (n + 1) hn
      push_cast at this
      exact this
    have h2 : pySum [(.fin 1 : XR FP.binary64), .fin 1, .fin 1, .fin 1] = .fin 4 := by
      show (((ofInt 0 +ₚ (.fin 1 : XR FP.binary64)) +ₚ .fin 1) +ₚ .fin 1) +ₚ .fin 1 = _
      have a0 := ad 0 (by norm_num)
      have a1 := ad 1 (by norm_num)
      have a2 := ad 2 (by norm_num)
      have a3 := ad 3 (by norm_num)
      norm_num at a0 a1 a2 a3
      rw [XR.ofInt_zero FP.binary64_sound, a0, a1, a2, a3]
    have h3 : (.fin 1 : XR FP.binary64) /ₚ .fin 4 = .ok (.fin (1 / 4)) := by
      rw [XR.div_fin, if_neg (by norm_num)]
      rw [round_small (B64.rndFin_of_representable ⟨1, -2, by norm_num, by norm_num, by norm_num⟩) (by norm_num)]
    have h4 : sfmax [(.fin 0 : XR FP.binary64), .fin 0, .fin 0, .fin 0] = .ok [.fin (1 / 4), .fin (1 / 4), .fin (1 / 4), .fin (1 / 4)] := by
      unfold sfmax
      simp only [mapM_cons', h1, py_ok_bind, List.mapM_nil, py_pure, h2, h3]
    rw [h4]
    rfl
  · have hz := FP.binary64_round_int (-1000) (by norm_num)
    push_cast at hz
    show Linear.predictProba _ _ = _
    unfold Linear.predictProba
    rw [zero_scores "lbfgs" _ _ _ _ _ hz hz hz hz]
    show ([_].mapM sfmax : Py _) = _
    have hu : sfmax [(.fin (-1000) : XR FP.binary64), .fin (-1000), .fin (-1000), .fin (-1000)] = .error .zeroDivisionError :=
      C08_underflow_raises FP.binary64 FP.binary64_sound [-1000, -1000, -1000, -1000] (by simp) fun x hx => by
        simp at hx
        subst hx
        exact FP.binary64_exp_underflow (by norm_num)
    rw [mapM_cons', hu]
    rfl

/-- **C113 is false of the code in double precision**, for labels: of the intercepts 0, 1, 2, 3 the last is largest; with 2⁶⁰ added to all of them they are
rounded to the same number and the first class is the answer. -/
theorem C113_false_labels (trunc : XR FP.binary64 → Py Int) :
    let o := fun b : ℝ => SkObj.leaf "RidgeClassifier" (some "0.22".toList)
      (linearOf [.fin 0, .fin 0, .fin 0, .fin 0] (([0, 1, 2, 3] : List ℕ).map fun (n : ℕ) => (XR.round (b + n) : XR FP.binary64)) [.str "a", .str "b", .str "c", .str "d"])
    ∃ c c' q q', convert (singles trunc initXgb) (o 0) = .ok c ∧ convert (singles trunc initXgb) (o (2 ^ 60)) = .ok c' ∧
      (c.methods lib encode).predict = some q ∧ (c'.methods lib encode).predict = some q' ∧
      q (.arr (.ofMat [[.fin 0]])) = .ok [.str "d"] ∧ q' (.arr (.ofMat [[.fin 0]])) = .ok [.str "a"] := by
  intro o
  have hl := fun b : ℝ => linearOf_learned (k := .plain) (c := "RidgeClassifier") (by simp [linearClasses]) [.fin 0, .fin 0, .fin 0, .fin 0]
    (([0, 1, 2, 3] : List ℕ).map fun (n : ℕ) => (XR.round (b + n) : XR FP.binary64)) (strings_plain ["a", "b", "c", "d"])
  obtain ⟨c, hc, e⟩ := C89_converted_behaves trunc lib encode _ _ (.single version_022 (hl 0))
  obtain ⟨c', hc', e'⟩ := C89_converted_behaves trunc lib encode _ _ (.single version_022 (hl (2 ^ 60)))
  refine ⟨c, c', _, _, hc, hc', by rw [e]; rfl, by rw [e']; rfl, ?_, ?_⟩
  · have z : ∀ n : ℕ, n < 2 ^ 53 → (XR.round ((0 : ℝ) + n) : XR FP.binary64) = .fin n := fun n hn => by
      rw [zero_add]
      have := FP.binary64_round_int (n : ℤ) (by rw [abs_of_nonneg (by positivity)]; exact_mod_cast hn)
      simpa using this
    have z' : ∀ n : ℕ, n < 2 ^ 53 → (XR.round (n : ℝ) : XR FP.binary64) = .fin n := fun n hn => by rw [← z n hn, zero_add]
    show Linear.predict _ _ = _
    unfold Linear.predict
    have hI : (([0, 1, 2, 3] : List ℕ).map fun (n : ℕ) => (XR.round ((0 : ℝ) + n) : XR FP.binary64)) = [.fin ((0 : ℕ) : ℝ), .fin ((1 : ℕ) : ℝ), .fin ((2 : ℕ) : ℝ), .fin ((3 : ℕ) : ℝ)] := by
      rw [List.map_cons, List.map_cons, List.map_cons, List.map_cons, z 0 (by norm_num), z 1 (by norm_num), z 2 (by norm_num), z 3 (by norm_num), List.map_nil]
    rw [hI]
    rw [zero_scores "lbfgs" _ _ _ _ _ (z' 0 (by norm_num)) (z' 1 (by norm_num)) (z' 2 (by norm_num)) (z' 3 (by norm_num))]
    have lt : ∀ a b : ℕ, a < b → ((.fin (a : ℝ) : XR FP.binary64) <ₚ .fin b) = true := fun a b h => by
      show XR.lt _ _ = true
      simpa [XR.lt] using h
    have ne : ∀ a b : ℕ, a ≠ b → ((.fin (a : ℝ) : XR FP.binary64) ==ₚ .fin b) = false := fun a b h => by
      show XR.eq _ _ = false
      simpa [XR.eq] using h
    have : argmax [(.fin ((0 : ℕ) : ℝ) : XR FP.binary64), .fin ((1 : ℕ) : ℝ), .fin ((2 : ℕ) : ℝ), .fin ((3 : ℕ) : ℝ)] = .ok 3 := by
      unfold argmax pyMaxPos
      simp only [maxScan, lt 0 1 (by norm_num), lt 1 2 (by norm_num), lt 2 3 (by norm_num), if_true, py_ok_bind, List.take, List.findIdx?_cons, List.findIdx?_nil,
        ne 0 3 (by norm_num), ne 1 3 (by norm_num), ne 2 3 (by norm_num), Bool.false_eq_true, if_false, Option.map_none]
      rfl
    show ([_].mapM _ : Py _) = _
    rw [mapM_cons', this]
    rfl
  · have z := round_absorbs
    have z0 : (XR.round ((2 : ℝ) ^ 60) : XR FP.binary64) = .fin (2 ^ 60) := by simpa using z 0 (by norm_num)
    show Linear.predict _ _ = _
    unfold Linear.predict
    have hI : (([0, 1, 2, 3] : List ℕ).map fun (n : ℕ) => (XR.round ((2 : ℝ) ^ 60 + n) : XR FP.binary64)) = [.fin (2 ^ 60), .fin (2 ^ 60), .fin (2 ^ 60), .fin (2 ^ 60)] := by
      rw [List.map_cons, List.map_cons, List.map_cons, List.map_cons, z 0 (by norm_num), z 1 (by norm_num), z 2 (by norm_num), z 3 (by norm_num), List.map_nil]
    rw [hI]
    rw [zero_scores "lbfgs" _ _ _ _ _ z0 z0 z0 z0]
    have lt : ((.fin ((2 : ℝ) ^ 60) : XR FP.binary64) <ₚ .fin (2 ^ 60)) = false := by
      show XR.lt _ _ = false
      simp [XR.lt]
    have : argmax [(.fin ((2 : ℝ) ^ 60) : XR FP.binary64), .fin (2 ^ 60), .fin (2 ^ 60), .fin (2 ^ 60)] = .ok 0 := by
      unfold argmax pyMaxPos
      simp only [maxScan, lt, Bool.false_eq_true, if_false, py_ok_bind]
      rfl
    show ([_].mapM _ : Py _) = _
    rw [mapM_cons', this]
    rfl

end PurePredict
