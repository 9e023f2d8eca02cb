import Verif.Lemmas.Agree
/-
C95: the predicted label has the largest probability.
-/
namespace PurePredict
open Spec
variable {fp : FP} {lib : String → TextLib} {encode : Str → List Nat}

theorem lt_false_of_toE {p q : XR fp} (h : XR.toE q ≤ XR.toE p) : (p <ₚ q) = false := by
  show XR.lt p q = false
  cases p <;> cases q <;> simp_all [XR.lt, XR.toE]

theorem lt_true_of_toE {p q : XR fp} (hp : p ≠ XR.nan) (hq : q ≠ XR.nan) (h : XR.toE p < XR.toE q) : (p <ₚ q) = true := by
  show XR.lt p q = true
  cases p <;> cases q <;> simp_all [XR.lt, XR.toE]

theorem mostLikely_of_best {cs : List (PVal (XR fp))} {row : List (XR fp)} {l : PVal (XR fp)}
    (h : BestLabel XR.Peak cs row l) : MostLikely cs row l := by
  obtain ⟨i, ⟨p, hp, hm⟩, hl⟩ := h
  exact ⟨i, p, hl, hp, fun q hq => lt_false_of_toE (hm q hq)⟩

theorem firstLargest_of_best {cs : List (PVal Ex)} {row : List Ex} (hn : XR.nan ∉ row) {l : PVal Ex}
    (h : BestLabel XR.First cs row l) : FirstLargest cs row l := by
  obtain ⟨i, ⟨p, hp, hm, hf⟩, hl⟩ := h
  refine ⟨i, p, hl, hp, fun q hq => lt_false_of_toE (hm q hq), fun j hj q hq => lt_true_of_toE ?_ ?_ (hf j hj q hq)⟩
  · exact fun e => hn (e ▸ List.mem_of_getElem? hq)
  · exact fun e => hn (e ▸ List.mem_of_getElem? hp)

/-- **C95**: in every sound floating point arithmetic with a monotone `exp`, whenever the converted classifier
answers a request with labels and with probabilities none of which is NaN, each label stands in `classes_` at a
position whose probability no other exceeds.  At any nesting; nothing is asked of the request. -/
theorem C95_predict_agrees (hs : fp.Sound) (hm : fp.MonoExp) (trunc : XR fp → Py Int) {o : SkObj (Attrs (XR fp)) (PVal (XR fp)) (XR fp)} {f : Methods (XR fp)}
    (h : Behaves lib encode o f) {cs : List (PVal (XR fp))} (hl : AnswersWith o cs) (ht : HoldsCounts o) :
    ∃ r, convert (singles trunc initXgb) o = .ok r ∧ ∀ p pp X ls P, (r.methods lib encode).predict = some p →
      (r.methods lib encode).predictProba = some pp → p X = .ok ls → pp X = .ok P → (∀ row ∈ P, XR.nan ∉ row) →
      List.Forall₂ (MostLikely cs) P ls := by
  obtain ⟨r, hr, hmeth⟩ := C89_converted_behaves trunc lib encode o f h
  refine ⟨r, hr, fun p pp X ls P hp hpp hls hP => ?_⟩
  rw [hmeth] at hp hpp
  exact fun hn => (behaves_agree (tracks_peak hs hm) h hl ht hp hpp hls hP hn).imp fun _ _ => mostLikely_of_best

/-- **C95** in double precision with correctly rounded functions. -/
theorem C95_binary64 (trunc : XR FP.binary64 → Py Int)
    {o : SkObj (Attrs (XR FP.binary64)) (PVal (XR FP.binary64)) (XR FP.binary64)} {f : Methods (XR FP.binary64)}
    (h : Behaves lib encode o f) {cs : List (PVal (XR FP.binary64))} (hl : AnswersWith o cs) (ht : HoldsCounts o) :
    ∃ r, convert (singles trunc initXgb) o = .ok r ∧ ∀ p pp X ls P, (r.methods lib encode).predict = some p →
      (r.methods lib encode).predictProba = some pp → p X = .ok ls → pp X = .ok P → (∀ row ∈ P, XR.nan ∉ row) →
      List.Forall₂ (MostLikely cs) P ls :=
  C95_predict_agrees FP.binary64_sound FP.binary64_monoExp trunc h hl ht

/-- **C95** in exact arithmetic: the label is that of the *first* largest probability, which is
`classes_[argmax(predict_proba)]`. -/
theorem C95_exact_first (trunc : Ex → Py Int) {o : SkObj (Attrs Ex) (PVal Ex) Ex}
    {f : Methods Ex} (h : Behaves lib encode o f) {cs : List (PVal Ex)} (hl : AnswersWith o cs) (ht : HoldsCounts o) :
    ∃ r, convert (singles trunc initXgb) o = .ok r ∧ ∀ p pp X ls P, (r.methods lib encode).predict = some p →
      (r.methods lib encode).predictProba = some pp → p X = .ok ls → pp X = .ok P → (∀ row ∈ P, XR.nan ∉ row) →
      List.Forall₂ (FirstLargest cs) P ls := by
  obtain ⟨r, hr, hmeth⟩ := C89_converted_behaves trunc lib encode o f h
  refine ⟨r, hr, fun p pp X ls P hp hpp hls hP hn => ?_⟩
  rw [hmeth] at hp hpp
  exact forall₂_imp_mem (behaves_agree tracks_first h hl ht hp hpp hls hP hn) fun row hrow _ =>
    firstLargest_of_best (hn row hrow)

theorem learned_tree {F : Type} [Arith F] {c : String} {e : Attrs F} {s : Single F} (h : Learned c e s)
    {t : Tree F (PVal F)} (hs : s = .treeClassifier t) : c = "DecisionTreeClassifier" ∨ c = "ExtraTreeClassifier" := by
  cases h with
  | treeClassifier h => exact h
  | _ => cases hs

/-! ### In double precision the first largest probability may belong to another label -/

/-- A one-vs-rest logistic regression of three classes with scores 1000, 2000 and -1000. -/
noncomputable def demoSaturated : Attrs (XR FP.binary64) :=
  [("coef_", .ndarray (vmat [[.fin 0], [.fin 0], [.fin 0]])),
   ("intercept_", .ndarray (vnums [.fin 1000, .fin 2000, .fin (-1000)])),
   ("classes_", .ndarray (.list [.int 0, .int 1, .int 2])), ("multi_class", .str "ovr"), ("solver", .str "lbfgs")]

noncomputable def demoSaturatedModel : Linear (XR FP.binary64) (PVal (XR FP.binary64)) :=
  Linear.ofFitted [[.fin 0], [.fin 0], [.fin 0]] [.int 0, .int 1, .int 2]
    (some (.vector [.fin 1000, .fin 2000, .fin (-1000)])) (some "ovr") (some "lbfgs") none

theorem demoSaturated_labels : HasLabels demoSaturated [.int 0, .int 1, .int 2] := by
  refine ⟨rfl, fun c hc => ?_⟩
  simp only [List.mem_cons, List.not_mem_nil, or_false] at hc
  rcases hc with rfl | rfl | rfl <;> exact .int _

theorem demoSaturated_learned : Learned "LogisticRegression" demoSaturated (.linear .logistic demoSaturatedModel) :=
  .linear (k := .logistic) (by simp [linearClasses]) (show HasMat demoSaturated "coef_" [[.fin 0], [.fin 0], [.fin 0]] from rfl)
    demoSaturated_labels rfl rfl rfl rfl

private theorem b64 (r : ℝ) (n : ℤ) (hr : r = n) (h : |n| < 2 ^ 53) : (XR.round r : XR FP.binary64) = .fin r :=
  FP.binary64_round n hr h

theorem demoSaturated_scores : demoSaturatedModel.decisionFunction (.ofMat [[.fin 0]]) =
    .ok (.mat [[.fin 1000, .fin 2000, .fin (-1000)]]) := by
  have h0 : (ofInt 0 : XR FP.binary64) = .fin 0 := XR.ofInt_zero FP.binary64_sound
  have hd : pySum [(.fin 0 : XR FP.binary64) *ₚ .fin 0] = .fin 0 := by
    have hm : (.fin 0 : XR FP.binary64) *ₚ .fin 0 = .fin 0 := by
      show XR.round (0 * 0) = _
      rw [b64 _ 0 (by norm_num) (by norm_num), mul_zero]
    rw [hm]
    show ofInt 0 +ₚ (.fin 0 : XR FP.binary64) = _
    rw [h0]
    show XR.round (0 + 0) = _
    rw [b64 _ 0 (by norm_num) (by norm_num), add_zero]
  have ha : ∀ n : ℤ, |n| < 2 ^ 53 → (.fin 0 : XR FP.binary64) +ₚ .fin n = .fin n := by
    intro n hn
    show XR.round (0 + (n : ℝ)) = _
    rw [zero_add, FP.binary64_round_int n hn]
  have hrow : demoSaturatedModel.rowScores (.list [.fin 0]) = .ok [.fin 1000, .fin 2000, .fin (-1000)] := by
    show Except.ok [pySum [(.fin 0 : XR FP.binary64) *ₚ .fin 0] +ₚ .fin 1000,
      pySum [(.fin 0 : XR FP.binary64) *ₚ .fin 0] +ₚ .fin 2000,
      pySum [(.fin 0 : XR FP.binary64) *ₚ .fin 0] +ₚ .fin (-1000)] = _
    rw [hd]
    have h1 := ha 1000 (by norm_num)
    have h2 := ha 2000 (by norm_num)
    have h3 := ha (-1000) (by norm_num)
    push_cast at h1 h2 h3
    rw [h1, h2, h3]
  unfold Linear.decisionFunction
  show (do
    let scores ← [Row.list [(.fin 0 : XR FP.binary64)]].mapM demoSaturatedModel.rowScores
    match ← (Arr.ofMat scores).width with
    | some 1 => return .flat (← ravel (Arr.ofMat scores))
    | _ => return .mat scores : Py (Scores (XR FP.binary64))) = _
  rw [mapM_cons', hrow]
  rfl

theorem demoSaturated_proba : demoSaturatedModel.predictProba (.ofMat [[.fin 0]]) =
    .ok [[.fin (1 / 2), .fin (1 / 2), .fin 0]] := by
  have hs := FP.binary64_sound
  have h1 : (ofInt 1 : XR FP.binary64) = .fin 1 := XR.ofInt_one hs
  have up : ∀ r : ℝ, 1000 ≤ r → expit (.fin r : XR FP.binary64) = .ok (.fin 1) := by
    intro r hr
    have h0 : safeExp (Arith.neg (.fin r : XR FP.binary64)) = .ok (.fin 0) := by
      show safeExp (XR.fin (-r)) = _
      rw [XR.safeExp_fin, FP.binary64_exp_underflow (by linarith)]
    simp only [expit, h0, py_ok_bind, h1]
    have h2 : (.fin 1 : XR FP.binary64) +ₚ .fin 0 = .fin 1 := by
      show XR.round (1 + 0) = _
      rw [b64 _ 1 (by norm_num) (by norm_num), add_zero]
    rw [h2, XR.div_fin, if_neg one_ne_zero, b64 _ 1 (by norm_num) (by norm_num), div_one]
  have down : expit (.fin (-1000) : XR FP.binary64) = .ok (.fin 0) := by
    have h0 : safeExp (Arith.neg (.fin (-1000) : XR FP.binary64)) = .ok .pinf := by
      show safeExp (XR.fin (- -1000)) = _
      rw [XR.safeExp_fin, FP.binary64_exp_overflow (by norm_num)]
    simp only [expit, h0, py_ok_bind, h1]
    rfl
  have hsum : pySum [(.fin 1 : XR FP.binary64), .fin 1, .fin 0] = .fin 2 := by
    show ((ofInt 0 +ₚ (.fin 1 : XR FP.binary64)) +ₚ .fin 1) +ₚ .fin 0 = _
    rw [XR.ofInt_zero hs]
    have e1 : (.fin 0 : XR FP.binary64) +ₚ .fin 1 = .fin 1 := by
      show XR.round (0 + 1) = _
      rw [b64 _ 1 (by norm_num) (by norm_num), zero_add]
    have e2 : (.fin 1 : XR FP.binary64) +ₚ .fin 1 = .fin 2 := by
      show XR.round (1 + 1) = _
      rw [b64 _ 2 (by norm_num) (by norm_num)]; norm_num
    have e3 : (.fin 2 : XR FP.binary64) +ₚ .fin 0 = .fin 2 := by
      show XR.round (2 + 0) = _
      rw [b64 _ 2 (by norm_num) (by norm_num), add_zero]
    rw [e1, e2, e3]
  have hnorm : Linear.normRow [(.fin 1 : XR FP.binary64), .fin 1, .fin 0] = .ok [.fin (1 / 2), .fin (1 / 2), .fin 0] := by
    unfold Linear.normRow
    rw [hsum]
    have hz : ((.fin 2 : XR FP.binary64) ==ₚ ofInt 0) = false := by
      rw [XR.ofInt_zero hs]
      show XR.eq (.fin 2) (.fin 0) = false
      simp [XR.eq]
    have d1 : (.fin 1 : XR FP.binary64) /ₚ .fin 2 = .ok (.fin (1 / 2)) := by
      rw [XR.div_fin, if_neg two_ne_zero, XR.round_rep FP.binary64_monoExp.half]
    have d0 : (.fin 0 : XR FP.binary64) /ₚ .fin 2 = .ok (.fin 0) := by
      rw [XR.div_fin, if_neg two_ne_zero, b64 _ 0 (by norm_num) (by norm_num), zero_div]
    simp only [hz, Bool.not_false, if_true, mapM_cons', d1, d0, py_ok_bind]
    rfl
  have hexp : [(.fin 1000 : XR FP.binary64), .fin 2000, .fin (-1000)].mapM expit = .ok [.fin 1, .fin 1, .fin 0] := by
    simp only [mapM_cons', up 1000 le_rfl, up 2000 (by norm_num), down, py_ok_bind]
    rfl
  show demoSaturatedModel.predictProbaLr (.ofMat [[.fin 0]]) = _
  unfold Linear.predictProbaLr
  rw [demoSaturated_scores, py_ok_bind]
  have h3 : [[(.fin 1000 : XR FP.binary64), .fin 2000, .fin (-1000)]].mapM (fun (a : List (XR FP.binary64)) => a.mapM expit) =
      .ok [[.fin 1, .fin 1, .fin 0]] := by
    rw [mapM_cons', hexp]; rfl
  show (do
    let prob ← [[(.fin 1000 : XR FP.binary64), .fin 2000, .fin (-1000)]].mapM (fun (a : List (XR FP.binary64)) => a.mapM expit)
    prob.mapM Linear.normRow : Py (List (List (XR FP.binary64)))) = _
  rw [h3, py_ok_bind, mapM_cons', hnorm]
  rfl

theorem demoSaturated_predict : demoSaturatedModel.predict (.ofMat [[.fin 0]]) = .ok [.int 1] := by
  unfold Linear.predict
  rw [demoSaturated_scores, py_ok_bind]
  have ha : argmax [(.fin 1000 : XR FP.binary64), .fin 2000, .fin (-1000)] = .ok 1 := by
    refine (argmax_iff XR.toE (XR.ordOn_toE (by simp))).2 ⟨by simp, fun j hj => ?_, fun j hj => ?_⟩
    · have key : ∀ r : ℝ, r ≤ 2000 → (r : EReal) ≤ ((2000 : ℝ) : EReal) := fun r hr => by exact_mod_cast hr
      have : j = 0 ∨ j = 1 ∨ j = 2 := by simp at hj; omega
      rcases this with rfl | rfl | rfl
      · exact key 1000 (by norm_num)
      · exact key 2000 le_rfl
      · exact key (-1000) (by norm_num)
    · have : j = 0 := by omega
      subst this
      have : ((1000 : ℝ) : EReal) < ((2000 : ℝ) : EReal) := by exact_mod_cast (by norm_num : (1000 : ℝ) < 2000)
      exact this
  simp only [mapM_cons', ha, py_ok_bind]
  rfl

/-- **C95**, the limit: in double precision a fitted one-vs-rest model may answer `predict` with the second label
although the first label has the same, also largest, probability: with scores 1000, 2000 and -1000 the probabilities
are 0.5, 0.5 and 0.  So `classes_[argmax(predict_proba)]` need not be the predicted label. -/
theorem C95_ties_refuted (lib : String → TextLib) (encode : Str → List Nat) :
    ∃ (o : SkObj (Attrs (XR FP.binary64)) (PVal (XR FP.binary64)) (XR FP.binary64)) (f : Methods (XR FP.binary64))
      (cs : List (PVal (XR FP.binary64))) (p : _) (pp : _) (X : Data (XR FP.binary64)) (ls : _) (P : _),
      Behaves lib encode o f ∧ AnswersWith o cs ∧ HoldsCounts o ∧ f.predict = some p ∧ f.predictProba = some pp ∧
      p X = .ok ls ∧ pp X = .ok P ∧ (∀ row ∈ P, XR.nan ∉ row) ∧ ¬ List.Forall₂ (FirstLargest cs) P ls := by
  refine ⟨.leaf "LogisticRegression" (some "0.22".toList) demoSaturated, _, [.int 0, .int 1, .int 2], _, _,
    .arr (.ofMat [[.fin 0]]), [.int 1], [[.fin (1 / 2), .fin (1 / 2), .fin 0]],
    .single ⟨_, rfl⟩ demoSaturated_learned,
    .leaf (by simp [predicting]) (by simp [regressing]) (by simp) demoSaturated_labels, .leaf ?_, rfl, rfl,
    demoSaturated_predict, demoSaturated_proba, by simp, ?_⟩
  · intro t ht
    exact absurd (learned_tree ht rfl) (by decide)
  · intro h
    cases h with
    | cons h _ =>
      obtain ⟨i, p, hi, hp, -, hf⟩ := h
      have : i = 1 := by
        match i, hi with
        | 0, hi => cases hi
        | 1, _ => rfl
        | 2, hi => cases hi
      subst this
      cases hp
      have := hf 0 one_pos _ rfl
      change XR.lt (.fin (1 / 2)) (.fin (1 / 2)) = true at this
      simp [XR.lt] at this

/-- The hypotheses of `C95_binary64` hold of that model. -/
example (trunc : XR FP.binary64 → Py Int)
    (lib : String → TextLib) (encode : Str → List Nat) :=
  C95_binary64 (lib := lib) (encode := encode) trunc
    (.single (v := some "0.22".toList) ⟨_, rfl⟩ demoSaturated_learned)
    (.leaf (by simp [predicting]) (by simp [regressing]) (by simp) demoSaturated_labels)
    (.leaf fun _ ht => absurd (learned_tree ht rfl) (by decide))

/-- A pipeline that scales and then decides by that model. -/
example (v : Option (List Char)) (s : Attrs (XR FP.binary64)) : HoldsCounts (.pipeline v
    [("scale", .leaf "StandardScaler" v s), ("clf", .leaf "LogisticRegression" v demoSaturated)]) ∧
    AnswersWith (.pipeline v [("scale", .leaf "StandardScaler" v s), ("clf", .leaf "LogisticRegression" v demoSaturated)])
      [.int 0, .int 1, .int 2] :=
  ⟨.pipeline rfl (.leaf fun _ ht => absurd (learned_tree ht rfl) (by decide)),
    .pipeline rfl (.leaf (by simp [predicting]) (by simp [regressing]) (by simp) demoSaturated_labels)⟩

end PurePredict
