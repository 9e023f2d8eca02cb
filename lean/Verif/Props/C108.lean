import Verif.Lemmas.RecodeObject
import Verif.Props.C104
import Verif.Props.C27
/-
C108: units do not matter: an object fitted in other units gives, to requests in those units, the answers of the original
one; for trees the same holds for every recoding of the columns that keeps the order.
-/
namespace PurePredict
open Spec
variable {fp : FP} {lib : String → TextLib} {encode : Str → List Nat}

section
variable (trunc : XR fp → Py Int)

/-- **C108**: a fitted object and the same object for recoded columns are both converted; the second does with recoded
requests what the first does with the original ones. -/
theorem C108_recoded {φs : List (Code fp)} {o o' : SkObj (Attrs (XR fp)) (PVal (XR fp)) (XR fp)} {k : Shared fp} (h : Recode φs o o' k)
    {f : Methods (XR fp)} (hb : Behaves lib encode o f) :
    ∃ c c', convert (singles trunc initXgb) o = .ok c ∧ convert (singles trunc initXgb) o' = .ok c' ∧
      Accord (c.methods lib encode) (c'.methods lib encode) φs k := by
  obtain ⟨f', hb', hr⟩ := behaves_recoded h hb
  obtain ⟨c, hc, rfl⟩ := C89_converted_behaves trunc lib encode o f hb
  obtain ⟨c', hc', rfl⟩ := C89_converted_behaves trunc lib encode o' f' hb'
  exact ⟨c, c', hc, hc', hr⟩

/-- **C108** spelled out: the labels, the probabilities and the exceptions are the same. -/
theorem C108_answers {φs : List (Code fp)} {o o' : SkObj (Attrs (XR fp)) (PVal (XR fp)) (XR fp)} (h : Recode φs o o' .answers)
    {f : Methods (XR fp)} (hb : Behaves lib encode o f) :
    ∃ c c', convert (singles trunc initXgb) o = .ok c ∧ convert (singles trunc initXgb) o' = .ok c' ∧
      (∀ p, (c.methods lib encode).predict = some p → ∃ p', (c'.methods lib encode).predict = some p' ∧
        ∀ M N, M ≠ [] → List.Forall₂ (Recoded φs) M N → p' (.arr (.ofMat N)) = p (.arr (.ofMat M))) ∧
      ∀ q, (c.methods lib encode).predictProba = some q → ∃ q', (c'.methods lib encode).predictProba = some q' ∧
        ∀ M N, M ≠ [] → List.Forall₂ (Recoded φs) M N → q' (.arr (.ofMat N)) = q (.arr (.ofMat M)) := by
  obtain ⟨c, c', h1, h2, h3, h4, -⟩ := C108_recoded (lib := lib) (encode := encode) trunc h hb
  refine ⟨c, c', h1, h2, fun p hp => ?_, fun q hq => ?_⟩
  · obtain ⟨p', hp', hX⟩ := h3.1 p hp
    exact ⟨p', hp', fun M N hne hMN => (hX _ _ (.mk hne hMN)).symm⟩
  · obtain ⟨p', hp', hX⟩ := h4.1 q hq
    exact ⟨p', hp', fun M N hne hMN => (hX _ _ (.mk hne hMN)).symm⟩

/-! ### Trees -/

/-- **C108** for one threshold: a change of units that keeps the order, applied to the values and to the threshold. -/
theorem C108_threshold (c : Change) (hc : 0 < c.factor) (thr : ℝ) (x : Ex) : (c.on x ≤ₚ c.on (.fin thr)) = (x ≤ₚ .fin thr) :=
  exact_le hc x _

/-- a recoding of the finite values -/
def recoding (f : ℝ → ℝ) : Code fp
  | .fin x => .fin (f x)
  | x => x

/-- **C108** for one threshold and any increasing recoding (logarithms, ranks, …), in any arithmetic. -/
theorem C108_increasing {f : ℝ → ℝ} (hf : StrictMono f) (thr : ℝ) (x : XR fp) : (recoding f x ≤ₚ .fin (f thr)) = (x ≤ₚ .fin thr) := by
  cases x with
  | fin x =>
    show (XR.fin (f x) ≤ₚ _) = _
    simp only [XR.le_fin, hf.le_iff_le]
  | pinf => rfl
  | ninf => rfl
  | nan => rfl

theorem Spec.Regrown.first {φs : List (Code fp)} {s s' : SkTree (XR fp)} (h : Regrown φs s s') : Rethreshold φs s.first s'.first := by
  induction h with
  | leaf => exact .leaf
  | split h1 h2 _ _ ih1 ih2 => exact .node h1 h2 ih1 ih2

theorem Spec.Regrown.tree {φs : List (Code fp)} {s s' : SkTree (XR fp)} (h : Regrown φs s s') {c : String} {v : Option (List Char)} {e e' : Attrs (XR fp)}
    {labels : List (PVal (XR fp))} (hc : c = "DecisionTreeClassifier" ∨ c = "ExtraTreeClassifier") (he : HoldsTree e s) (he' : HoldsTree e' s')
    (hl : HasLabels e labels) (hl' : HasLabels e' labels) (hv : ∀ a ∈ s.values, a ≠ []) (hv' : ∀ a ∈ s'.values, a ≠ []) :
    Recode φs (.leaf c v e) (.leaf c v e') .answers := by
  obtain ⟨t, h1, h2, h3⟩ := Tree.ofSklearn_encodes s hv (some labels) [.int 0, .int 1]
  obtain ⟨t', h1', h2', h3'⟩ := Tree.ofSklearn_encodes s' hv' (some labels) [.int 0, .int 1]
  exact .fit (.treeClassifier (cs := some _) hc he hl h1) (.treeClassifier (cs := some _) hc he' hl' h1')
    (.treeClassifier ⟨h3'.trans h3.symm, _, _, h2, h2', h.first⟩)

/-- **C108** for forests of trees grown by scikit-learn, in any arithmetic: when every threshold separates the new codes as the
old one separated the values, labels and probabilities stay the same. -/
theorem C108_forest {kd : EnsKind} {v : Option (List Char)} {cs : List (PVal (XR fp))} {φs : List (Code fp)}
    {ms ms' : List (SkObj (Attrs (XR fp)) (PVal (XR fp)) (XR fp))} (hlen : ms.length = ms'.length)
    (hm : ∀ p ∈ ms.zip ms', ∃ (c : String) (v : Option (List Char)) (e e' : Attrs (XR fp)) (s s' : SkTree (XR fp)) (labels : List (PVal (XR fp))),
      p = (.leaf c v e, .leaf c v e') ∧ (c = "DecisionTreeClassifier" ∨ c = "ExtraTreeClassifier") ∧ HoldsTree e s ∧ HoldsTree e' s' ∧
      HasLabels e labels ∧ HasLabels e' labels ∧ (∀ a ∈ s.values, a ≠ []) ∧ (∀ a ∈ s'.values, a ≠ []) ∧ Regrown φs s s')
    {f : Methods (XR fp)} (hb : Behaves lib encode (.ensemble kd v none cs ms) f) :
    ∃ c c' p p' q q', convert (singles trunc initXgb) (.ensemble kd v none cs ms) = .ok c ∧
      convert (singles trunc initXgb) (.ensemble kd v none cs ms') = .ok c' ∧ (c.methods lib encode).predict = some p ∧
      (c'.methods lib encode).predict = some p' ∧ (c.methods lib encode).predictProba = some q ∧ (c'.methods lib encode).predictProba = some q' ∧
      ∀ M N, M ≠ [] → List.Forall₂ (Recoded φs) M N →
        p' (.arr (.ofMat N)) = p (.arr (.ofMat M)) ∧ q' (.arr (.ofMat N)) = q (.arr (.ofMat M)) := by
  have h : Recode φs (.ensemble kd v none cs ms) (.ensemble kd v none cs ms') .answers := by
    refine .ensemble hlen fun p hp => ?_
    obtain ⟨c, v, e, e', s, s', labels, rfl, hc, he, he', hl, hl', hv, hv', hr⟩ := hm p hp
    exact hr.tree hc he he' hl hl' hv hv'
  obtain ⟨c, c', h1, h2, h3, h4⟩ := C108_answers (lib := lib) (encode := encode) trunc h hb
  obtain ⟨c0, hc0, e⟩ := C89_converted_behaves trunc lib encode _ f hb
  rw [h1] at hc0
  cases hc0
  cases hb with
  | @ensemble _ _ _ _ _ es _ _ _ =>
    obtain ⟨p', hp', hX⟩ := h3 _ (by rw [e]; rfl)
    obtain ⟨q', hq', hY⟩ := h4 _ (by rw [e]; rfl)
    exact ⟨c, c', _, p', _, q', h1, h2, by rw [e]; rfl, hp', by rw [e]; rfl, hq', fun M N hne hMN => ⟨hX M N hne hMN, hY M N hne hMN⟩⟩

end

/-! ### Where units matter -/

/-- **C108 is false of the `max` norm**: a record without positive entries is divided by its greatest entry, and by 1 when that is
zero; the record (0, -1) is left as it is, and so is (0, -2). -/
theorem C108_false_max_norm (trunc : Ex → Py Int) : ∃ c t,
    convert (singles trunc initXgb) (.leaf "Normalizer" (some "0.22".toList) [("norm", .str "max"), ("copy", .bool true)]) = .ok c ∧
    (c.methods lib encode).transform = some t ∧
    t (.arr (.ofMat [[.fin 0, .fin (-1)]])) = .ok (.arr (.ofMat [[.fin 0, .fin (-1)]])) ∧
    t (.arr (.ofMat [[Change.on ⟨2, 0⟩ (.fin 0), Change.on ⟨2, 0⟩ (.fin (-1))]])) = .ok (.arr (.ofMat [[.fin 0, .fin (-2)]])) := by
  have hl : Learned (F := Ex) "Normalizer" [("norm", .str "max"), ("copy", .bool true)] (.normalizer .max) :=
    .normalizer ⟨_, rfl, .bool _⟩ rfl (by simp [norms])
  obtain ⟨c, hc, e⟩ := C89_converted_behaves trunc lib encode _ _ (.single version_022 hl)
  have run : ∀ r : ℝ, 0 < r → normalizerTransform .max (.ofMat [[.fin 0, .fin (-r)]] : Arr Ex) = .ok (.ofMat [[.fin 0, .fin (-r)]]) := by
    intro r hr
    have := C27_dense_formula_partial (fun _ => 0) [[0, -r]] (by simp) (by
      intro x hx
      simp only [List.mem_singleton] at hx
      subst hx
      refine ⟨by simp, ?_⟩
      intro a ha
      simp only [List.mem_cons, List.not_mem_nil, or_false] at ha
      rcases ha with rfl | rfl
      · exact le_rfl
      · linarith)
    simpa [unitBy, fins_def] using this
  refine ⟨c, _, hc, by rw [e]; rfl, ?_, ?_⟩
  · show (normalizerTransform _ _ >>= _ : Py _) = _
    rw [run 1 one_pos]
    rfl
  · rw [exact_on_fin, exact_on_fin]
    show (normalizerTransform _ _ >>= _ : Py _) = _
    have := run 2 two_pos
    norm_num at this ⊢
    rw [this]
    rfl

/-- a ridge classifier with one coefficient -/
def oneRidge {F : Type} (a b : F) : Attrs F :=
  [("coef_", .ndarray (vmat [[a]])), ("intercept_", .ndarray (vnums [b])), ("classes_", .ndarray (.list [.str "no", .str "yes"]))]

theorem oneRidge_learned {F : Type} [Arith F] (a b : F) : Learned "RidgeClassifier" (oneRidge a b)
    (.linear .plain (Linear.ofFitted [[a]] [.str "no", .str "yes"] (some (.vector [b])) none none none)) :=
  .linear (by simp [linearClasses]) rfl ⟨rfl, by
    intro c hc
    simp only [List.mem_cons, List.not_mem_nil, or_false] at hc
    rcases hc with rfl | rfl <;> exact .str _⟩ rfl rfl rfl rfl

/-- **C108 is false of double precision**: with coefficient 1 and intercept 0 the record (1) is labelled "yes"; with the values
counted from -2⁶⁰ (the intercept is now -2⁶⁰) it is labelled "no". -/
theorem C108_false_rounding (trunc : XR FP.binary64 → Py Int) : ∃ c c' p p',
    convert (singles trunc initXgb) (.leaf "RidgeClassifier" (some "0.22".toList) (oneRidge (.fin 1) (.fin 0))) = .ok c ∧
    convert (singles trunc initXgb) (.leaf "RidgeClassifier" (some "0.22".toList) (oneRidge (.fin 1) (.fin (-2 ^ 60)))) = .ok c' ∧
    (c.methods lib encode).predict = some p ∧ (c'.methods lib encode).predict = some p' ∧
    p (.arr (.ofMat [[.fin 1]])) = .ok [.str "yes"] ∧ p' (.arr (.ofMat [[Change.on ⟨1, 2 ^ 60⟩ (.fin 1)]])) = .ok [.str "no"] := by
  have big : B64.rndFin ((2 : ℝ) ^ 60) = 2 ^ 60 := B64.rndFin_of_representable ⟨1, 60, by norm_num, by norm_num, by norm_num⟩
  have r1 : (XR.round ((2 : ℝ) ^ 60) : XR FP.binary64) = .fin (2 ^ 60) := round_small big (by rw [abs_of_pos (by positivity)])
  have r3 : (XR.round ((2 : ℝ) ^ 60 + 1) : XR FP.binary64) = .fin (2 ^ 60) :=
    round_small B64.absorbs (by rw [abs_of_pos (by positivity)])
  have r4 : (XR.round (1 : ℝ) : XR FP.binary64) = .fin 1 := FP.binary64_round (r := 1) 1 (by norm_num) (by norm_num)
  have r5 : (XR.round (0 : ℝ) : XR FP.binary64) = .fin 0 := FP.binary64_round (r := 0) 0 (by norm_num) (by norm_num)
  have h0 := XR.ofInt_zero FP.binary64_sound
  have m1 : (.fin (2 ^ 60) : XR FP.binary64) *ₚ .fin 1 = .fin (2 ^ 60) := by
    show XR.round _ = _; rw [mul_one]; exact r1
  have m3 : (.fin 1 : XR FP.binary64) *ₚ .fin 1 = .fin 1 := by
    show XR.round _ = _; rw [mul_one]; exact r4
  have a1 : (.fin 0 : XR FP.binary64) +ₚ .fin (2 ^ 60) = .fin (2 ^ 60) := by
    show XR.round _ = _; rw [zero_add]; exact r1
  have a3 : (.fin (2 ^ 60) : XR FP.binary64) +ₚ .fin (-2 ^ 60) = .fin 0 := by
    show XR.round _ = _; rw [add_neg_cancel]; exact r5
  have a4 : (.fin 0 : XR FP.binary64) +ₚ .fin 1 = .fin 1 := by
    show XR.round _ = _; rw [zero_add]; exact r4
  have a6 : (.fin 1 : XR FP.binary64) +ₚ .fin 0 = .fin 1 := by
    show XR.round _ = _; rw [add_zero]; exact r4
  have on : (Change.on ⟨1, 2 ^ 60⟩ (.fin 1) : XR FP.binary64) = .fin (2 ^ 60) := by
    show (.fin 1 *ₚ .fin 1) +ₚ .fin (2 ^ 60) = (_ : XR FP.binary64)
    rw [m3]
    show XR.round _ = _
    rw [add_comm]
    exact r3
  have l1 : ((.fin 0 : XR FP.binary64) <ₚ .fin 0) = false := by
    show decide _ = false; simp
  have l2 : ((.fin 0 : XR FP.binary64) <ₚ .fin 1) = true := by
    show decide _ = true; simp
  obtain ⟨c, hc, e⟩ := C89_converted_behaves trunc lib encode _ _ (.single version_022 (oneRidge_learned (.fin 1) (.fin 0)))
  obtain ⟨c', hc', e'⟩ := C89_converted_behaves trunc lib encode _ _ (.single version_022 (oneRidge_learned (.fin 1) (.fin (-2 ^ 60))))
  refine ⟨c, c', _, _, hc, hc', by rw [e]; rfl, by rw [e']; rfl, ?_, ?_⟩
  · have hr : (Linear.ofFitted [[.fin 1]] [.str "no", .str "yes"] (some (.vector [.fin 0])) none none none :
        Linear (XR FP.binary64) (PVal (XR FP.binary64))).decisionFunction (.ofMat [[.fin 1]]) = .ok (.flat [.fin 1]) := by
      show (Except.ok (Scores.flat [((ofInt 0 +ₚ (.fin 1 *ₚ .fin 1)) +ₚ .fin 0)]) : Py (Scores (XR FP.binary64))) = _
      rw [h0, m3, a4, a6]
    simp only [Data.onArr, Linear.predict, hr, py_ok_bind, h0, List.mapM_cons, List.mapM_nil, l2]
    rfl
  · rw [on]
    have hr : (Linear.ofFitted [[.fin 1]] [.str "no", .str "yes"] (some (.vector [.fin (-2 ^ 60)])) none none none :
        Linear (XR FP.binary64) (PVal (XR FP.binary64))).decisionFunction (.ofMat [[.fin (2 ^ 60)]]) = .ok (.flat [.fin 0]) := by
      show (Except.ok (Scores.flat [((ofInt 0 +ₚ (.fin (2 ^ 60) *ₚ .fin 1)) +ₚ .fin (-2 ^ 60))]) : Py (Scores (XR FP.binary64))) = _
      rw [h0, m1, a1, a3]
    simp only [Data.onArr, Linear.predict, hr, py_ok_bind, h0, List.mapM_cons, List.mapM_nil, l1]
    rfl

/-! ### Cases that meet the hypotheses -/

/-- °F for °C, and grams for kilograms -/
noncomputable def fahrenheit : List Change := [⟨9 / 5, 32⟩, ⟨1000, 0⟩]

theorem fahrenheit_up : Upward FP.exact fahrenheit := ⟨rfl, by
  intro c hc
  simp only [fahrenheit, List.mem_cons, List.not_mem_nil, or_false] at hc
  rcases hc with rfl | rfl <;> norm_num⟩

theorem scalerOf_learned {F : Type} [Arith F] (a b c d : F) : Learned "StandardScaler" (demoScalerOf a b c d) (.standard ⟨true, true, some [a, b], some [c, d]⟩) :=
  .standard (s := ⟨true, true, some [a, b], some [c, d]⟩) rfl rfl rfl rfl

/-- A scaler and a classifier, fitted on °C and kg and on °F and g. -/
example (a b c : Ex) :
    let pipe := fun (s : Attrs Ex) => SkObj.pipeline (some "0.22".toList) [("scale", .leaf "StandardScaler" (some "0.22".toList) s),
      ("clf", .leaf "RidgeClassifier" (some "0.22".toList) (demoRidge a b c))]
    Recode (fahrenheit.map Change.on) (pipe (demoScalerOf (.fin 5) (.fin 2) (.fin 20) (.fin 70)))
      (pipe (demoScalerOf (.fin 9) (.fin 2000) (.fin 68) (.fin 70000))) .answers ∧
    (∃ f, Behaves lib encode (pipe (demoScalerOf (.fin 5) (.fin 2) (.fin 20) (.fin 70))) f) ∧
    RecodedRows (fp := FP.exact) (fahrenheit.map Change.on) (.arr (.ofMat [[.fin 10, .fin 80], [.fin 0, .nan]])) (.arr (.ofMat [[.fin 50, .fin 80000], [.fin 32, .nan]])) := by
  refine ⟨?_, ?_, ?_⟩
  · have := RecodedStep.standard (fp := FP.exact) (cs := fahrenheit) (m := [20, 70]) (s := [5, 2]) fahrenheit_up rfl rfl (by simp)
    refine .firstStep (ψs := asIs FP.exact 2) (.step (scalerOf_learned (F := Ex) (.fin 5) (.fin 2) (.fin 20) (.fin 70))
      (scalerOf_learned (F := Ex) (.fin 9) (.fin 2000) (.fin 68) (.fin 70000)) ?_) (.lastStep .same)
    have e1 : spreads fahrenheit [5, 2] = [9, 2000] := by simp [spreads, fahrenheit]; norm_num
    have e2 : values fahrenheit [20, 70] = [68, 70000] := by simp [values, fahrenheit]; norm_num
    rw [e1, e2] at this
    exact this
  · exact ⟨_, .pipeline (es := [_, _]) version_022 (.cons (.single version_022 (scalerOf_learned (F := Ex) (.fin 5) (.fin 2) (.fin 20) (.fin 70)))
      (.cons (.single version_022 (demoRidge_learned a b c)) .nil))⟩
  · have e : ∀ (c : Change) (x y : ℝ) , c.factor * x + c.offset = y → (.fin y : Ex) = c.on (.fin x) := fun c x y h => by rw [exact_on_fin, h]
    refine .mk (by simp) (.cons ?_ (.cons ?_ .nil))
    · rw [e ⟨9 / 5, 32⟩ 10 50 (by norm_num), e ⟨1000, 0⟩ 80 80000 (by norm_num)]
      exact .cons (.cons .nil)
    · rw [e ⟨9 / 5, 32⟩ 0 32 (by norm_num)]
      exact .cons (.cons (a := .nan) .nil)

/-- a linear classifier on °C and kg, with its coefficients for °F and g -/
example : RecodedFit (fahrenheit.map Change.on)
    (.linear .plain (Linear.ofFitted [[.fin 9, .fin 1]] [.str "no", .str "yes"] (some (.vector [.fin 1])) none none none))
    (.linear .plain (Linear.ofFitted [[.fin 5, .fin (1 / 1000)]] [.str "no", .str "yes"] (some (.vector [.fin (-159)])) none none none) : Single Ex) := by
  have := RecodedFit.linear (fp := FP.exact) (cs := fahrenheit) (k := .plain) (W := [[9, 1]]) (b := [.fin 1])
    (m := Linear.ofFitted [[.fin 9, .fin 1]] [.str "no", .str "yes"] (some (.vector [.fin 1])) none none none) rfl
    (fun c hc => (fahrenheit_up.2 c hc).ne') (by simp [fahrenheit]) rfl rfl
  have e1 : rates fahrenheit [9, 1] = [5, 1 / 1000] := by simp [rates, fahrenheit]
  have e2 : drift fahrenheit [9, 1] = 160 := by norm_num [drift, fahrenheit]
  simp only [List.map_cons, List.map_nil, e1, List.zipWith_cons_cons, List.zipWith_nil_left, e2, XR.sub_exact] at this
  norm_num at this
  exact this

/-- a tree, and the same tree for the cubes of the values, in double precision -/
example : Regrown (fp := FP.binary64) [recoding fun x => x ^ 3] (riseStump [.fin 3, .fin 1] [.fin 1, .fin 3])
    (.split [[.fin 3, .fin 1]] 0 (.fin (1 ^ 3)) (.leaf [[.fin 3, .fin 1]]) (.leaf [[.fin 1, .fin 3]])) :=
  .split rfl (fun x => C108_increasing (f := fun x => x ^ 3) (Odd.strictMono_pow (by decide)) 1 x) .leaf .leaf

end PurePredict
