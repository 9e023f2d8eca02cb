import Verif.Lemmas.ShuffleObject
import Verif.Props.C97
import Verif.Props.C102
/-
C104: the arrangement of the columns does not matter: an object fitted on the same columns in another order (for trees
also: on some of the columns, or with repeated columns) gives the same answers to requests arranged the same way.
-/
namespace PurePredict
open Spec
variable {fp : FP} {lib : String → TextLib} {encode : Str → List Nat}

/-- In exact arithmetic the order of summands does not matter, also with infinities and NaN among them. -/
theorem anyOrder_exact : AnyOrder FP.exact := by
  intro a b c
  cases a <;> cases b <;> cases c <;> first | rfl | (simp only [XR.add_exact]; rw [add_right_comm]) | (simp only [XR.add_exact]; rfl)

section
variable (trunc : XR fp → Py Int)

/-- **C104**: a fitted object and the same object for rearranged columns are both converted; the second does with
rearranged requests what the first does with the original ones. -/
theorem C104_rearranged {w : Nat} {π : List Nat} {o o' : SkObj (Attrs (XR fp)) (PVal (XR fp)) (XR fp)} {k : Together} (h : Rearrange w π o o' k)
    {f : Methods (XR fp)} (hb : Behaves lib encode o f) :
    ∃ c c', convert (singles trunc initXgb) o = .ok c ∧ convert (singles trunc initXgb) o' = .ok c' ∧
      Concur (c.methods lib encode) (c'.methods lib encode) w π k := by
  obtain ⟨f', hb', hr⟩ := behaves_shuffled h hb
  obtain ⟨c, hc, rfl⟩ := C89_converted_behaves trunc lib encode o f hb
  obtain ⟨c', hc', rfl⟩ := C89_converted_behaves trunc lib encode o' f' hb'
  exact ⟨c, c', hc, hc', hr⟩

/-- **C104** spelled out: the labels, the probabilities and the exceptions are the same. -/
theorem C104_answers {w : Nat} {π : List Nat} {o o' : SkObj (Attrs (XR fp)) (PVal (XR fp)) (XR fp)} (h : Rearrange w π o o' .answers)
    {f : Methods (XR fp)} (hb : Behaves lib encode o f) :
    ∃ c c', convert (singles trunc initXgb) o = .ok c ∧ convert (singles trunc initXgb) o' = .ok c' ∧
      (∀ p, (c.methods lib encode).predict = some p → ∃ p', (c'.methods lib encode).predict = some p' ∧
        ∀ M N, M ≠ [] → List.Forall₂ (Rearranged w π) M N → p' (.arr (.ofMat N)) = p (.arr (.ofMat M))) ∧
      ∀ q, (c.methods lib encode).predictProba = some q → ∃ q', (c'.methods lib encode).predictProba = some q' ∧
        ∀ M N, M ≠ [] → List.Forall₂ (Rearranged w π) M N → q' (.arr (.ofMat N)) = q (.arr (.ofMat M)) := by
  obtain ⟨c, c', h1, h2, h3, h4, -⟩ := C104_rearranged (lib := lib) (encode := encode) trunc h hb
  refine ⟨c, c', h1, h2, fun p hp => ?_, fun q hq => ?_⟩
  · obtain ⟨p', hp', hX⟩ := h3.1 p hp
    exact ⟨p', hp', fun M N hne hMN => (hX _ _ (.mk hne hMN)).symm⟩
  · obtain ⟨p', hp', hX⟩ := h4.1 q hq
    exact ⟨p', hp', fun M N hne hMN => (hX _ _ (.mk hne hMN)).symm⟩

theorem Spec.Replanted.first {π : List Nat} {s s' : SkTree (XR fp)} (h : Replanted π s s') : Retested π s.first s'.first := by
  induction h with
  | leaf => exact .leaf
  | split h1 _ _ ih1 ih2 => exact .node h1 ih1 ih2

theorem Spec.Replanted.tree {π : List Nat} {s s' : SkTree (XR fp)} (h : Replanted π s s') {c : String} {v : Option (List Char)} {e e' : Attrs (XR fp)}
    {labels : List (PVal (XR fp))} (hc : c = "DecisionTreeClassifier" ∨ c = "ExtraTreeClassifier") (he : HoldsTree e s) (he' : HoldsTree e' s')
    (hl : HasLabels e labels) (hl' : HasLabels e' labels) (hv : ∀ a ∈ s.values, a ≠ []) (hv' : ∀ a ∈ s'.values, a ≠ []) (w : Nat) :
    Rearrange w π (.leaf c v e) (.leaf c v e') .answers := by
  obtain ⟨t, h1, h2, h3⟩ := Tree.ofSklearn_encodes s hv (some labels) [.int 0, .int 1]
  obtain ⟨t', h1', h2', h3'⟩ := Tree.ofSklearn_encodes s' hv' (some labels) [.int 0, .int 1]
  exact .fit (.treeClassifier (cs := some _) hc he hl h1) (.treeClassifier (cs := some _) hc he' hl' h1')
    (.treeClassifier ⟨h3'.trans h3.symm, _, _, h2, h2', h.first⟩)

/-- **C104** for forests of trees grown by scikit-learn, in any arithmetic and for any choice of columns: when every tree
tests, at the same thresholds, the values where they stand now, labels and probabilities stay the same.  Columns that no tree
tests may be dropped, columns may be moved and repeated. -/
theorem C104_forest {kd : EnsKind} {v : Option (List Char)} {cs : List (PVal (XR fp))} {w : Nat} {π : List Nat}
    {ms ms' : List (SkObj (Attrs (XR fp)) (PVal (XR fp)) (XR fp))} (hlen : ms.length = ms'.length)
    (hm : ∀ p ∈ ms.zip ms', ∃ (c : String) (v : Option (List Char)) (e e' : Attrs (XR fp)) (s s' : SkTree (XR fp)) (labels : List (PVal (XR fp))),
      p = (.leaf c v e, .leaf c v e') ∧ (c = "DecisionTreeClassifier" ∨ c = "ExtraTreeClassifier") ∧ HoldsTree e s ∧ HoldsTree e' s' ∧
      HasLabels e labels ∧ HasLabels e' labels ∧ (∀ a ∈ s.values, a ≠ []) ∧ (∀ a ∈ s'.values, a ≠ []) ∧ Replanted π s s')
    {f : Methods (XR fp)} (hb : Behaves lib encode (.ensemble kd v none cs ms) f) :
    ∃ c c' p p' q q', convert (singles trunc initXgb) (.ensemble kd v none cs ms) = .ok c ∧
      convert (singles trunc initXgb) (.ensemble kd v none cs ms') = .ok c' ∧ (c.methods lib encode).predict = some p ∧
      (c'.methods lib encode).predict = some p' ∧ (c.methods lib encode).predictProba = some q ∧ (c'.methods lib encode).predictProba = some q' ∧
      ∀ M N, M ≠ [] → List.Forall₂ (Rearranged w π) M N →
        p' (.arr (.ofMat N)) = p (.arr (.ofMat M)) ∧ q' (.arr (.ofMat N)) = q (.arr (.ofMat M)) := by
  have h : Rearrange w π (.ensemble kd v none cs ms) (.ensemble kd v none cs ms') .answers := by
    refine .ensemble hlen fun p hp => ?_
    obtain ⟨c, v, e, e', s, s', labels, rfl, hc, he, he', hl, hl', hv, hv', hr⟩ := hm p hp
    exact hr.tree hc he he' hl hl' hv hv' w
  obtain ⟨c, c', h1, h2, h3, h4⟩ := C104_answers (lib := lib) (encode := encode) trunc h hb
  obtain ⟨c0, hc0, e⟩ := C89_converted_behaves trunc lib encode _ f hb
  rw [h1] at hc0
  cases hc0
  cases hb with
  | @ensemble _ _ _ _ _ es _ _ _ =>
    obtain ⟨p', hp', hX⟩ := h3 _ (by rw [e]; rfl)
    obtain ⟨q', hq', hY⟩ := h4 _ (by rw [e]; rfl)
    exact ⟨c, c', _, p', _, q', h1, h2, by rw [e]; rfl, hp', by rw [e]; rfl, hq', fun M N hne hMN => ⟨hX M N hne hMN, hY M N hne hMN⟩⟩

end

/-! ### Rounding -/

/-- the coefficients 1, 1, 1 -/
noncomputable def onesRidge : Attrs (XR FP.binary64) :=
  [("coef_", .ndarray (vmat [[.fin 1, .fin 1, .fin 1]])), ("intercept_", .ndarray (vnums [.fin 0])),
   ("classes_", .ndarray (.list [.str "no", .str "yes"]))]

/-- **C104 is false of sums in double precision**: a ridge classifier with three coefficients 1 labels (2⁶⁰, 1, -2⁶⁰) "no" and,
with the last two columns exchanged, (2⁶⁰, -2⁶⁰, 1) "yes".  (Exchanging the last two columns does not change the classifier.) -/
theorem C104_false_rounding (trunc : XR FP.binary64 → Py Int) : ∃ c p,
    convert (singles trunc initXgb) (.leaf "RidgeClassifier" (some "0.22".toList) onesRidge) = .ok c ∧ (c.methods lib encode).predict = some p ∧
    p (.arr (.ofMat [[.fin (2 ^ 60), .fin 1, .fin (-2 ^ 60)]])) = .ok [.str "no"] ∧
    p (.arr (.ofMat [[.fin (2 ^ 60), .fin (-2 ^ 60), .fin 1]])) = .ok [.str "yes"] := by
  have big : B64.rndFin ((2 : ℝ) ^ 60) = 2 ^ 60 := B64.rndFin_of_representable ⟨1, 60, by norm_num, by norm_num, by norm_num⟩
  have r1 : (XR.round ((2 : ℝ) ^ 60) : XR FP.binary64) = .fin (2 ^ 60) := round_small big (by rw [abs_of_pos (by positivity)])
  have r2 : (XR.round (-(2 : ℝ) ^ 60) : XR FP.binary64) = .fin (-2 ^ 60) :=
    round_small (by rw [B64.rndFin_neg, big]) (by rw [abs_neg, abs_of_pos (by positivity)])
  have r3 : (XR.round ((2 : ℝ) ^ 60 + 1) : XR FP.binary64) = .fin (2 ^ 60) :=
    round_small B64.absorbs (by rw [abs_of_pos (by positivity)])
  have r4 : (XR.round (1 : ℝ) : XR FP.binary64) = .fin 1 := FP.binary64_round (r := 1) 1 (by norm_num) (by norm_num)
  have r5 : (XR.round (0 : ℝ) : XR FP.binary64) = .fin 0 := FP.binary64_round (r := 0) 0 (by norm_num) (by norm_num)
  have h0 := XR.ofInt_zero FP.binary64_sound
  have m1 : (.fin (2 ^ 60) : XR FP.binary64) *ₚ .fin 1 = .fin (2 ^ 60) := by
    show XR.round _ = _; rw [mul_one]; exact r1
  have m2 : (.fin (-2 ^ 60) : XR FP.binary64) *ₚ .fin 1 = .fin (-2 ^ 60) := by
    show XR.round _ = _; rw [mul_one]; exact r2
  have m3 : (.fin 1 : XR FP.binary64) *ₚ .fin 1 = .fin 1 := by
    show XR.round _ = _; rw [mul_one]; exact r4
  have a1 : (.fin 0 : XR FP.binary64) +ₚ .fin (2 ^ 60) = .fin (2 ^ 60) := by
    show XR.round _ = _; rw [zero_add]; exact r1
  have a2 : (.fin (2 ^ 60) : XR FP.binary64) +ₚ .fin 1 = .fin (2 ^ 60) := r3
  have a3 : (.fin (2 ^ 60) : XR FP.binary64) +ₚ .fin (-2 ^ 60) = .fin 0 := by
    show XR.round _ = _; rw [add_neg_cancel]; exact r5
  have a4 : (.fin 0 : XR FP.binary64) +ₚ .fin 1 = .fin 1 := by
    show XR.round _ = _; rw [zero_add]; exact r4
  have a5 : (.fin 0 : XR FP.binary64) +ₚ .fin 0 = .fin 0 := by
    show XR.round _ = _; rw [zero_add]; exact r5
  have a6 : (.fin 1 : XR FP.binary64) +ₚ .fin 0 = .fin 1 := by
    show XR.round _ = _; rw [add_zero]; exact r4
  have l1 : ((.fin 0 : XR FP.binary64) <ₚ .fin 0) = false := by
    show decide _ = false; simp
  have l2 : ((.fin 0 : XR FP.binary64) <ₚ .fin 1) = true := by
    show decide _ = true; simp
  have hl : Learned "RidgeClassifier" onesRidge (.linear .plain (Linear.ofFitted [[.fin 1, .fin 1, .fin 1]] [.str "no", .str "yes"] (some (.vector [.fin 0])) none none none)) :=
    (.linear (by simp [linearClasses]) rfl ⟨rfl, by
        intro c hc
        simp only [List.mem_cons, List.not_mem_nil, or_false] at hc
        rcases hc with rfl | rfl <;> exact .str _⟩ rfl rfl rfl rfl)
  obtain ⟨c, hc, e⟩ := C89_converted_behaves trunc lib encode _ _ (.single version_022 hl)
  refine ⟨c, _, hc, by rw [e]; rfl, ?_, ?_⟩
  · have hr : (Linear.ofFitted [[.fin 1, .fin 1, .fin 1]] [.str "no", .str "yes"] (some (.vector [.fin 0])) none none none :
        Linear (XR FP.binary64) (PVal (XR FP.binary64))).decisionFunction (.ofMat [[.fin (2 ^ 60), .fin 1, .fin (-2 ^ 60)]]) =
        .ok (.flat [.fin 0]) := by
      show (Except.ok (Scores.flat [((((ofInt 0 +ₚ (.fin (2 ^ 60) *ₚ .fin 1)) +ₚ (.fin 1 *ₚ .fin 1)) +ₚ
        (.fin (-2 ^ 60) *ₚ .fin 1)) +ₚ .fin 0)]) : Py (Scores (XR FP.binary64))) = _
      rw [h0, m1, m2, m3, a1, a2, a3, a5]
    simp only [Data.onArr, Linear.predict, hr, py_ok_bind, h0, List.mapM_cons, List.mapM_nil, l1]
    rfl
  · have hr : (Linear.ofFitted [[.fin 1, .fin 1, .fin 1]] [.str "no", .str "yes"] (some (.vector [.fin 0])) none none none :
        Linear (XR FP.binary64) (PVal (XR FP.binary64))).decisionFunction (.ofMat [[.fin (2 ^ 60), .fin (-2 ^ 60), .fin 1]]) =
        .ok (.flat [.fin 1]) := by
      show (Except.ok (Scores.flat [((((ofInt 0 +ₚ (.fin (2 ^ 60) *ₚ .fin 1)) +ₚ (.fin (-2 ^ 60) *ₚ .fin 1)) +ₚ
        (.fin 1 *ₚ .fin 1)) +ₚ .fin 0)]) : Py (Scores (XR FP.binary64))) = _
      rw [h0, m1, m2, m3, a1, a3, a4, a6]
    simp only [Data.onArr, Linear.predict, hr, py_ok_bind, h0, List.mapM_cons, List.mapM_nil, l2]
    rfl

/-! ### Cases that meet the hypotheses -/

/-- the ridge classifier of the other column order -/
def swappedRidge {F : Type} (a b c : F) : Attrs F :=
  [("alpha", .float a), ("coef_", .ndarray (vmat [[b, a]])), ("intercept_", .ndarray (vnums [c])),
   ("classes_", .ndarray (.list [.str "no", .str "yes"]))]

theorem swappedRidge_learned {F : Type} [Arith F] (a b c : F) : Learned "RidgeClassifier" (swappedRidge a b c)
    (.linear .plain (Linear.ofFitted [[b, a]] [.str "no", .str "yes"] (some (.vector [c])) none none none)) :=
  .linear (by simp [linearClasses]) rfl ⟨rfl, by
    intro c hc
    simp only [List.mem_cons, List.not_mem_nil, or_false] at hc
    rcases hc with rfl | rfl <;> exact .str _⟩ rfl rfl rfl rfl

theorem swapped {α : Type} (a b : α) : Rearranged 2 [1, 0] [a, b] [b, a] := ⟨rfl, .cons rfl (.cons rfl .nil)⟩

/-- A scaler and a classifier, fitted on two columns, and on the same columns exchanged; exact arithmetic. -/
example (a b c d : Ex) (ha : a ≠ .fin 0) (hb : b ≠ .fin 0) :
    let pipe := fun (s r : Attrs Ex) => SkObj.pipeline (some "0.22".toList) [("scale", .leaf "StandardScaler" (some "0.22".toList) s), ("clf", .leaf "RidgeClassifier" (some "0.22".toList) r)]
    Rearrange 2 [1, 0] (pipe (demoScalerOf a b c d) (demoRidge a b c)) (pipe (demoScalerOf b a d c) (swappedRidge a b c)) .answers ∧
    (∃ f, Behaves lib encode (pipe (demoScalerOf a b c d) (demoRidge a b c)) f) ∧
    Shuffled 2 [1, 0] (.arr (.ofMat [[a, b], [c, d]])) (.arr (.ofMat [[b, a], [d, c]])) := by
  refine ⟨?_, ?_, .mk (by simp) (.cons (swapped _ _) (.cons (swapped _ _) .nil))⟩
  · refine .firstStep (.step (.standard (s := ⟨true, true, some [a, b], some [c, d]⟩) rfl rfl rfl rfl)
      (.standard (s := ⟨true, true, some [b, a], some [d, c]⟩) rfl rfl rfl rfl) ?_) (.lastStep (.fit (demoRidge_learned a b c) (swappedRidge_learned a b c) ?_))
    · exact .standard rfl rfl (fun _ => ⟨_, _, rfl, rfl, swapped _ _⟩) (fun _ => ⟨_, _, rfl, rfl, swapped _ _⟩)
        fun _ x hx => by cases hx; simp [Ne.symm ha, Ne.symm hb]
    · exact .linear ⟨anyOrder_exact, by decide⟩ (.cons (swapped _ _) .nil)
  · exact ⟨_, .pipeline (es := [_, _]) version_022 (.cons (.single version_022 (.standard (s := ⟨true, true, some [a, b], some [c, d]⟩) rfl rfl rfl rfl))
      (.cons (.single version_022 (demoRidge_learned a b c)) .nil))⟩

/-- a tree that tests the last of three columns -/
noncomputable def lastStump : SkTree (XR FP.binary64) := .split [[.fin 4, .fin 4]] 2 (.fin 1) (.leaf [[.fin 3, .fin 1]]) (.leaf [[.fin 1, .fin 3]])

/-- A forest of one such tree, in double precision; the first two columns are dropped, the tested one is put first and
repeated. -/
example : let labels : Attrs (XR FP.binary64) := [("classes_", .ndarray (.list [.int 0, .int 1]))]
    let forest := fun (s : SkTree (XR FP.binary64)) => SkObj.ensemble .randomForest (some "0.22".toList) none [.int 0, .int 1]
      [.leaf "DecisionTreeClassifier" (some "0.22".toList) (riseTree s labels)]
    Rearrange 3 [2, 2] (forest lastStump) (forest (riseStump [.fin 3, .fin 1] [.fin 1, .fin 3])) .answers ∧
    ∀ a b c : XR FP.binary64, Shuffled 3 [2, 2] (.arr (.ofMat [[a, b, c]])) (.arr (.ofMat [[c, c]])) := by
  refine ⟨.ensemble rfl fun p hp => ?_, fun a b c => .mk (by simp) (.cons ⟨rfl, .cons rfl (.cons rfl .nil)⟩ .nil)⟩
  simp only [List.zip_cons_cons, List.zip_nil_right, List.mem_singleton] at hp
  subst hp
  refine Replanted.tree (labels := [.int 0, .int 1]) (.split rfl .leaf .leaf) (.inl rfl) (riseTree_holds _ _) (riseTree_holds _ _) ?_ ?_ ?_ ?_ 3
  · refine ⟨rfl, ?_⟩
    intro c hc
    simp only [List.mem_cons, List.not_mem_nil, or_false] at hc
    rcases hc with rfl | rfl <;> exact .int _
  · refine ⟨rfl, ?_⟩
    intro c hc
    simp only [List.mem_cons, List.not_mem_nil, or_false] at hc
    rcases hc with rfl | rfl <;> exact .int _
  · simp [lastStump, SkTree.values]
  · simp [riseStump, SkTree.values]

end PurePredict
