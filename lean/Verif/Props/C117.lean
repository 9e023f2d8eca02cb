import Verif.Lemmas.Folded
import Verif.Props.C112
import Verif.Props.C113
import Verif.Props.C114
import Verif.Props.C108
/-
C117: a scaler can be folded into what follows.
-/
namespace PurePredict
open Spec
variable {lib : String → TextLib} {encode : Str → List Nat}

/-- What a scaler gives to the steps after it is the request in other units. -/
theorem Fold.same {β : Type} {cs : List Change} {t : Data Ex → Py (Data Ex)}
    (ht : ∀ M : List (List Ex), M ≠ [] → (∀ r ∈ M, r.length = cs.length) →
      ∃ N, t (.arr (.ofMat M)) = .ok (.arr (.ofMat N)) ∧ List.Forall₂ (Recoded (cs.map Change.on)) M N)
    {p q : Option (Data Ex → Py β)} (h : SameMethod (RecodedRows (cs.map Change.on)) p q) :
    SameMethod (fun X Y => X = Y ∧ SomeDense cs.length X) p (q.map fun u X => t X >>= u) := by
  refine ⟨fun f hf => ?_, fun e => by rw [h.2 e]; rfl⟩
  obtain ⟨u, hu, hX⟩ := h.1 f hf
  refine ⟨_, by rw [hu]; rfl, ?_⟩
  rintro X Y ⟨rfl, M, rfl, hM, hw⟩
  obtain ⟨N, h1, h2⟩ := ht M hM hw
  show f _ = t _ >>= u
  rw [h1]
  exact hX _ _ (.mk hM h2)

/-- Same labels, probabilities and exceptions, for dense requests of at least one record and `w` columns. -/
def SameAnswers (w : Nat) (f g : Methods Ex) : Prop :=
  (∀ p, f.predict = some p → ∃ q, g.predict = some q ∧ ∀ M, M ≠ [] → (∀ r ∈ M, r.length = w) → q (.arr (.ofMat M)) = p (.arr (.ofMat M))) ∧
  (∀ p, f.predictProba = some p → ∃ q, g.predictProba = some q ∧ ∀ M, M ≠ [] → (∀ r ∈ M, r.length = w) → q (.arr (.ofMat M)) = p (.arr (.ofMat M))) ∧
  ∀ p, f.predictLogProba = some p → ∃ q, g.predictLogProba = some q ∧ ∀ M, M ≠ [] → (∀ r ∈ M, r.length = w) → q (.arr (.ofMat M)) = p (.arr (.ofMat M))

/-- **C117**, in exact arithmetic: a pipeline that starts with a scaler, and the pipeline without it whose remaining steps read the unscaled
columns, are both converted and give the same answers (or the same exceptions). -/
theorem C117_folded (trunc : Ex → Py Int) {v v' : Option (List Char)} {n c : String} {a : Attrs Ex} {s : Single Ex} {cs : List Change}
    (hv : ReadableVersion v) (hl : Learned c a s) (hs : Affine s cs) {o : SkObj (Attrs Ex) (PVal Ex) Ex}
    {p : String × SkObj (Attrs Ex) (PVal Ex) Ex} {ps : List (String × SkObj (Attrs Ex) (PVal Ex) Ex)}
    (hr : Recode (cs.map Change.on) o (.pipeline v' (p :: ps)) .answers) {f : Methods Ex} (hb : Behaves lib encode o f) :
    ∃ k k', convert (singles trunc initXgb) o = .ok k ∧ convert (singles trunc initXgb) (.pipeline v' ((n, .leaf c v a) :: p :: ps)) = .ok k' ∧
      SameAnswers cs.length (k.methods lib encode) (k'.methods lib encode) := by
  obtain ⟨f', hb', hA⟩ := behaves_recoded hr hb
  obtain ⟨t, ht, hrun⟩ := Fold.affine_run (lib := lib) (encode := encode) hs
  cases hb' with
  | @pipeline _ _ es hv' he =>
    have hb2 : Behaves lib encode (.pipeline v' ((n, .leaf c v a) :: p :: ps)) _ := .pipeline (es := s.est lib encode :: es) hv' (.cons (.single hv hl) he)
    obtain ⟨k, hk, rfl⟩ := C89_converted_behaves trunc lib encode o f hb
    obtain ⟨k', hk', e⟩ := C89_converted_behaves trunc lib encode _ _ hb2
    refine ⟨k, k', hk, hk', ?_⟩
    cases he with
    | @cons _ e1 _ es h1 h2 =>
      have e2 := Fold.first_step n (s.est lib encode) ht (((p :: ps).map Prod.fst).zip (e1 :: es)) (by simp)
      have e3 : k'.methods lib encode = _ := e.trans e2
      obtain ⟨a1, a2, a3⟩ := hA
      rw [e3]
      have go : ∀ {β : Type} {p q : Option (Data Ex → Py β)}, SameMethod (fun X Y => X = Y ∧ SomeDense cs.length X) p q →
          ∀ g, p = some g → ∃ u, q = some u ∧ ∀ M, M ≠ [] → (∀ r ∈ M, r.length = cs.length) → u (.arr (.ofMat M)) = g (.arr (.ofMat M)) := by
        intro β p q h g hg
        obtain ⟨u, hu, hX⟩ := h.1 g hg
        exact ⟨u, hu, fun M h1 h2 => (hX _ _ ⟨rfl, M, rfl, h1, h2⟩).symm⟩
      exact ⟨go (Fold.same hrun a1), go (Fold.same hrun a2), go (Fold.same hrun a3)⟩

/-- **C117** for a scaler followed by one predictor. -/
theorem C117_one (trunc : Ex → Py Int) {v v' w : Option (List Char)} {n n' c d : String} {a b b' : Attrs Ex} {s q q' : Single Ex} {cs : List Change}
    (hv : ReadableVersion v) (hv' : ReadableVersion v') (hw : ReadableVersion w) (hl : Learned c a s) (hs : Affine s cs)
    (h1 : Learned d b q) (h2 : Learned d b' q') (hr : RecodedFit (cs.map Change.on) q q') :
    ∃ k k', convert (singles trunc initXgb) (.leaf d w b) = .ok k ∧
      convert (singles trunc initXgb) (.pipeline v' [(n, .leaf c v a), (n', .leaf d w b')]) = .ok k' ∧
      SameAnswers cs.length (k.methods lib encode) (k'.methods lib encode) := by
  obtain ⟨k, k', hk, hk', h⟩ := C117_folded (lib := lib) (encode := encode) trunc (n := n) hv hl hs (.lastStep (v := v') (n := n') (.fit (v := w) h1 h2 hr))
    (.pipeline (es := [q.est lib encode]) hv' (.cons (.single hw h1) .nil))
  obtain ⟨k0, hk0, e0⟩ := C89_converted_behaves trunc lib encode (.leaf d w b) _ (.single hw h1)
  obtain ⟨k1, hk1, e1⟩ := C89_converted_behaves trunc lib encode (.pipeline v' [(n', .leaf d w b)]) _
    (.pipeline (es := [q.est lib encode]) hv' (.cons (.single hw h1) .nil))
  rw [hk] at hk1
  cases hk1
  refine ⟨k0, k', hk0, hk', ?_⟩
  have : k.methods lib encode = k0.methods lib encode := by
    rw [e1, e0]
    exact pipeline_single _ _
  rw [← this]
  exact h

/-! ### Linear models behind a StandardScaler, with the formulas -/

theorem Fold.rates_back {m s r : List ℝ} (h0 : 0 ∉ s) (hm : m.length = s.length) (hr : r.length = s.length) :
    rates (m.zipWith (fun m s => (⟨1 / s, -m / s⟩ : Change)) s) (unscaled s r) = r := by
  induction s generalizing m r with
  | nil =>
    obtain rfl := List.length_eq_zero_iff.1 hr
    simp [rates, unscaled]
  | cons x s ih =>
    cases m with
    | nil => simp at hm
    | cons y m =>
      cases r with
      | nil => simp at hr
      | cons z r =>
        have hx : x ≠ 0 := fun e => h0 (by simp [e])
        have := ih (m := m) (r := r) (fun e => h0 (by simp [e])) (by simpa using hm) (by simpa using hr)
        simp only [rates, unscaled, List.zipWith_cons_cons] at this ⊢
        rw [this]
        congr 1
        field_simp

theorem Fold.drift_back {m s r : List ℝ} (h0 : 0 ∉ s) (hm : m.length = s.length) (hr : r.length = s.length) :
    drift (m.zipWith (fun m s => (⟨1 / s, -m / s⟩ : Change)) s) (unscaled s r) = -centring m s r := by
  induction s generalizing m r with
  | nil =>
    obtain rfl := List.length_eq_zero_iff.1 hr
    simp [drift, centring, unscaled]
  | cons x s ih =>
    cases m with
    | nil => simp at hm
    | cons y m =>
      cases r with
      | nil => simp at hr
      | cons z r =>
        have hx : x ≠ 0 := fun e => h0 (by simp [e])
        have := ih (m := m) (r := r) (fun e => h0 (by simp [e])) (by simpa using hm) (by simpa using hr)
        simp only [drift, centring, unscaled, List.zipWith_cons_cons, List.sum_cons] at this ⊢
        rw [this, neg_add]
        congr 1
        field_simp

/-- A linear model behind a StandardScaler, and the one that reads the unscaled columns. -/
theorem Fold.linear_recoded {k : LinKind} {m : Linear Ex (PVal Ex)} {mean scale : List ℝ} {W : List (List ℝ)} {b : List ℝ} (hl : mean.length = scale.length) (h0 : 0 ∉ scale)
    (hW : ∀ r ∈ W, r.length = scale.length) (hb : W.length = b.length) (e1 : m.coef = W.map (floats _)) (e2 : m.intercept = some (floats _ b)) :
    RecodedFit ((mean.zipWith (fun m s => (⟨1 / s, -m / s⟩ : Change)) scale).map Change.on)
      (.linear k { m with coef := W.map fun r => floats _ (unscaled scale r),
                          intercept := some (floats _ (W.zipWith (fun r x => x - centring mean scale r) b)) }) (.linear k m) := by
  have := RecodedFit.linear (fp := FP.exact) (cs := mean.zipWith (fun m s => (⟨1 / s, -m / s⟩ : Change)) scale) (k := k)
    (m := { m with coef := W.map fun r => floats _ (unscaled scale r),
                   intercept := some (floats _ (W.zipWith (fun r x => x - centring mean scale r) b)) })
    (W := W.map (unscaled scale)) (b := floats _ (W.zipWith (fun r x => x - centring mean scale r) b)) rfl ?_ ?_ (by simp) rfl
  · have h1 : (W.map (unscaled scale)).map (fun r => floats FP.exact (rates (mean.zipWith (fun m s => (⟨1 / s, -m / s⟩ : Change)) scale) r)) = m.coef := by
      rw [e1, List.map_map]
      refine List.map_congr_left fun r hr => ?_
      simp only [Function.comp]
      rw [Fold.rates_back h0 hl (hW r hr)]
    have h2 : (W.map (unscaled scale)).zipWith (fun r (x : Ex) => x -ₚ .fin (drift (mean.zipWith (fun m s => (⟨1 / s, -m / s⟩ : Change)) scale) r))
        (floats FP.exact (W.zipWith (fun r x => x - centring mean scale r) b)) = floats _ b := by
      clear this e1 e2 h1
      induction W generalizing b with
      | nil =>
        obtain rfl := List.length_eq_zero_iff.1 hb.symm
        rfl
      | cons r W ih =>
        cases b with
        | nil => simp at hb
        | cons x b =>
          have := ih (b := b) (fun r hr => hW r (by simp [hr])) (by simpa using hb)
          simp only [floats, List.map_cons, List.zipWith_cons_cons] at this ⊢
          rw [this, Fold.drift_back h0 hl (hW r (by simp)), XR.sub_exact]
          congr 2
          ring
    rw [h1, h2, ← e2] at this
    exact this
  · intro c hc
    obtain ⟨i, hi, rfl⟩ := List.getElem_of_mem hc
    rw [List.getElem_zipWith]
    refine one_div_ne_zero fun e => h0 ?_
    rw [← e]
    exact List.getElem_mem _
  · intro r hr
    obtain ⟨q, hq, rfl⟩ := List.mem_map.1 hr
    simp [unscaled, hW q hq, hl]

/-- **C117** for linear classifiers: behind a StandardScaler with these means and scales the model answers like the model without
scaler whose coefficients are divided by the scales, and whose intercepts are lowered by the scores of the means. -/
theorem C117_linear (trunc : Ex → Py Int) {v v' w : Option (List Char)} {n n' d : String} {a b b' : Attrs Ex} {k : LinKind} {m : Linear Ex (PVal Ex)}
    {mean scale : List ℝ} {W : List (List ℝ)} {icpt : List ℝ} (hv : ReadableVersion v) (hv' : ReadableVersion v') (hw : ReadableVersion w)
    (ha : Learned "StandardScaler" a (.standard ⟨true, true, some (floats _ scale), some (floats _ mean)⟩)) (hl : mean.length = scale.length) (h0 : 0 ∉ scale)
    (hm : Learned d b' (.linear k m)) (e1 : m.coef = W.map (floats _)) (e2 : m.intercept = some (floats _ icpt))
    (hW : ∀ r ∈ W, r.length = scale.length) (hi : W.length = icpt.length)
    (hb : Learned d b (.linear k { m with coef := W.map fun r => floats _ (unscaled scale r),
                                          intercept := some (floats _ (W.zipWith (fun r x => x - centring mean scale r) icpt)) })) :
    ∃ c c', convert (singles trunc initXgb) (.leaf d w b) = .ok c ∧
      convert (singles trunc initXgb) (.pipeline v' [(n, .leaf "StandardScaler" v a), (n', .leaf d w b')]) = .ok c' ∧
      SameAnswers scale.length (c.methods lib encode) (c'.methods lib encode) := by
  have := C117_one (lib := lib) (encode := encode) trunc (n := n) (n' := n') hv hv' hw ha (.standard hl h0) hb hm (Fold.linear_recoded hl h0 hW hi e1 e2)
  rw [List.length_zipWith, hl, Nat.min_self] at this
  exact this

/-! ### Trees behind a StandardScaler -/

/-- **C117** for one test of a tree: the scaled value is at most the threshold when the unscaled one is at most scale · threshold + mean. -/
theorem C117_threshold {mean scale : ℝ} (hs : 0 < scale) (thr : ℝ) (x : Ex) :
    ((Change.on ⟨1 / scale, -mean / scale⟩ x : Ex) ≤ₚ .fin thr) = (x ≤ₚ .fin (scale * thr + mean)) := by
  rw [← C108_threshold ⟨1 / scale, -mean / scale⟩ (one_div_pos.2 hs) (scale * thr + mean) x, exact_on_fin]
  congr 2
  show thr = 1 / scale * (scale * thr + mean) + -mean / scale
  field_simp
  ring

/-! ### Concrete cases -/

/-- a fitted StandardScaler of one column -/
def scalerOfOne {F : Type} [Arith F] (mean scale : F) : Attrs F :=
  [("with_mean", .bool true), ("with_std", .bool true), ("scale_", .ndarray (vnums [scale])), ("mean_", .ndarray (vnums [mean]))]

theorem scalerOfOne_learned {F : Type} [Arith F] (mean scale : F) :
    Learned "StandardScaler" (scalerOfOne mean scale) (.standard ⟨true, true, some [scale], some [mean]⟩) :=
  .standard (s := ⟨true, true, some [scale], some [mean]⟩) rfl rfl rfl rfl

/-- Mean 20 and scale 5, then logistic regression with coefficients 10, 15, -5 and intercepts 1, 2, 3; the same as coefficients 2, 3, -1 and
intercepts -39, -58, 23 without scaler. -/
example (trunc : Ex → Py Int) : let v := some "0.22".toList
    let clf := fun W b => SkObj.leaf "LogisticRegression" v (linearOf (F := Ex) (floats _ W) (floats _ b) (["a", "b", "c"].map PVal.str))
    ∃ c c', convert (singles trunc initXgb) (clf [2, 3, -1] [-39, -58, 23]) = .ok c ∧
      convert (singles trunc initXgb) (.pipeline v [("scale", .leaf "StandardScaler" v (scalerOfOne (.fin 20) (.fin 5))), ("clf", clf [10, 15, -5] [1, 2, 3])]) = .ok c' ∧
      SameAnswers 1 (c.methods lib encode) (c'.methods lib encode) := by
  intro v clf
  have h := C117_linear (lib := lib) (encode := encode) trunc (n := "scale") (n' := "clf") (d := "LogisticRegression") (k := .logistic) version_022 version_022 version_022
    (scalerOfOne_learned (F := Ex) (.fin 20) (.fin 5)) (mean := [20]) (scale := [5]) (W := [[10], [15], [-5]]) (icpt := [1, 2, 3]) rfl (by simp)
    (linearOf_learned (by simp [linearClasses]) (floats _ [10, 15, -5]) (floats _ [1, 2, 3]) (strings_plain ["a", "b", "c"])) rfl rfl (by simp) rfl
    (b := linearOf (floats _ [2, 3, -1]) (floats _ [-39, -58, 23]) (["a", "b", "c"].map PVal.str)) (by
      have := linearOf_learned (F := Ex) (c := "LogisticRegression") (k := .logistic) (by simp [linearClasses]) (floats _ [2, 3, -1]) (floats _ [-39, -58, 23]) (strings_plain ["a", "b", "c"])
      simp only [unscaled, centring, floats, Linear.ofFitted, List.map_cons, List.map_nil, List.zipWith_cons_cons, List.zipWith_nil_left, List.sum_cons, List.sum_nil] at this ⊢
      norm_num
      exact this)
  exact h

/-- Mean 20 and scale 5, then a forest with a tree that asks for at most 2; the same as asking for at most 30 without scaler. -/
example (trunc : Ex → Py Int) (d : Ex) (p q : List Ex) : let v := some "0.22".toList
    let forest := fun thr : ℝ => SkObj.ensemble .bagging v none [.str "x", .str "y"]
      [.leaf "DecisionTreeClassifier" v (arraysTree [1, -1, -1] [2, -1, -1] [0, -2, -2] [.fin thr, d, d] [p, p, q] [.str "x", .str "y"])]
    ∃ c c', convert (singles trunc initXgb) (.pipeline v [("forest", forest 30)]) = .ok c ∧
      convert (singles trunc initXgb) (.pipeline v [("scale", .leaf "StandardScaler" v (scalerOfOne (.fin 20) (.fin 5))), ("forest", forest 2)]) = .ok c' ∧
      SameAnswers 1 (c.methods lib encode) (c'.methods lib encode) := by
  intro v forest
  have hl := fun thr : ℝ => arraysTree_learned (F := Ex) [1, -1, -1] [2, -1, -1] [0, -2, -2] [.fin thr, d, d] [p, p, q] (strings_plain ["x", "y"])
  refine C117_folded (lib := lib) (encode := encode) trunc (n := "scale") version_022 (scalerOfOne_learned (F := Ex) (.fin 20) (.fin 5))
    (.standard (m := [20]) (s := [5]) rfl (by simp)) (.lastStep (.ensemble rfl fun r hr => ?_))
    (.pipeline (es := [_]) version_022 (.cons (.ensemble (es := [_]) version_022 ?_ (.cons (.single version_022 (hl 30)) .nil)) .nil))
  · simp only [List.zip_cons_cons, List.zip_nil_right, List.mem_cons, List.not_mem_nil, or_false] at hr
    subst hr
    refine .fit (hl 30) (hl 2) (.treeClassifier ⟨rfl, .node 0 (.fin 30) (.leaf p) (.leaf q), .node 0 (.fin 2) (.leaf p) (.leaf q), ?_, ?_, ?_⟩)
    · exact .node (l := 1) (r := 2) rfl rfl (by decide) rfl rfl (.leaf (a := -1) rfl rfl rfl) (.leaf (a := -1) rfl rfl rfl)
    · exact .node (l := 1) (r := 2) rfl rfl (by decide) rfl rfl (.leaf (a := -1) rfl rfl rfl) (.leaf (a := -1) rfl rfl rfl)
    · refine .node (φ := Change.on ⟨1 / 5, -20 / 5⟩) rfl (fun x => ?_) .leaf .leaf
      rw [C117_threshold (by norm_num)]
      norm_num
  · exact strings_plain ["x", "y"]

/-- **C117 is false of the code in double precision**: mean -2⁻⁵³, scale 1, coefficient 1 and intercept -1, so that folding needs no rounding. The scaler turns 1
into 1 (the exact 1 + 2⁻⁵³ is rounded), the score is 0 and the label "a"; the folded model has the intercept -1 + 2⁻⁵³, the score 2⁻⁵³ and the label "b". -/
theorem C117_false_rounding (trunc : XR FP.binary64 → Py Int) : let v := some "0.22".toList
    let clf := fun b : ℝ => SkObj.leaf "LinearSVC" v (linearOf [(.fin 1 : XR FP.binary64)] [.fin b] (["a", "b"].map PVal.str))
    ∃ c c' p p', convert (singles trunc initXgb) (.pipeline v [("scale", .leaf "StandardScaler" v (scalerOfOne (.fin (-2 ^ (-53 : ℤ))) (.fin 1))), ("clf", clf (-1))]) = .ok c ∧
      convert (singles trunc initXgb) (clf (-1 + 2 ^ (-53 : ℤ))) = .ok c' ∧
      (c.methods lib encode).predict = some p ∧ (c'.methods lib encode).predict = some p' ∧
      p (.arr (.ofMat [[.fin 1]])) = .ok [.str "a"] ∧ p' (.arr (.ofMat [[.fin 1]])) = .ok [.str "b"] := by
  intro v clf
  have hl := fun b : ℝ => linearOf_learned (F := XR FP.binary64) (c := "LinearSVC") (k := .plain) (by simp [linearClasses]) [.fin 1] [.fin b] (strings_plain ["a", "b"])
  have hb : Behaves lib encode (.pipeline v [("scale", .leaf "StandardScaler" v (scalerOfOne (.fin (-2 ^ (-53 : ℤ)) : XR FP.binary64) (.fin 1))), ("clf", clf (-1))]) _ :=
    .pipeline (es := [_, _]) version_022 (.cons (.single version_022 (scalerOfOne_learned _ _)) (.cons (.single version_022 (hl (-1))) .nil))
  obtain ⟨c, hc, e⟩ := C89_converted_behaves trunc lib encode _ _ hb
  obtain ⟨c', hc', e'⟩ := C89_converted_behaves trunc lib encode _ _ (.single version_022 (hl (-1 + 2 ^ (-53 : ℤ))))
  have rep : ∀ x : ℝ, B64.Representable x → |x| ≤ 1 → (XR.round x : XR FP.binary64) = .fin x := fun x hx h1 =>
    round_small (B64.rndFin_of_representable hx) (h1.trans (by norm_num))
  have z : (ofInt 0 : XR FP.binary64) = .fin 0 := XR.ofInt_zero FP.binary64_sound
  have add : ∀ a b c : ℝ, (XR.round (a + b) : XR FP.binary64) = .fin c → ((.fin a : XR FP.binary64) +ₚ .fin b) = .fin c := fun a b c h => h
  have r0 : (XR.round 0 : XR FP.binary64) = .fin 0 := rep 0 ⟨0, 0, by norm_num, by norm_num, by norm_num⟩ (by norm_num)
  have r1 : (XR.round 1 : XR FP.binary64) = .fin 1 := rep 1 ⟨1, 0, by norm_num, by norm_num, by norm_num⟩ (by norm_num)
  have m1 : (.fin 1 : XR FP.binary64) *ₚ .fin 1 = .fin 1 := by
    show XR.round (1 * 1) = _
    rw [mul_one, r1]
  have a1 : (.fin 0 : XR FP.binary64) +ₚ .fin 1 = .fin 1 := add _ _ _ (by rw [zero_add, r1])
  have lab : ∀ b r : ℝ, (XR.round (1 + b) : XR FP.binary64) = .fin r →
      (Linear.ofFitted (([.fin 1] : List (XR FP.binary64)).map fun x => [x]) (["a", "b"].map (PVal.str (F := XR FP.binary64))) (some (.vector [.fin b])) (some "multinomial") (some "lbfgs") none).predict (.ofMat [[.fin 1]]) =
      .ok [PVal.str (F := XR FP.binary64) (if 0 < r then "b" else "a")] := by
    intro b r hr
    have s : (Linear.ofFitted (([.fin 1] : List (XR FP.binary64)).map fun x => [x]) (["a", "b"].map (PVal.str (F := XR FP.binary64))) (some (.vector [.fin b])) (some "multinomial") (some "lbfgs") none).decisionFunction (.ofMat [[.fin 1]]) =
        .ok (.flat [(ofInt 0 +ₚ ((.fin 1 : XR FP.binary64) *ₚ .fin 1)) +ₚ .fin b]) := rfl
    unfold Linear.predict
    rw [s, z, m1, a1, add _ _ _ hr, py_ok_bind]
    simp only [mapM_cons', mapM_nil']
    have lt : ((.fin 0 : XR FP.binary64) <ₚ .fin r) = decide (0 < r) := rfl
    rw [lt]
    by_cases h : 0 < r
    · simp only [h, decide_true, if_true]
      rfl
    · simp only [h, decide_false, if_false]
      rfl
  have sc : (⟨true, true, some [.fin 1], some [.fin (-2 ^ (-53 : ℤ))]⟩ : StandardScaler (XR FP.binary64)).transform (.ofMat [[.fin 1]]) = .ok (.ofMat [[.fin 1]]) := by
    rw [standard_run _ (by simp)]
    simp only [if_true, notNone, py_ok_bind]
    rw [show ([.fin (-2 ^ (-53 : ℤ))] : List (XR FP.binary64)) = floats _ [-2 ^ (-53 : ℤ)] from rfl, columnwise_sub (by intro r hr; simp at hr; simp [hr]), py_ok_bind,
      show ([.fin 1] : List (XR FP.binary64)) = floats _ [1] from rfl, columnwise_div (by simp) (by intro r hr; simp [floats] at hr; simp [hr])]
    have h1 : (.fin 1 : XR FP.binary64) -ₚ .fin (-2 ^ (-53 : ℤ)) = .fin 1 := by
      show XR.round (1 + - -2 ^ (-53 : ℤ)) = _
      rw [neg_neg]
      exact round_small B64.tie_one (by norm_num)
    have h2 : quotOr (.fin 1 : XR FP.binary64) (.fin 1) = .fin 1 := quotOr_of (by
      show ((.fin 1 : XR FP.binary64) /ₚ .fin 1) = _
      rw [XR.div_fin, if_neg (by norm_num), div_one, r1])
    simp only [floats, List.map_cons, List.map_nil, List.zipWith_cons_cons, List.zipWith_nil_left, h1, h2, py_ok_bind]
    rfl
  have e2 := e.trans (Fold.first_step "scale" _ (t := _) rfl [("clf", _)] (by simp))
  rw [pipeline_single] at e2
  refine ⟨c, c', _, _, hc, hc', by rw [e2]; rfl, by rw [e']; rfl, ?_, ?_⟩
  · have := lab (-1) 0 (by rw [add_neg_cancel, r0])
    rw [if_neg (lt_irrefl _)] at this
    show ((StandardScaler.transform _ _ >>= fun A => pure (Data.arr A)) >>= _) = _
    rw [sc]
    exact this
  · have := lab (-1 + 2 ^ (-53 : ℤ)) (2 ^ (-53 : ℤ)) (by
      rw [show (1 : ℝ) + (-1 + 2 ^ (-53 : ℤ)) = 2 ^ (-53 : ℤ) by ring]
      exact rep _ ⟨1, -53, by norm_num, by norm_num, by norm_num⟩ (by norm_num))
    rw [if_pos (by positivity)] at this
    exact this

end PurePredict
