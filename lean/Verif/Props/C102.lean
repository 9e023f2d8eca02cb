import Verif.Lemmas.UnreadObject
import Verif.Props.C101
/-
C102: what no part of a fitted object reads (columns no tree tests, finite values of columns with coefficient zero, words
outside a vocabulary, unknown keys of mappings) has no influence on the answers, through any nesting of objects.
-/
namespace PurePredict
open Spec
variable {lib : String → TextLib} {encode : Str → List Nat} {fp : FP}

section
variable (trunc : XR fp → Py Int)

/-- **C102** in any floating point arithmetic: a fitted object is converted, and the converted object gives two requests
that differ only in what it does not read answers with so much in common. -/
theorem C102_unread {o : SkObj (Attrs (XR fp)) (PVal (XR fp)) (XR fp)} {R : Data (XR fp) → Data (XR fp) → Prop} {k : Kept}
    (h : Unread lib o R k) {f : Methods (XR fp)} (hb : Behaves lib encode o f) :
    ∃ c, convert (singles trunc initXgb) o = .ok c ∧ Blind (c.methods lib encode) R k := by
  obtain ⟨c, hc, rfl⟩ := C89_converted_behaves trunc lib encode o f hb
  exact ⟨c, hc, behaves_blind h hb⟩

/-- **C102** for two matrices: whichever methods the converted object has, they answer alike, with the same exception if
there is one. -/
theorem C102_columns {o : SkObj (Attrs (XR fp)) (PVal (XR fp)) (XR fp)} {ws : List Col} (h : Unread lib o (SameColumns ws) .all)
    {f : Methods (XR fp)} (hb : Behaves lib encode o f) :
    ∃ c, convert (singles trunc initXgb) o = .ok c ∧ ∀ M N : List (List (XR fp)), M ≠ [] → List.Forall₂ (AgreeOn ws) M N →
      (∀ p, (c.methods lib encode).predict = some p → p (.arr (.ofMat M)) = p (.arr (.ofMat N))) ∧
      (∀ q, (c.methods lib encode).predictProba = some q → q (.arr (.ofMat M)) = q (.arr (.ofMat N))) ∧
      (∀ q, (c.methods lib encode).predictLogProba = some q → q (.arr (.ofMat M)) = q (.arr (.ofMat N))) ∧
      ∀ t, (c.methods lib encode).transform = some t → t (.arr (.ofMat M)) = t (.arr (.ofMat N)) := by
  obtain ⟨c, hc, hB⟩ := C102_unread (lib := lib) (encode := encode) trunc h hb
  refine ⟨c, hc, fun M N hne hMN => ?_⟩
  obtain ⟨h1, h2, h3, h4⟩ := hB _ _ (.mk ⟨hne, hMN⟩)
  exact ⟨h2, h3, h4, h1⟩

/-- **C102** for pipelines that begin with a CountVectorizer, whatever follows: documents with the same vocabulary words in
the same order are answered alike. -/
theorem C102_text {v v' : Option (List Char)} {n : String} {c : String} {a : Attrs (XR fp)} {p : String} {s : CountVectorizer} {words : Str → List Str}
    (hl : Learned c a (.count p s)) (hw : buildAnalyzer (lib p) s.opts = .ok words) (rest : List (String × SkObj (Attrs (XR fp)) (PVal (XR fp)) (XR fp)))
    {f : Methods (XR fp)} (hb : Behaves lib encode (.pipeline v ((n, .leaf c v' a) :: rest)) f) :
    ∃ r, convert (singles trunc initXgb) (.pipeline v ((n, .leaf c v' a) :: rest)) = .ok r ∧ ∀ ds es : List Str, ds ≠ [] →
      List.Forall₂ (fun d e => (words d).filter (fun w => (s.vocabulary.get? w).isSome) = (words e).filter fun w => (s.vocabulary.get? w).isSome) ds es →
      (∀ p, (r.methods lib encode).predict = some p → p (.docs ds) = p (.docs es)) ∧
      ∀ q, (r.methods lib encode).predictProba = some q → q (.docs ds) = q (.docs es) := by
  have hu : Unread lib (.pipeline v ((n, .leaf c v' a) :: rest)) (SameWords words fun w => (s.vocabulary.get? w).isSome) .all := by
    cases rest with
    | nil => exact .lastStep (.count hl hw)
    | cons _ _ => exact .firstAll (.count hl hw)
  obtain ⟨r, hr, hB⟩ := C102_unread (lib := lib) (encode := encode) trunc hu hb
  exact ⟨r, hr, fun ds es hne h => ⟨(hB _ _ (.mk hne h)).2.1, (hB _ _ (.mk hne h)).2.2.1⟩⟩

/-- **C102** for pipelines that begin with a DictVectorizer, whatever follows: adding, removing and changing unknown features
of mappings changes no answer. -/
theorem C102_mappings {v v' : Option (List Char)} {n : String} {c : String} {a : Attrs (XR fp)} {s : DictVectorizer}
    (hl : Learned c a (.dictVec s)) (rest : List (String × SkObj (Attrs (XR fp)) (PVal (XR fp)) (XR fp)))
    {f : Methods (XR fp)} (hb : Behaves lib encode (.pipeline v ((n, .leaf c v' a) :: rest)) f) :
    ∃ r, convert (singles trunc initXgb) (.pipeline v ((n, .leaf c v' a) :: rest)) = .ok r ∧ ∀ xs ys : List (List (Str × FeatVal (XR fp))), xs ≠ [] →
      List.Forall₂ (fun x y => x.filter (fun kv => (s.vocabulary.get? (entryName s.separator kv)).isSome) =
        y.filter fun kv => (s.vocabulary.get? (entryName s.separator kv)).isSome) xs ys →
      (∀ p, (r.methods lib encode).predict = some p → p (.records (.many xs)) = p (.records (.many ys))) ∧
      ∀ q, (r.methods lib encode).predictProba = some q → q (.records (.many xs)) = q (.records (.many ys)) := by
  have hu : Unread lib (.pipeline v ((n, .leaf c v' a) :: rest)) (SameEntries s.separator fun n => (s.vocabulary.get? n).isSome) .all := by
    cases rest with
    | nil => exact .lastStep (.dictVec hl)
    | cons _ _ => exact .firstAll (.dictVec hl)
  obtain ⟨r, hr, hB⟩ := C102_unread (lib := lib) (encode := encode) trunc hu hb
  exact ⟨r, hr, fun xs ys hne h => ⟨(hB _ _ (.mk hne h)).2.1, (hB _ _ (.mk hne h)).2.2.1⟩⟩

/-- **C102** for forests (and bagging without feature subsets) of trees grown by scikit-learn: only the columns tested in some
tree matter. In the others anything may stand, NaN and infinities included. -/
theorem C102_forest {kd : EnsKind} {v : Option (List Char)} {cs : List (PVal (XR fp))} {ms : List (SkObj (Attrs (XR fp)) (PVal (XR fp)) (XR fp))}
    (tested : Nat → Prop) (width : Nat)
    (hm : ∀ m ∈ ms, ∃ (c : String) (v : Option (List Char)) (e : Attrs (XR fp)) (s : SkTree (XR fp)) (labels : List (PVal (XR fp))),
      m = .leaf c v e ∧ (c = "DecisionTreeClassifier" ∨ c = "ExtraTreeClassifier") ∧ HoldsTree e s ∧ HasLabels e labels ∧
      (∀ a ∈ s.values, a ≠ []) ∧ ∀ f ∈ s.features, tested f ∧ f < width)
    {f : Methods (XR fp)} (hb : Behaves lib encode (.ensemble kd v none cs ms) f) :
    ∃ c p q, convert (singles trunc initXgb) (.ensemble kd v none cs ms) = .ok c ∧ (c.methods lib encode).predict = some p ∧
      (c.methods lib encode).predictProba = some q ∧ ∀ M N : List (List (XR fp)), M ≠ [] →
        List.Forall₂ (fun x y => x.length = width ∧ y.length = width ∧ ∀ i, tested i → x[i]? = y[i]?) M N →
        p (.arr (.ofMat M)) = p (.arr (.ofMat N)) ∧ q (.arr (.ofMat M)) = q (.arr (.ofMat N)) := by
  classical
  have hu : Unread lib (.ensemble kd v none cs ms) (SameColumns ((List.range width).map fun i => if tested i then Col.read else .free)) .all := by
    refine .ensemble fun m hm' => ?_
    obtain ⟨c, v, e, s, labels, rfl, hc, he, hl, hv, hf⟩ := hm m hm'
    obtain ⟨t, h1, h2, -⟩ := Tree.ofSklearn_encodes s hv (some labels) [.int 0, .int 1]
    refine .columnsAll (.treeClassifier (cs := some _) hc he hl h1) (.treeClassifier ⟨s.first, h2, fun f hfm => ?_⟩)
    rw [SkTree.first_features] at hfm
    obtain ⟨a, b⟩ := hf f hfm
    rw [List.getElem?_map, List.getElem?_range b]
    simp [a]
  obtain ⟨c, hc, hB⟩ := C102_columns (lib := lib) (encode := encode) trunc hu hb
  obtain ⟨c', hc', e⟩ := C89_converted_behaves trunc lib encode _ f hb
  rw [hc] at hc'
  cases hc'
  cases hb with
  | @ensemble _ _ _ _ _ es _ _ _ =>
    refine ⟨c, _, _, hc, by rw [e]; rfl, by rw [e]; rfl, fun M N hne hMN => ?_⟩
    have := hB M N hne (hMN.imp fun x y hxy => ?_)
    · exact ⟨this.1 _ (by rw [e]; rfl), this.2.1 _ (by rw [e]; rfl)⟩
    · obtain ⟨h1, h2, h3⟩ := hxy
      have key : ∀ (k : Nat) (x y : List (XR fp)), (∀ i, tested (k + i) → x[i]? = y[i]?) → ∀ w, x.length = w → y.length = w →
          AgreeOn ((List.range' k w).map fun i => if tested i then Col.read else .free) x y := by
        intro k x
        induction x generalizing k with
        | nil => intro y _ w h1 h2; subst h1; rw [List.length_eq_zero_iff.1 h2]; exact .nil
        | cons a x ih =>
          intro y h w h1 h2
          cases y with
          | nil => subst h1; simp at h2
          | cons b y =>
            subst h1
            rw [List.length_cons, List.range'_succ, List.map_cons]
            refine .cons ?_ (ih (k + 1) y (fun i hi => ?_) _ rfl (by simpa using h2))
            · by_cases ht : tested k
              · rw [if_pos ht]
                have := h 0 ht
                simpa [Col.Rel] using this
              · rw [if_neg ht]
                trivial
            · have := h (i + 1) (by rwa [show k + (i + 1) = k + 1 + i by omega])
              simpa using this
      rw [List.range_eq_range']
      exact key 0 x y (fun i hi => h3 i (by simpa using hi)) width h1 h2

end

/-! ### What this takes: finite values in columns with coefficient zero -/

/-- A linear model with coefficients 1 and 0 and intercept 0. -/
noncomputable def zeroWeight (fp : FP) : Linear (XR fp) (PVal (XR fp)) := ⟨[[.fin 1, .fin 0]], [.int 0, .int 1], some [.fin 0], none, none, none⟩

/-- **C102** (why columns with coefficient zero are idle and not free): an infinity or NaN in a column with coefficient zero
turns the score into NaN, and records labelled 1 by their other columns get label 0. -/
theorem C102_zero_coefficient_reads_nan (hs : fp.Sound) (h1 : fp.rnd 1 = (1 : EReal)) :
    (∀ bad : XR fp, (∀ r : ℝ, bad ≠ .fin r) → (zeroWeight fp).decisionFunction (.ofMat [[.fin 1, bad]]) = .ok (.flat [.nan]) ∧
      (zeroWeight fp).predict (.ofMat [[.fin 1, bad]]) = .ok [.int 0]) ∧
    ∀ r : ℝ, (zeroWeight fp).decisionFunction (.ofMat [[.fin 1, .fin r]]) = .ok (.flat [.fin 1]) ∧
      (zeroWeight fp).predict (.ofMat [[.fin 1, .fin r]]) = .ok [.int 1] := by
  have score : ∀ b : XR fp, (zeroWeight fp).decisionFunction (.ofMat [[.fin 1, b]]) =
      .ok (.flat [(((ofInt 0 : XR fp) +ₚ (.fin 1 *ₚ .fin 1)) +ₚ (b *ₚ .fin 0)) +ₚ .fin 0]) := fun b => rfl
  have lab : ∀ {b s : XR fp}, (zeroWeight fp).decisionFunction (.ofMat [[.fin 1, b]]) = .ok (.flat [s]) →
      (zeroWeight fp).predict (.ofMat [[.fin 1, b]]) = .ok [if ofInt 0 <ₚ s then .int 1 else .int 0] := by
    intro b s h
    rw [Linear.predict, h]
    show ([s].mapM fun x => pyGet [PVal.int 0, .int 1] (if ofInt 0 <ₚ x then 1 else 0)) = _
    rw [mapM_ok_map (g := fun x => if ofInt 0 <ₚ x then PVal.int 1 else .int 0) fun x _ => by split <;> rfl]
    rfl
  have r1 : (XR.round 1 : XR fp) = .fin 1 := XR.round_rep (by simpa using h1)
  have r0 : (XR.round 0 : XR fp) = .fin 0 := by
    have := XR.ofInt_zero hs
    exact XR.round_rep (by simpa using hs.zero)
  have one : ((ofInt 0 : XR fp) +ₚ (.fin 1 *ₚ .fin 1)) = .fin 1 := by
    rw [XR.ofInt_zero hs]
    show XR.add _ (XR.round (1 * 1)) = _
    rw [mul_one, r1]
    show XR.round (0 + 1) = _
    rw [zero_add, r1]
  constructor
  · intro bad hbad
    have : (zeroWeight fp).decisionFunction (.ofMat [[.fin 1, bad]]) = .ok (.flat [.nan]) := by
      rw [score, one]
      cases bad with
      | fin r => exact absurd rfl (hbad r)
      | nan => rfl
      | pinf => simp [Arith.mul, XR.mul, XR.infMul, Arith.add, XR.add]
      | ninf => simp [Arith.mul, XR.mul, XR.infMul, Arith.add, XR.add]
    refine ⟨this, ?_⟩
    rw [lab this, XR.ofInt_zero hs]
    rfl
  · intro r
    have : (zeroWeight fp).decisionFunction (.ofMat [[.fin 1, .fin r]]) = .ok (.flat [.fin 1]) := by
      rw [score, one]
      show Except.ok (Scores.flat [XR.add (XR.add (.fin 1) (XR.round (r * 0))) (.fin 0)]) = _
      rw [mul_zero, r0]
      show Except.ok (Scores.flat [XR.add (XR.round (1 + 0)) (.fin 0)]) = _
      rw [add_zero, r1]
      show Except.ok (Scores.flat [XR.round (1 + 0)]) = _
      rw [add_zero, r1]
    refine ⟨this, ?_⟩
    rw [lab this, XR.ofInt_zero hs, XR.lt_fin]
    simp

/-! ### Non-vacuity -/

/-- a tree that tests the first of three columns -/
theorem riseStump_features {u v : List (XR fp)} : (riseStump u v).features = [0] := rfl

/-- A forest of two such trees: the second and third columns may hold anything. -/
example (trunc : XR FP.binary64 → Py Int) :=
  have hl : HasLabels (riseTree (riseStump (fp := FP.binary64) [.fin 3, .fin 1] [.fin 1, .fin 3]) [("classes_", .ndarray (.list [.int 0, .int 1]))]) [.int 0, .int 1] := ⟨rfl, by
    intro c hc
    simp only [List.mem_cons, List.not_mem_nil, or_false] at hc
    rcases hc with rfl | rfl <;> exact .int _⟩
  have member : Behaves lib encode (.leaf "DecisionTreeClassifier" (some "0.22".toList)
      (riseTree (riseStump (fp := FP.binary64) [.fin 3, .fin 1] [.fin 1, .fin 3]) [("classes_", .ndarray (.list [.int 0, .int 1]))])) _ :=
    .single version_022 (.treeClassifier (cs := some _) (.inl rfl) (riseTree_holds _ _) hl
      (Tree.ofSklearn_encodes (riseStump (fp := FP.binary64) [.fin 3, .fin 1] [.fin 1, .fin 3]) (by simp [riseStump, SkTree.values]) (some [PVal.int 0, .int 1]) [.int 0, .int 1]).choose_spec.1)
  C102_forest (lib := lib) (encode := encode) trunc (kd := .randomForest) (tested := fun i => i = 0) (width := 3) (fun m hm => by
    simp only [List.mem_cons, List.not_mem_nil, or_false, or_self] at hm
    exact ⟨_, _, _, _, _, hm, .inl rfl, riseTree_holds _ _, hl, by simp [riseStump, SkTree.values], fun f hf => by
      rw [riseStump_features, List.mem_singleton] at hf
      exact ⟨hf, by omega⟩⟩)
    (.ensemble version_022 hl.2 (.cons member (.cons member .nil)))

/-- A bagging ensemble on columns 2 and 0 of three: its member tests the second of those it gets. -/
example (hl : HasLabels (riseTree (riseStump (fp := FP.binary64) [.fin 3, .fin 1] [.fin 1, .fin 3]) [("classes_", .ndarray (.list [.int 0, .int 1]))]) [.int 0, .int 1]) :
    Unread (fp := FP.binary64) lib (.ensemble .bagging (some "0.22".toList) (some [[2, 0]]) [.int 0, .int 1] [.leaf "DecisionTreeClassifier" (some "0.22".toList)
      (riseTree (riseStump (fp := FP.binary64) [.fin 3, .fin 1] [.fin 1, .fin 3]) [("classes_", .ndarray (.list [.int 0, .int 1]))])])
      (SameColumns [.free, .free, .read]) .all := by
  refine .subspaces (by simp) fun p hp => ?_
  simp only [List.zip_cons_cons, List.zip_nil_right, List.mem_singleton] at hp
  subst hp
  obtain ⟨t, h1, h2, -⟩ := Tree.ofSklearn_encodes (riseStump (fp := FP.binary64) [.fin 3, .fin 1] [.fin 1, .fin 3]) (by simp [riseStump, SkTree.values])
    (some [PVal.int 0, .int 1]) [.int 0, .int 1]
  refine .columnsAll (.treeClassifier (cs := some _) (.inl rfl) (riseTree_holds _ _) hl h1) (.treeClassifier ⟨_, h2, fun f hf => ?_⟩)
  rw [SkTree.first_features, riseStump_features, List.mem_singleton] at hf
  subst hf
  rfl

/-- Gradient boosting of a stump on the first of two columns, with the default initial estimator. -/
example : Unread (fp := FP.binary64) lib (.boosting (some "0.22".toList) [.int 0, .int 1]
    [[.leaf "DecisionTreeRegressor" (some "0.22".toList) (riseTree (riseStump (fp := FP.binary64) [.fin (-1)] [.fin 2]) [])]]
    (.leaf "DummyClassifier" (some "0.22".toList) floatInit) "exponential" [.float (.fin (1 / 10)), .int (2 : Nat)])
    (SameColumns [.read, .free]) .all := by
  refine .boosting (fun st hst m hm => ?_)
    (.columnsAll (s := .dummy ⟨[.fin (1 / 2), .fin (1 / 2)]⟩) (.dummy (.inr ⟨rfl, rfl⟩) rfl ⟨_, rfl, .int _⟩ ⟨_, rfl, .int _⟩) .dummy)
  rw [List.mem_singleton.1 hst] at hm
  rw [List.mem_singleton.1 hm]
  obtain ⟨t, h1, h2, -⟩ := Tree.ofSklearn_encodes (riseStump (fp := FP.binary64) [.fin (-1)] [.fin 2]) (by simp [riseStump, SkTree.values])
    none [PVal.int 0, .int 1]
  refine .columnsAll (.treeRegressor (cs := none) (.inl rfl) (riseTree_holds _ _) (.inl rfl) h1) (.treeRegressor ⟨_, h2, fun f hf => ?_⟩)
  rw [SkTree.first_features, riseStump_features, List.mem_singleton] at hf
  subst hf
  rfl

/-- A scaler and a linear model of exact numbers with coefficient zero for the second column, in a pipeline. -/
example (b c : ℝ) : Unread (fp := FP.exact) lib (.pipeline (some "0.22".toList) [("scale", .leaf "StandardScaler" (some "0.22".toList) demoScaling),
    ("clf", .leaf "RidgeClassifier" (some "0.22".toList) (demoRidge (.fin b) (.fin 0) (.fin c)))]) (SameColumns [.read, .idle]) .all := by
  have hp : ∀ a b : ℝ, PerColumn (fp := FP.exact) [.read, .idle] [.fin a, .fin b] := fun a b =>
    ⟨rfl, fun _ => ⟨fun r => ⟨r, rfl⟩, by simp⟩⟩
  refine .firstStep (.columns demoScaling_learned (.standard (fun _ => ⟨_, rfl, hp _ _⟩) fun _ => ⟨_, rfl, hp _ _⟩))
    (.lastStep (.columnsAll (demoRidge_learned _ _ _) (.linear fun w hw => ?_)))
  simp only [Linear.ofFitted, List.mem_singleton] at hw
  subst hw
  exact .read (.idle .nil)

/-- Mappings vectorised by two vectorizers side by side: only the keys x and y matter. -/
example (a b c : XR fp) : Unread lib (demoServed a b c) (SameEntries ['='] fun n => decide (n = ['x'] ∨ n = ['y'])) .all := by
  have sub : ∀ {α : Type} {p q : α → Bool} {l m : List α}, (∀ a, q a = true → p a = true) → l.filter p = m.filter p → l.filter q = m.filter q := by
    intro α p q l m hpq h
    have := congrArg (List.filter q) h
    rw [List.filter_filter, List.filter_filter] at this
    have e : (fun a => q a && p a) = q := funext fun a => by
      cases hq : q a with
      | false => rfl
      | true => rw [hpq a hq]; rfl
    rwa [e] at this
  have one : ∀ (name : String) (sp : Bool), name.toList = ['x'] ∨ name.toList = ['y'] →
      Unread lib (.leaf "DictVectorizer" (some "0.22".toList) (demoNames (F := XR fp) name sp))
        (SameEntries ['='] fun n => decide (n = ['x'] ∨ n = ['y'])) .all := by
    intro name sp hn
    refine .weaken ?_ (.dictVec (demoNames_learned name sp))
    intro X Y h
    cases h with
    | mk hne h =>
      refine .mk hne (h.imp fun x y hxy => sub (fun kv hk => ?_) hxy)
      have : entryName ['='] kv = name.toList := by
        by_contra hne
        have hb : (entryName ['='] kv == name.toList) = false := by simpa using hne
        simp [Dict.get?, List.lookup, hb] at hk
      rw [this]
      simpa using hn
  refine .firstAll (.unionAll (by simp) ?_ fun s hs => ?_)
  · intro X Y h
    cases h with
    | @mk xs ys hne h =>
      refine ⟨xs.length, .mappings hne, ?_⟩
      rw [h.length_eq]
      exact .mappings fun e => hne (by rw [e] at h; cases h; rfl)
  · simp only [List.mem_cons, List.not_mem_nil, or_false] at hs
    rcases hs with rfl | rfl
    · exact one _ _ (.inl rfl)
    · exact one _ _ (.inr rfl)

/-- A text classifier and documents with the same words among "cat" and "dog". -/
example : ∃ words, buildAnalyzer plainLib plainOpts = .ok words ∧ Unread (fun _ => plainLib) (.pipeline (some "0.22".toList) [("tfidf", .leaf "TfidfVectorizer" (some "0.22".toList) demoText),
    ("clf", .leaf "LogisticRegression" (some "0.22".toList) demoLogistic)]) (SameWords words fun w => (catDog.get? w).isSome) .all :=
  ⟨_, plain_analyzer, .firstAll (.tfidfVec demoText_learned plain_analyzer)⟩

/-- An imputer drops a column without a statistic, which is then free. -/
example (m : XR fp) : imputedCols (⟨[.fin 3, .nan], false, false, m, none⟩ : SimpleImputer (XR fp)) [.read, .free] = [.read] := by
  simp [imputedCols, Arith.isnan, XR.isnan]

end PurePredict
