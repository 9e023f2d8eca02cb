import Verif.Lemmas.AnsweredObject
import Verif.Props.C90
/-
C99: well-formed requests are answered.
-/
namespace PurePredict
open Spec
variable {lib : String → TextLib} {encode : Str → List Nat}

section
variable (trunc : Ex → Py Int)

/-- **C99**, exact arithmetic: a fitted object whose parts have parameters for a kind of requests is converted, and
the converted object answers every request of that kind, without raising, with a reply of the stated kind, one entry
for each record: a matrix of the stated width and layout; labels among the classes together with rows of probabilities
that are distributions over the classes and as many rows of log-probabilities; or finite numbers. -/
theorem C99_every_request_answered {o : SkObj (Attrs Ex) (PVal Ex) Ex} {A : Ask} {r : Reply} (h : Ready o A r) {f : Methods Ex}
    (hb : Behaves lib encode o f) :
    ∃ c, convert (singles trunc initXgb) o = .ok c ∧ Delivered (c.methods lib encode) A r := by
  obtain ⟨c, hc, rfl⟩ := C89_converted_behaves trunc lib encode o f hb
  exact ⟨c, hc, behaves_delivered h hb⟩

/-- **C99** for classifiers, spelled out: `predict` returns as many labels as there are records, each of them one of the
classes; `predict_proba` as many rows, each with an entry for each class, none negative, of sum one. -/
theorem C99_classifiers {o : SkObj (Attrs Ex) (PVal Ex) Ex} {A : Ask} {cs : List (PVal Ex)} {k : Nat} (h : Ready o A (.labels cs (some k)))
    {f : Methods Ex} (hb : Behaves lib encode o f) :
    ∃ c p q, convert (singles trunc initXgb) o = .ok c ∧ (c.methods lib encode).predict = some p ∧
      (c.methods lib encode).predictProba = some q ∧ ∀ X n, A.Holds X n →
        (∃ ls, p X = .ok ls ∧ ls.length = n ∧ ∀ l ∈ ls, l ∈ cs) ∧
        ∃ P : List (List ℝ), q X = .ok (P.map fun a => a.map .fin) ∧ P.length = n ∧
          ∀ a ∈ P, a.length = k ∧ (∀ x ∈ a, 0 ≤ x) ∧ a.sum = 1 := by
  obtain ⟨c, hc, ⟨p, hp, h1⟩, h2⟩ := C99_every_request_answered trunc h hb
  obtain ⟨⟨q, hq, h3⟩, -⟩ := h2 k rfl
  exact ⟨c, p, q, hc, hp, hq, fun X n hX => ⟨h1 X n hX, h3 X n hX⟩⟩

/-- **C99** for transformers, spelled out: from `n` records a matrix with `n` rows and `w` columns of finite numbers, dense
or sparse as the layout says. -/
theorem C99_transformers {o : SkObj (Attrs Ex) (PVal Ex) Ex} {A : Ask} {l : Layout} {w : Nat} (h : Ready o A (.form (.matrix l w)))
    {f : Methods Ex} (hb : Behaves lib encode o f) :
    ∃ c t, convert (singles trunc initXgb) o = .ok c ∧ (c.methods lib encode).transform = some t ∧ ∀ X n, A.Holds X n →
      ∃ Y M, t X = .ok (.arr Y) ∧ Shows .exact Y w M ∧ M.length = n ∧ l.Fits Y.issparse ∧
        ∀ r ∈ M, r.length = w ∧ ∀ x ∈ r, ∃ a, x = .fin a := by
  obtain ⟨c, hc, t, ht, h1⟩ := C99_every_request_answered trunc h hb
  refine ⟨c, t, hc, ht, fun X n hX => ?_⟩
  obtain ⟨Y, e1, e2⟩ := h1 X n hX
  cases e2 with
  | @matrix B _ _ M n g1 g2 g3 => exact ⟨B, M, e1, g1, g3, g2, fun r hr => ⟨g1.rect.2 r hr, g1.entries r hr⟩⟩

end

/-! ### Trees as scikit-learn grows them -/

theorem layout_nodes {F : Type} [Arith F] (s : SkTree F) (n i : Nat) (nd : SkNode F) (h : (s.layout n)[i]? = some nd) :
    (nd.left = -1 ∧ nd.right = -1 ∧ nd.value ∈ s.values) ∨
    ∃ l r f : Nat, nd.left = l ∧ nd.right = r ∧ nd.feature = f ∧ l ≠ r ∧ n + i < l ∧ n + i < r ∧ l < n + s.size ∧
      r < n + s.size ∧ f ∈ s.features := by
  induction s generalizing n i with
  | leaf v =>
    cases i with
    | zero => cases h; exact .inl ⟨rfl, rfl, by simp [SkTree.values]⟩
    | succ i => cases h
  | split v f thr l r ihl ihr =>
    have p1 : 0 < l.size := by cases l <;> simp [SkTree.size] <;> omega
    have p2 : 0 < r.size := by cases r <;> simp [SkTree.size] <;> omega
    cases i with
    | zero =>
      simp only [SkTree.layout, List.getElem?_cons_zero, Option.some.injEq] at h
      subst h
      refine .inr ⟨_, _, _, rfl, rfl, rfl, ?_, ?_, ?_, ?_, ?_, by simp [SkTree.features]⟩ <;> (try simp only [SkTree.size]) <;> omega
    | succ i =>
      simp only [SkTree.layout, List.getElem?_cons_succ] at h
      by_cases hi : i < l.size
      · rw [List.getElem?_append_left (by rw [SkTree.layout_length]; exact hi)] at h
        rcases ihl _ _ h with ⟨a, b, c⟩ | ⟨x, y, z, a, b, c, d, e1, e2, e3, e4, e5⟩
        · exact .inl ⟨a, b, by simp [SkTree.values, c]⟩
        · refine .inr ⟨x, y, z, a, b, c, d, ?_, ?_, ?_, ?_, by simp [SkTree.features, e5]⟩ <;> (try simp only [SkTree.size]) <;> omega
      · rw [List.getElem?_append_right (by rw [SkTree.layout_length]; omega), SkTree.layout_length] at h
        rcases ihr _ _ h with ⟨a, b, c⟩ | ⟨x, y, z, a, b, c, d, e1, e2, e3, e4, e5⟩
        · exact .inl ⟨a, b, by simp [SkTree.values, c]⟩
        · refine .inr ⟨x, y, z, a, b, c, d, ?_, ?_, ?_, ?_, by simp [SkTree.features, e5]⟩ <;> (try simp only [SkTree.size]) <;> omega

/-- The arrays of a grown tree are those of a fitted tree: children come after their parent. -/
theorem grown_fitted {F C : Type} [Arith F] (s : SkTree F) (w : Nat) {Good : List F → Prop} (hv : ∀ v ∈ s.values, v ≠ [] ∧ Good (v.headD []))
    (hf : ∀ f ∈ s.features, f < w) (classes : Option (List C)) (d : List C) :
    ∃ t : Tree F C, Tree.ofSklearn ((s.layout 0).map SkNode.left) ((s.layout 0).map SkNode.right)
      ((s.layout 0).map SkNode.feature) ((s.layout 0).map SkNode.threshold)
      ((s.layout 0).map SkNode.value) classes d = .ok t ∧ FittedTree t w Good ∧ t.classes = classes.getD d := by
  have e : (((s.layout 0).map SkNode.value).mapM fun a => pyGet a 0) = .ok ((s.layout 0).map fun a => a.value.headD []) := by
    rw [SkTree.layout_values]
    rw [show ((s.layout 0).map fun a => a.value.headD []) = s.values.map fun v => v.headD [] by
      rw [← SkTree.layout_values s 0, List.map_map]; rfl]
    apply mapM_ok_map
    intro v hm
    obtain ⟨a, as, rfl⟩ := List.exists_cons_of_ne_nil (hv v hm).1
    exact pyGet_zero_cons _ _
  refine ⟨_, by simp only [Tree.ofSklearn, e, py_ok_bind]; rfl, ⟨?_, ?_, ?_, fun i hi => ?_⟩, rfl⟩
  · simp only [List.length_map, SkTree.layout_length]; cases s <;> simp [SkTree.size] <;> omega
  · simp
  · simp
  · simp only [List.length_map] at hi ⊢
    have h := List.getElem?_eq_getElem hi
    generalize (s.layout 0)[i] = nd at h
    rcases layout_nodes s 0 i nd h with ⟨a, b, c⟩ | ⟨x, y, z, a, b, c, d, e1, e2, e3, e4, e5⟩
    · exact .inl ⟨-1, nd.value.headD [], by simp [h, a], by simp [h, b], by simp [h], (hv _ c).2⟩
    · rw [SkTree.layout_length]
      exact .inr ⟨x, y, z, nd.threshold, by simp [h, a], by simp [h, b], by simp [h, c], by simp [h], d, by omega, by omega,
        by omega, by omega, hf z e5⟩

/-- **C99**: a decision tree grown by scikit-learn, of any shape, is ready for matrices with the columns it tests: its nodes
hold class counts that are not negative and not all zero. -/
theorem C99_grown_classifiers {c : String} {v : Option (List Char)} {e : Attrs Ex} {s : SkTree Ex} {cs : List (PVal Ex)} {w : Nat} (l : Layout)
    (hc : c = "DecisionTreeClassifier" ∨ c = "ExtraTreeClassifier") (he : HoldsTree e s) (hl : HasLabels e cs)
    (hv : ∀ a ∈ s.values, a ≠ [] ∧ Counts cs.length (a.headD [])) (hf : ∀ f ∈ s.features, f < w) :
    Ready (.leaf c v e) (.matrix l w) (.labels cs (some cs.length)) := by
  obtain ⟨t, h1, h2, h3⟩ := grown_fitted s w hv hf (some cs) [.int 0, .int 1]
  have h3 : t.classes = cs := h3
  subst h3
  exact .final (.treeClassifier (cs := some _) hc he hl h1) (.treeClassifier h2)

/-- **C99**: likewise a regression tree, whose nodes hold one finite number. -/
theorem C99_grown_regressors {c : String} {v : Option (List Char)} {e : Attrs Ex} {s : SkTree Ex} {cs : Option (List (PVal Ex))} {w : Nat} (l : Layout)
    (hc : c = "DecisionTreeRegressor" ∨ c = "ExtraTreeRegressor") (he : HoldsTree e s) (hl : HasLabelsOrNot e cs)
    (hv : ∀ a ∈ s.values, a ≠ [] ∧ OneValue (a.headD [])) (hf : ∀ f ∈ s.features, f < w) :
    Ready (.leaf c v e) (.matrix l w) .values := by
  obtain ⟨t, h1, h2, -⟩ := grown_fitted s w hv hf cs [.int 0, .int 1]
  exact .final (.treeRegressor hc he hl h1) (.treeRegressor h2)

/-! ### Non-vacuity -/

theorem demoLogistic_ready (v : Option (List Char)) (l : Layout) : Ready (.leaf "LogisticRegression" v demoLogistic) (.matrix l 2)
    (.labels [.str "no", .str "yes"] (some 2)) := by
  refine .final (hasLogistic_learned demoLogistic_has) (.logistic (k := 1) (mc := "auto") (so := "lbfgs") ⟨Nat.one_pos, ⟨rfl, fun r hr => ?_⟩, ⟨fins [0], rfl, [0], rfl, rfl⟩, rfl⟩ rfl rfl)
  simp only [Linear.ofFitted, List.map_cons, List.map_nil, List.mem_singleton] at hr
  subst hr
  exact ⟨[1, -1], rfl, rfl⟩

/-- The text classifier answers documents, whatever they contain and however words are found. -/
example : Ready (.pipeline (some "0.22".toList) [("tfidf", .leaf "TfidfVectorizer" (some "0.22".toList) demoText),
      ("clf", .leaf "LogisticRegression" (some "0.22".toList) demoLogistic)]) .docs (.labels [.str "no", .str "yes"] (some 2)) ∧
    (∃ f, Behaves lib encode (.pipeline (some "0.22".toList) [("tfidf", .leaf "TfidfVectorizer" (some "0.22".toList) demoText),
      ("clf", .leaf "LogisticRegression" (some "0.22".toList) demoLogistic)]) f) ∧
    Ask.docs.Holds (.docs ["cat dog".toList, []]) 2 := by
  refine ⟨.firstStep (B := .matrix .sparse 2) (.step demoText_learned (.tfidfVec rfl ⟨by simp [plainOpts], by simp [plainOpts], by simp [plainOpts]⟩ ?_
    ⟨rfl, ⟨[1, 2], rfl, rfl⟩, rfl, .inr (.inr rfl)⟩)) (.lastStep (demoLogistic_ready _ _)), ?_, .docs (by simp) rfl⟩
  · intro p hp
    simp only [catDog, List.mem_cons, List.not_mem_nil, or_false] at hp
    rcases hp with rfl | rfl <;> simp [catDog]
  · exact ⟨_, .pipeline (steps := [(_, _), (_, _)]) (es := [_, _]) version_022 (.cons (.single version_022 demoText_learned)
      (.cons (.single version_022 (hasLogistic_learned demoLogistic_has)) .nil))⟩

theorem demoScaling_learned : Learned "StandardScaler" demoScaling
    (.standard ⟨true, true, some (fins [2, 2]), some (fins [1, 1])⟩) :=
  .standard rfl rfl rfl rfl

/-- A union of a scaler, weighted, and a DictVectorizer would not take one request; of a scaler twice, once weighted,
it takes dense matrices; then four columns. -/
example (c : ℝ) : Ready (.union (some "0.22".toList) [("a", .leaf "StandardScaler" (some "0.22".toList) demoScaling),
      ("b", .leaf "StandardScaler" (some "0.22".toList) demoScaling)] (some [("b", .fin c)])) (.matrix .dense 2)
      (.form (.matrix .dense 4)) := by
  have hs : Ready (.leaf "StandardScaler" (some "0.22".toList) demoScaling) (.matrix .dense 2) (.form (.matrix .dense 2)) := by
    refine .step demoScaling_learned (.standard (fun _ => ⟨rfl, fins [1, 1], rfl, [1, 1], rfl, rfl⟩) (fun _ => ⟨[2, 2], rfl, rfl, ?_⟩) fun h => absurd h (by simp))
    simp
  refine .union (steps := [("a", _, .dense, 2), ("b", _, .dense, 2)]) (by simp) (fun s hm => ?_) fun s hm => ?_
  · simp only [List.mem_cons, List.not_mem_nil, or_false] at hm
    rcases hm with rfl | rfl
    · exact ⟨by norm_num, .inl rfl⟩
    · exact ⟨by norm_num, .inr ⟨rfl, c, rfl⟩⟩
  · simp only [List.mem_cons, List.not_mem_nil, or_false] at hm
    rcases hm with rfl | rfl <;> exact hs

theorem half_isDist : IsDist 2 ([1 / 2, 1 / 2] : List ℝ) := by
  refine ⟨rfl, fun x hx => ?_, by norm_num⟩
  simp only [List.mem_cons, List.not_mem_nil, or_false, or_self] at hx
  subst hx
  norm_num

theorem demoInit_ready (v : Option (List Char)) (l : Layout) (w : Nat) : Ready (.leaf "DummyClassifier" v demoInit) (.matrix l w)
    (.labels ((List.range 2).map fun (i : Nat) => .int i) (some 2)) :=
  .final demoInit_learned (.dummy (p := [1 / 2, 1 / 2]) rfl half_isDist)

/-- A bagging classifier of a pipeline on columns 1 and 0 and a dummy on column 2. -/
example : Ready (.ensemble .bagging (some "0.22".toList) (some [[1, 0], [2]]) [.str "no", .str "yes"]
      [.pipeline (some "0.22".toList) [("clf", .leaf "LogisticRegression" (some "0.22".toList) demoLogistic)],
       .leaf "DummyClassifier" (some "0.22".toList) demoInit]) (.matrix .dense 3) (.labels [.str "no", .str "yes"] (some 2)) := by
  refine .subspaces (w := 3) (ls := fun m => match m with
    | .pipeline _ _ => [.str "no", .str "yes"]
    | _ => (List.range 2).map fun (i : Nat) => .int i) (by simp) rfl ?_ fun p hp => ?_
  · intro f hf i hi
    simp only [List.mem_cons, List.not_mem_nil, or_false] at hf
    rcases hf with rfl | rfl <;> simp only [List.mem_cons, List.not_mem_nil, or_false] at hi
    · rcases hi with rfl | rfl <;> decide
    · subst hi; decide
  · simp only [List.zip_cons_cons, List.zip_nil_left, List.mem_cons, List.not_mem_nil, or_false] at hp
    rcases hp with rfl | rfl
    · exact .lastStep (demoLogistic_ready _ _)
    · exact demoInit_ready _ _ _

/-- Gradient boosting from equal shares with one stage. -/
example : Ready (.boosting (some "0.22".toList) [.str "a", .str "b"]
      [[.leaf "DecisionTreeRegressor" (some "0.22".toList) (demoTree gbStump [])]]
      (.leaf "DummyClassifier" (some "0.22".toList) demoInit) "deviance" [.float (.fin 2), .int (1 : Nat)]) (.matrix .dense 1)
      (.labels [.str "a", .str "b"] (some 2)) := by
  refine .boosting (l := .binomial) rfl (by simp) (demoInit_ready _ _ _) (by simp) (fun st hst => ?_) fun st hst m hm => ?_
  · rw [List.mem_singleton.1 hst]; rfl
  · rw [List.mem_singleton.1 hst] at hm
    rw [List.mem_singleton.1 hm]
    refine C99_grown_regressors (cs := none) _ (.inl rfl) (demoTree_holds _ _) (.inl rfl) ?_ ?_
    · intro a ha
      simp only [gbStump, SkTree.values, List.append_eq, List.cons_append, List.nil_append, List.mem_cons, List.not_mem_nil, or_false] at ha
      rcases ha with rfl | rfl | rfl <;> exact ⟨by simp, _, rfl⟩
    · simp [gbStump, SkTree.features]

end PurePredict
