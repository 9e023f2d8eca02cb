import Verif.Lemmas.ObjectBatch
/-
C96: batches of any nesting: no record's answer depends on the others.
-/
namespace PurePredict
open Spec
variable {F : Type} [Arith F] (trunc : F → Py Int) {lib : String → TextLib}
  {encode : Str → List Nat}

/-- What the judgement `Serves` promises of the methods. -/
def Answers (f : Methods F) (A : Req) : Option Kind → Prop
  | none => Says f (A.form F)
  | some k => Gives f (A.form F) k

theorem forall₂_get {α β : Type} {R : α → β → Prop} {l : List α} {l' : List β} (h : List.Forall₂ R l l') {i : Nat}
    (h1 : i < l.length) (h2 : i < l'.length) : R l[i] l'[i] := by
  have := (List.forall₂_iff_get.1 h).2 i h1 h2
  simpa using this

theorem mem_zip_get {α β : Type} (l : List α) (l' : List β) {i : Nat} (h1 : i < l.length) (h2 : i < l'.length) :
    (l[i], l'[i]) ∈ l.zip l' := by
  rw [List.mem_iff_getElem]
  exact ⟨i, by simp [h1, h2], by simp⟩

/-- What behaves as a fitted object that serves the requests answers record by record. -/
theorem behaves_answers {o : SkObj (Attrs F) (PVal F) F} {A : Req} {r : Option Kind} (hr : Serves o A r)
    {f : Methods F} (h : Behaves lib encode o f) : Answers f A r := by
  induction hr generalizing f with
  | step hl hs =>
    cases h with
    | single hv hl' =>
      rw [C89_behaviour_unique (.single hv hl') (.single hv hl)]
      exact gives_single hs
  | final hl hs =>
    cases h with
    | single hv hl' =>
      rw [C89_behaviour_unique (.single hv hl') (.single hv hl)]
      exact says_single hs
  | @lastStep v n o A r _ ih =>
    cases h with
    | @pipeline _ _ es hv hs =>
      cases hs with
      | @cons _ e _ _ he hn =>
        cases hn
        show Answers (pipelineEst [(n, e)]) A r
        rw [pipeline_single]
        exact ih he
  | @firstStep v n o s ss A k r _ _ ih1 ih2 =>
    cases h with
    | @pipeline _ _ es hv hs =>
      cases hs with
      | @cons _ e _ es he hn =>
        have h2 := ih2 (.pipeline (steps := s :: ss) hv hn)
        have h1 := ih1 he
        cases hn with
        | @cons _ e' _ es _ _ =>
          cases r with
          | none => exact says_pipeline n h1 h2
          | some k' => exact gives_pipeline n h1 h2
  | @unionDense v steps ws A ks hne hlen _ ih =>
    cases h with
    | @union _ _ _ es hv hs =>
      have hle : es.length = steps.length := by rw [← hs.length_eq]; simp
      refine gives_unionDense (ks := ks) ?_ ?_ ws
      · intro e
        have := congrArg List.length e
        simp [hle] at this
        exact hne this
      · rw [List.forall₂_iff_get]
        refine ⟨by simp [hle, hlen], fun i h1 h2 => ?_⟩
        have i1 : i < steps.length := by simpa [hle] using h1
        have i2 : i < es.length := by omega
        have hb := forall₂_get hs (i := i) (by simpa using i1) i2
        have := ih (steps[i], ks[i]) (mem_zip_get _ _ i1 h2) (by simpa using hb)
        simpa [Answers] using this
  | @unionSparse v steps ws A ks hlen hsp hpos _ ih =>
    cases h with
    | @union _ _ _ es hv hs =>
      have hle : es.length = steps.length := by rw [← hs.length_eq]; simp
      refine gives_unionSparse hsp hpos ?_ ws
      rw [List.forall₂_iff_get]
      refine ⟨by simp [hle, hlen], fun i h1 h2 => ?_⟩
      have i1 : i < steps.length := by simpa [hle] using h1
      have i2 : i < es.length := by omega
      have hb := forall₂_get hs (i := i) (by simpa using i1) i2
      have := ih (steps[i], ks[i]) (mem_zip_get _ _ i1 h2) (by simpa using hb)
      simpa [Answers] using this
  | @ensemble kd v cs ms k c hc _ ih =>
    cases h with
    | @ensemble _ _ _ _ _ es hv hcs hs =>
      have key : ∀ e ∈ es, Wide e c ∧ Says e ((Req.matrix k).form F) := by
        intro e he
        obtain ⟨i, hi, rfl⟩ := List.mem_iff_getElem.1 he
        have i1 : i < ms.length := by rw [hs.length_eq]; exact hi
        have hb := forall₂_get hs i1 hi
        exact ⟨behaves_wide hb (hc _ (List.getElem_mem _)), ih _ (List.getElem_mem _) hb⟩
      exact says_ensemble (fun e he => (key e he).1) fun e he => (key e he).2
  | @subspaces kd v fs cs ms w c hc _ ih =>
    cases h with
    | @ensemble _ _ _ _ _ es hv hcs hs =>
      refine says_subspaces (c := c) ?_ ?_
      · intro e he
        obtain ⟨i, hi, rfl⟩ := List.mem_iff_getElem.1 he
        have i1 : i < ms.length := by rw [hs.length_eq]; exact hi
        exact behaves_wide (forall₂_get hs i1 hi) (hc _ (List.getElem_mem _))
      · intro p hp
        obtain ⟨i, hi, rfl⟩ := List.mem_iff_getElem.1 hp
        have i2 : i < es.length ∧ i < fs.length := by simpa using hi
        have i1 : i < ms.length := by rw [hs.length_eq]; exact i2.1
        have := ih (ms[i], fs[i]) (mem_zip_get _ _ i1 i2.2) (forall₂_get hs i1 i2.1)
        simpa [Answers] using this
  | @boosting v cs stages init loss l lr nf hl hne hi _ hst0 hst _ ihi ihs =>
    cases h with
    | @boosting _ _ _ _ _ _ _ l' es e hv hcs hs he hl' =>
      rw [hl] at hl'
      cases hl'
      refine says_boosting ?_ hne (behaves_wide he hi) (ihi he) ?_ ?_ ?_
      · intro n hn
        have := lossOf_outputs hl
        rw [hn] at this
        exact this
      · intro h
        subst h
        exact hst0 (List.length_eq_zero_iff.1 hs.length_eq)
      · intro st hm
        obtain ⟨i, h1, rfl⟩ := List.mem_iff_getElem.1 hm
        have i1 : i < stages.length := by rw [hs.length_eq]; exact h1
        rw [← (forall₂_get hs i1 h1).length_eq]
        exact hst _ (List.getElem_mem _)
      · intro st hm m hmm
        obtain ⟨i, h1, rfl⟩ := List.mem_iff_getElem.1 hm
        have i1 : i < stages.length := by rw [hs.length_eq]; exact h1
        have hst' := forall₂_get hs i1 h1
        obtain ⟨j, h2, rfl⟩ := List.mem_iff_getElem.1 hmm
        have j1 : j < stages[i].length := by rw [hst'.length_eq]; exact h2
        exact ihs _ (List.getElem_mem i1) _ (List.getElem_mem j1) (forall₂_get hst' j1 h2)

/-- **C96** (predictions): a fitted object that predicts from requests of some kind is converted, and each of the
prediction methods the converted object has treats the records of a request independently: a batch is answered
exactly when each of its records is, and then with the answers to the single records, in their order. -/
theorem C96_predictions {o : SkObj (Attrs F) (PVal F) F} {f : Methods F} (h : Behaves lib encode o f) {A : Req}
    (hs : Serves o A none) : ∃ r, convert (singles trunc initXgb) o = .ok r ∧
      (∀ p, (r.methods lib encode).predict = some p → BatchIndependent (A.form F).Ok fun xs => p ((A.form F).emb xs)) ∧
      (∀ p, (r.methods lib encode).predictProba = some p → BatchIndependent (A.form F).Ok fun xs => p ((A.form F).emb xs)) ∧
      ∀ p, (r.methods lib encode).predictLogProba = some p → BatchIndependent (A.form F).Ok fun xs => p ((A.form F).emb xs) := by
  obtain ⟨r, hr, rfl⟩ := C89_converted_behaves trunc lib encode o f h
  have := behaves_answers hs h
  exact ⟨r, hr, this.predict, this.proba, this.logProba⟩

/-- **C96** (transformations): a fitted object that transforms requests of some kind into matrices of some kind is
converted to an object with `transform`, which makes such matrices, each row from its record alone. -/
theorem C96_transform {o : SkObj (Attrs F) (PVal F) F} {f : Methods F} (h : Behaves lib encode o f) {A : Req} {k : Kind}
    (hs : Serves o A (some k)) : ∃ r t, convert (singles trunc initXgb) o = .ok r ∧
      (r.methods lib encode).transform = some t ∧ RecordByRecord (A.form F) ((Req.matrix k).form F) t ∧
      BatchIndependent (A.form F).Ok fun xs => (do (← (← t ((A.form F).emb xs)).asArr).rows : Py (List (Row F))) := by
  obtain ⟨r, hr, rfl⟩ := C89_converted_behaves trunc lib encode o f h
  obtain ⟨t, ht, hb⟩ := behaves_answers hs h
  refine ⟨r, t, hr, ht, hb, ?_⟩
  have := hb.asArr.then (g := Arr.rows) (by
    cases k with
    | dense w => exact (BatchIndependent.ok_map Row.list).congr fun xs _ _ => OkEq.of_eq (rows_ofMat xs)
    | sparse w dt => exact (BatchIndependent.ok_map Row.dict).congr fun xs _ _ => OkEq.refl _)
  refine this.congr fun xs _ _ => OkEq.of_eq ?_
  show _ = (t _ >>= fun Y => Y.asArr) >>= Arr.rows
  rw [bind_assoc]

/-! ### Non-vacuity -/

/-- A dict vectorizer with one known name. -/
def demoNames (name : String) (sparse : Bool) : Attrs F :=
  [("vocabulary_", .dict [.str name] [.int 0]), ("feature_names_", .list [.str name]), ("sparse", .bool sparse),
   ("dtype", .cls (.plain "float")), ("separator", .str "=")]

theorem demoNames_learned (name : String) (sparse : Bool) :
    Learned "DictVectorizer" (demoNames (F := F) name sparse) (.dictVec ⟨[(name.toList, 0)], sparse, .float, ['=']⟩) :=
  .dictVec ⟨by simp [HasAttr, demoNames, Dict.get?], ⟨_, rfl, .list _ fun c hc => by
    obtain rfl := List.mem_singleton.1 hc
    exact .str _⟩, rfl, ⟨"float", by simp [dtypes], .inl rfl⟩, rfl⟩

/-- Mappings are vectorised twice, side by side, and classified by a linear model. -/
def demoServed (a b c : F) : SkObj (Attrs F) (PVal F) F :=
  .pipeline (some "0.22".toList) [("names", .union (some "0.22".toList)
    [("x", .leaf "DictVectorizer" (some "0.22".toList) (demoNames "x" true)),
     ("y", .leaf "DictVectorizer" (some "0.22".toList) (demoNames "y" false))] (some [("y", a)])),
    ("clf", .leaf "RidgeClassifier" (some "0.22".toList) (demoRidge a b c))]

theorem demoRidge_learned (a b c : F) : Learned "RidgeClassifier" (demoRidge a b c) (.linear .plain
    (Linear.ofFitted [[a, b]] [.str "no", .str "yes"] (some (.vector [c])) none none none)) :=
  .linear (by simp [linearClasses]) rfl ⟨rfl, by
    intro c hc
    simp only [List.mem_cons, List.not_mem_nil, or_false] at hc
    rcases hc with rfl | rfl <;> exact .str _⟩ rfl rfl rfl rfl

example (a b c : F) : Serves (demoServed a b c) .records none ∧ ∃ f, Behaves lib encode (demoServed a b c) f := by
  have hv : ReadableVersion (some "0.22".toList) := ⟨_, rfl⟩
  constructor
  · refine .firstStep (k := .sparse 2 .float) ?_ (.lastStep (.final (demoRidge_learned a b c) (.linear (by simp [Linear.ofFitted]) ?_)))
    · refine .unionSparse (ks := [.sparse 1 .float, .dense 1]) rfl ⟨.sparse 1 .float, by simp, rfl⟩ (by simp) fun p hp => ?_
      simp only [List.zip_cons_cons, List.zip_nil_right, List.mem_cons, List.not_mem_nil, or_false] at hp
      rcases hp with rfl | rfl
      · exact .step (demoNames_learned "x" true) (.dictSparse rfl)
      · exact .step (demoNames_learned "y" false) (.dictDense rfl)
    · intro r hr
      simp only [Linear.ofFitted, List.mem_singleton] at hr
      subst hr
      rfl
  · exact ⟨_, .pipeline (steps := [(_, _), (_, _)]) (es := [_, _]) hv (.cons (.union (steps := [(_, _), (_, _)]) (es := [_, _]) hv
      (.cons (.single hv (demoNames_learned "x" true)) (.cons (.single hv (demoNames_learned "y" false)) .nil)))
      (.cons (.single hv (demoRidge_learned a b c)) .nil))⟩

/-- Bagging of two prior classifiers on two choices of columns. -/
example (a b c : F) : Serves (.ensemble .bagging (some "0.22".toList) (some [[0, 1], [2]]) [.int 0, .int 1, .int 2]
    [.leaf "DummyClassifier" none (demoPrior a b c), .leaf "DummyClassifier" none (demoPrior c b a)])
    (.matrix (.dense 3)) none := by
  refine .subspaces (c := 3) (fun m hm => ?_) fun p hp => ?_
  · simp only [List.mem_cons, List.not_mem_nil, or_false] at hm
    rcases hm with rfl | rfl
    · exact .leaf (demoPrior_learned a b c) (.dummy rfl)
    · exact .leaf (demoPrior_learned c b a) (.dummy rfl)
  · simp only [List.zip_cons_cons, List.zip_nil_right, List.mem_cons, List.not_mem_nil, or_false] at hp
    rcases hp with rfl | rfl
    · exact .final (demoPrior_learned a b c) .dummy
    · exact .final (demoPrior_learned c b a) .dummy

end PurePredict
