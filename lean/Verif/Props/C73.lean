import Verif.Lemmas.UnionBatch
import Verif.Lemmas.StepRecord
import Verif.Props.C03
import Verif.Props.C72
/-
C73: batch independence carries over to pipelines and feature unions.
-/
namespace PurePredict
open Spec
variable {F : Type} [Arith F] {C : Type}

/-! ### Pipelines -/

section pipeline
variable {D L P β : Type} {front : List (String × Option (Est D L P))} {fs : List (D → Py D)}
  {A B : Form D}

/-- **C73** (labels): steps that work record by record, followed by an estimator whose `predict`
is batch independent, make a pipeline whose `predict` is batch independent. -/
theorem C73_predict {front : List (String × Option (Est D (List β) P))} {fs : List (D → Py D)}
    (hf : HasTransforms front fs) (hc : BatchChain A fs B) {name : String}
    {e : Est D (List β) P} {g : D → Py (List β)} (he : e.predict = some g)
    (hg : BatchIndependent B.Ok fun xs => g (B.emb xs)) :
    BatchIndependent A.Ok fun xs =>
      (⟨front ++ [(name, some e)]⟩ : Pipeline D (List β) P).predict (A.emb xs) := by
  refine ((hc.runs hf).then hg).congr fun xs _ _ => OkEq.of_eq ?_
  show (Pipeline.delegated _ _ >>= fun f => Pipeline.applyAll _ _ >>= f) = _
  rw [delegated_last, he, py_ok_bind, Pipeline.front, List.dropLast_concat]

/-- **C73** (probabilities). -/
theorem C73_predict_proba {front : List (String × Option (Est D L (List β)))} {fs : List (D → Py D)}
    (hf : HasTransforms front fs) (hc : BatchChain A fs B) {name : String}
    {e : Est D L (List β)} {g : D → Py (List β)} (he : e.predictProba = some g)
    (hg : BatchIndependent B.Ok fun xs => g (B.emb xs)) :
    BatchIndependent A.Ok fun xs =>
      (⟨front ++ [(name, some e)]⟩ : Pipeline D L (List β)).predictProba (A.emb xs) := by
  refine ((hc.runs hf).then hg).congr fun xs _ _ => OkEq.of_eq ?_
  show (Pipeline.delegated _ _ >>= fun f => Pipeline.applyAll _ _ >>= f) = _
  rw [delegated_last, he, py_ok_bind, Pipeline.front, List.dropLast_concat]

/-- **C73** (log-probabilities). -/
theorem C73_predict_log_proba {front : List (String × Option (Est D L (List β)))}
    {fs : List (D → Py D)}
    (hf : HasTransforms front fs) (hc : BatchChain A fs B) {name : String}
    {e : Est D L (List β)} {g : D → Py (List β)} (he : e.predictLogProba = some g)
    (hg : BatchIndependent B.Ok fun xs => g (B.emb xs)) :
    BatchIndependent A.Ok fun xs =>
      (⟨front ++ [(name, some e)]⟩ : Pipeline D L (List β)).predictLogProba (A.emb xs) := by
  refine ((hc.runs hf).then hg).congr fun xs _ _ => OkEq.of_eq ?_
  show (Pipeline.delegated _ _ >>= fun f => Pipeline.applyAll _ _ >>= f) = _
  rw [delegated_last, he, py_ok_bind, Pipeline.front, List.dropLast_concat]

/-- **C73** (transformation): a pipeline of transformers that work record by record is such a
transformer again, so it can be a step of another pipeline or of a feature union. -/
theorem C73_transform {s : String × Option (Est D L P)} {f : D → Py D}
    (hf : HasTransforms (front ++ [s]) (fs ++ [f])) (hc : BatchChain A (fs ++ [f]) B) :
    RecordByRecord A B (⟨front ++ [s]⟩ : Pipeline D L P).transform := by
  have e : (⟨front ++ [s]⟩ : Pipeline D L P).transform = Pipeline.applyAll (front ++ [s]) := by
    obtain ⟨e', h1, h2⟩ : ∃ e, s.2 = some e ∧ e.transform = some f := by
      have := hf
      rw [HasTransforms, List.forall₂_iff_get] at this
      have hl : front.length = fs.length := by simpa using this.1
      have := this.2 front.length (by simp) (by simp [hl])
      simpa [hl] using this
    funext x
    unfold Pipeline.transform Pipeline.finalEstimator
    simp only [List.getLast?_append, List.getLast?_singleton, Option.some_or, py_ok_bind, h1, h2,
      Option.isNone_some, Bool.false_eq_true, if_false]
  rw [e]
  exact hc.runs hf

end pipeline

/-! ### Feature unions -/

/-- **C73** (dense unions): transformers with dense results of fixed widths, with or without
weights, make a union that works record by record and has the sum of the widths. -/
theorem C73_union_dense {u : FeatureUnion F} {A : Form (Arr F)} (hA : A.IsMatrix)
    (hne : u.transformers ≠ []) {ws : List Nat}
    (h : List.Forall₂ (fun t w => RecordByRecord A (.denseOf F w) t.2) u.transformers ws) :
    RecordByRecord A (.denseOf F ws.sum) u.transform :=
  union_dense hA hne h

/-- **C73** (mixed unions): as soon as one transformer has sparse results the union's results are
sparse, again one record at a time; dense blocks have at least one column. -/
theorem C73_union_sparse {u : FeatureUnion F} {A : Form (Arr F)} (hA : A.IsMatrix)
    {ks : List Kind} (hsp : ∃ k ∈ ks, k.isSparse = true) (hpos : ∀ w, Kind.dense w ∈ ks → 0 < w)
    (h : List.Forall₂ (fun t k => RecordByRecord A (k.form F) t.2) u.transformers ks) :
    RecordByRecord A (.sparseOf F (ks.map Kind.width).sum .float) u.transform :=
  union_sparse hA hsp hpos h

/-- What "record by record" gives for the rows returned to a caller: they are batch independent. -/
theorem C73_rows {A : Form (Arr F)} {f : Arr F → Py (Arr F)} {k : Kind}
    (h : RecordByRecord A (k.form F) f) : BatchIndependent A.Ok fun xs => rowsOf (f (A.emb xs)) := by
  refine h.then (g := Arr.rows) ?_
  cases k with
  | dense w => exact (BatchIndependent.ok_map Row.list).congr fun xs _ _ => OkEq.of_eq (rows_ofMat xs)
  | sparse w dt => exact (BatchIndependent.ok_map Row.dict).congr fun xs _ _ => OkEq.refl _

/-! ### The library's steps -/

/-- **C73** (steps): the scalers, the normaliser and the tf-idf transformer work record by record,
on dense and on sparse requests. -/
theorem C73_steps (w : Nat) (dt : DType) :
    (∀ s : StandardScaler F, s.Width w → RecordByRecord (.denseOf F w) (.denseOf F w) s.transform) ∧
    (∀ s : StandardScaler F, RecordByRecord (.sparseOf F w dt) (.sparseOf F w dt) s.transform) ∧
    (∀ s : MinMaxScaler F, (∀ m, s.scale = some m → m.length = w) →
      RecordByRecord (.denseOf F w) (.denseOf F w) s.transform) ∧
    (∀ s : MaxAbsScaler F, (∀ m, s.scale = some m → m.length = w) →
      RecordByRecord (.denseOf F w) (.denseOf F w) s.transform) ∧
    (∀ s : MaxAbsScaler F, RecordByRecord (.sparseOf F w dt) (.sparseOf F w dt) s.transform) ∧
    (∀ n, RecordByRecord (.denseOf F w) (.denseOf F w) (normalizerTransform (F := F) n)) ∧
    (∀ n, RecordByRecord (.sparseOf F w dt) (.sparseOf F w dt) (normalizerTransform (F := F) n)) ∧
    (∀ t : Tfidf F, RecordByRecord (.sparseOf F w dt) (.sparseOf F w dt)
      fun X => t.transform X >>= fun p => .ok p.1) :=
  ⟨fun s hs => s.record_dense hs, fun s => s.record_sparse w dt, fun s hs => s.record_dense hs,
    fun s hs => s.record_dense hs, fun s => s.record_sparse w dt, fun n => normalizer_record_dense n w,
    fun n => normalizer_record_sparse n w dt, fun t => t.record w dt⟩

/-- **C73** (text): a pipeline of a tf-idf vectorizer and a linear classifier treats the documents
of a request independently: labels, probabilities and log-probabilities. -/
theorem C73_text (lib : TextLib) (v : CountVectorizer) (t : Tfidf F) (m : Linear F C)
    (hb : v.binary = false) (hc : m.coef ≠ []) (hcw : Rect v.vocabulary.length m.coef) :
    BatchIndependent (fun _ => True) (fun docs => (textPipeline lib v t m).predict (.docs docs)) ∧
    BatchIndependent (fun _ => True) (fun docs => (textPipeline lib v t m).predictProba (.docs docs)) ∧
    BatchIndependent (fun _ => True)
      (fun docs => (textPipeline lib v t m).predictLogProba (.docs docs)) := by
  have hk : ∀ docs : List Str, docs ≠ [] → ∀ y, tfidfVectorizerTransform lib v t (some docs) = .ok y →
      ∃ ds, y = .sparse ds (some v.vocabulary.length) v.dtype := by
    intro docs hd y hy
    simp only [tfidfVectorizerTransform, CountVectorizer.transform, v.countVocab_eq lib hd,
      bind_assoc, hb, Bool.false_eq_true, if_false, py_ok_bind, py_pure] at hy
    obtain ⟨an, -, hy⟩ := bind_ok_iff.1 hy
    obtain ⟨p, hp, hy⟩ := bind_ok_iff.1 hy
    cases hy
    exact Tfidf.kind hp
  have hm := C03_linear_batch_independence_sparse m v.vocabulary.length hc hcw v.dtype
  have main : ∀ {β : Type} (g : Arr F → Py (List β)),
      BatchIndependent (fun _ : Dict Int F => True)
        (fun ds => g (.sparse ds (some v.vocabulary.length) v.dtype)) →
      BatchIndependent (fun _ : Str => True) fun docs =>
        tfidfVectorizerTransform lib v t (some docs) >>= g := by
    intro β g hg
    let unp : Row F → Py (Dict Int F) := fun r => match r with
      | .dict d => .ok d
      | _ => .error .typeError
    have h1 := (tfidfVectorizer_batch (F := F) lib v t hb).bind_mapM (k := fun rs => rs.mapM unp)
      fun _ _ _ _ _ => OkEq.refl _
    refine (h1.comp (Q := fun _ => True) (fun _ _ _ _ _ _ _ => trivial) hg).congr fun docs hd _ => ?_
    rw [rowsOf]
    cases hy : tfidfVectorizerTransform lib v t (some docs) with
    | error e => exact OkEq.refl _
    | ok y =>
      obtain ⟨ds, rfl⟩ := hk docs hd y hy
      have key : (ds.map Row.dict).mapM unp = (.ok ds : Py _) := by
        rw [mapM_map']
        exact (mapM_ok_map (g := id) fun _ _ => rfl).trans (by simp)
      simp only [py_ok_bind, Arr.rows, key]
      exact OkEq.refl _
  refine ⟨(main _ hm.predict).congr fun docs _ _ => OkEq.of_eq (textPipeline_eq lib v t m docs).1,
    (main _ hm.proba).congr fun docs _ _ => OkEq.of_eq (textPipeline_eq lib v t m docs).2.1,
    (main _ hm.logProba).congr fun docs _ _ => OkEq.of_eq (textPipeline_eq lib v t m docs).2.2⟩

/-! ### Non-vacuity -/

/-- A pipeline of two scalers and a logistic regression on dense requests. -/
example (s1 s2 : StandardScaler F) (w : Nat) (h1 : s1.Width w) (h2 : s2.Width w) (m : Linear F C)
    (hc : m.coef ≠ []) (hcw : Rect w m.coef) :
    BatchIndependent (fun r : List F => r.length = w) fun xs =>
      (⟨[("a", some ⟨some s1.transform, none, none, none⟩),
         ("b", some ⟨some s2.transform, none, none, none⟩)] ++
        [("clf", some ⟨none, some m.predict, some m.predictProba, some m.predictLogProba⟩)]⟩ :
        Pipeline (Arr F) (List C) (List (List F))).predict (.ofMat xs) :=
  C73_predict (A := .denseOf F w) (B := .denseOf F w) (fs := [s1.transform, s2.transform])
    (.cons ⟨_, rfl, rfl⟩ (.cons ⟨_, rfl, rfl⟩ .nil))
    (.cons (s1.record_dense h1) (.cons (s2.record_dense h2) (.nil _))) rfl
    (C03_linear_batch_independence m w hc hcw).predict

/-- The union of a scaler and a normaliser. -/
example (s : StandardScaler F) (w : Nat) (h : s.Width w) (c : F) :
    RecordByRecord (.denseOf F w) (.denseOf F (w + (w + 0)))
      (⟨[("a", s.transform), ("b", normalizerTransform .l2)], some [("b", c)]⟩ :
        FeatureUnion F).transform :=
  C73_union_dense (ws := [w, w]) (Form.denseOf_isMatrix w) (by simp)
    (.cons (s.record_dense h) (.cons (normalizer_record_dense .l2 w) .nil))

end PurePredict
