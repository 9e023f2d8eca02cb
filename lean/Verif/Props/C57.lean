import Verif.Lemmas.TransformBatch
import Verif.Lemmas.EnsembleBatch
import Verif.Lemmas.GBBatch
import Verif.Props.C15
import Verif.Lemmas.XR
/-
C57: batch independence of trees, dummy models, forests, boosting, naive Bayes and the
transformers (linear models: C02).  `BatchIndependent P f` (Spec/Batch.lean) says that for
non-empty batches of records satisfying `P`, `f` of a concatenation is the concatenation of the
results, succeeds exactly when both parts do, and is the list of single-record results.
Everything holds in any arithmetic (floating point included).
-/
namespace PurePredict
open Spec

section positive
variable {F C : Type} [Arith F]

/-- **C57**, decision trees. -/
theorem C57_tree (t : Tree F C) :
    (BatchIndependent (fun _ => True) fun A => t.predictReg (.ofMat A)) ∧
    (BatchIndependent (fun _ => True) fun A => t.predict (.ofMat A)) ∧
    (BatchIndependent (fun _ => True) fun A => t.predictProba (.ofMat A)) ∧
    (BatchIndependent (fun _ => True) fun A => t.predictLogProba (.ofMat A)) :=
  ⟨t.predictReg_batch, t.predict_batch, t.predictProba_batch, t.predictLogProba_batch⟩

/-- **C57**, dummy classifier. -/
theorem C57_dummy (d : Dummy F) :
    (BatchIndependent (fun _ => True) fun A => d.predict (.ofMat A)) ∧
    (BatchIndependent (fun _ => True) fun A => d.predictProba (.ofMat A)) :=
  ⟨d.predict_batch, d.predictProba_batch⟩

/-- **C57**, forests and bagged trees: any trees whose leaves all hold `k` values, any feature
subsets. -/
theorem C57_forest (features : Option (List (List Int))) (classes : List C) {D : Type}
    (trees : List (Tree F D)) (k : Nat) (hv : ∀ t ∈ trees, ∀ v ∈ t.value, v.length = k) :
    let b : Bagging F C := ⟨features, classes, trees.map fun t => ⟨t.predictProba⟩⟩
    (BatchIndependent (fun _ => True) fun A => b.predict (.ofMat A)) ∧
    (BatchIndependent (fun _ => True) fun A => b.predictProba (.ofMat A)) ∧
    (BatchIndependent (fun _ => True) fun A => b.predictLogProba (.ofMat A)) := by
  intro b
  have h : b.Parts k := Bagging.parts_of_trees hv
  exact ⟨Bagging.predict_batch h, Bagging.predictProba_batch h, Bagging.predictLogProba_batch h⟩

/-- **C57**, bagging over any members that are themselves batch independent and return rows of
one width. -/
theorem C57_bagging (b : Bagging F C) (k : Nat) (h : b.Parts k) :
    (BatchIndependent (fun _ => True) fun A => b.predict (.ofMat A)) ∧
    (BatchIndependent (fun _ => True) fun A => b.predictProba (.ofMat A)) ∧
    (BatchIndependent (fun _ => True) fun A => b.predictLogProba (.ofMat A)) :=
  ⟨Bagging.predict_batch h, Bagging.predictProba_batch h, Bagging.predictLogProba_batch h⟩

/-- **C57**, gradient boosting: tree stages, prior init estimator, records of the fitted width. -/
theorem C57_gradient_boosting (classes : List C) (loss : Loss)
    (trees : List (List (Tree F C))) (prior : List F) (lr : F) (nf : Nat)
    (hne : trees ≠ []) (hw : ∀ st ∈ trees, st.length = loss.cols) (hc : 0 < loss.cols)
    (hp : ∀ n, loss = .multinomial n → prior.length = n) :
    let g : GB F C := ⟨classes, trees.map fun st => st.map fun t => t.predictReg,
      (⟨prior⟩ : Dummy F).predictProba, lr, nf, loss⟩
    (BatchIndependent (fun r => r.length = nf) fun A => g.rawPredict (.ofMat A)) ∧
    (BatchIndependent (fun r => r.length = nf) fun A => g.predictProba (.ofMat A)) ∧
    (BatchIndependent (fun r => r.length = nf) fun A => g.predict (.ofMat A)) :=
  C15_batch_independent_trees classes loss trees prior lr nf hne hw hc hp

/-- **C57**, XGBoost. -/
theorem C57_xgb (m : Xgb F C) :
    (BatchIndependent (fun _ => True) fun A => m.predict (.ofMat A)) ∧
    (BatchIndependent (fun _ => True) fun A => m.predictProba (.ofMat A)) :=
  ⟨m.predict_batch, m.predictProba_batch⟩

/-- **C57**, naive Bayes: the three prediction methods over a joint log likelihood. -/
def NBBatch (jll : Arr F → Py (List (List F))) (classes : List C) : Prop :=
  (BatchIndependent (fun _ => True) fun A => nbPredict jll classes (.ofMat A)) ∧
  (BatchIndependent (fun _ => True) fun A => nbPredictProba jll (.ofMat A)) ∧
  (BatchIndependent (fun _ => True) fun A => nbPredictLogProba jll (.ofMat A))

theorem C57_naive_bayes_gaussian (m : GaussianNB F C) (hc : m.classes ≠ []) :
    NBBatch m.jll m.classes :=
  ⟨nbPredict_batch (m.jll_batch hc) _, nbPredictProba_batch (m.jll_batch hc),
    nbPredictLogProba_batch (m.jll_batch hc)⟩

theorem C57_naive_bayes_discrete (m : DiscreteNB F C) :
    NBBatch m.jllMultinomial m.classes ∧ NBBatch m.jllComplement m.classes :=
  ⟨⟨nbPredict_batch m.multinomial_batch _, nbPredictProba_batch m.multinomial_batch,
      nbPredictLogProba_batch m.multinomial_batch⟩,
    ⟨nbPredict_batch m.complement_batch _, nbPredictProba_batch m.complement_batch,
      nbPredictLogProba_batch m.complement_batch⟩⟩

/-- **C57**, scalers, dense and sparse input. -/
theorem C57_scalers (s : StandardScaler F) (a : MaxAbsScaler F) (m : MinMaxScaler F)
    (size : Option Nat) (dt : DType) :
    (BatchIndependent (fun _ => True) fun A => rowsOf (s.transform (.ofMat A))) ∧
    (BatchIndependent (fun _ => True) fun A => rowsOf (s.transform (.sparse A size dt))) ∧
    (BatchIndependent (fun _ => True) fun A => rowsOf (a.transform (.ofMat A))) ∧
    (BatchIndependent (fun _ => True) fun A => rowsOf (a.transform (.sparse A size dt))) ∧
    (BatchIndependent (fun _ => True) fun A => rowsOf (m.transform (.ofMat A))) :=
  ⟨s.dense_batch, s.sparse_batch size dt, a.dense_batch, a.sparse_batch size dt, m.dense_batch⟩

/-- **C57**, normaliser: every norm; dense records of a common width, sparse records. -/
theorem C57_normalizer (n : Norm) (w : Nat) (size : Option Nat) (dt : DType) :
    (BatchIndependent (fun r : List F => r.length = w) fun A =>
      rowsOf (normalizerTransform n (.ofMat A))) ∧
    (BatchIndependent (fun _ => True) fun A : List (Dict Int F) =>
      rowsOf (normalizerTransform n (.sparse A size dt))) :=
  ⟨normalizer_dense_batch n w, normalizer_sparse_batch n size dt⟩

/-- **C57**, encoders (also with unknown categories, in either `handle_unknown` mode). -/
theorem C57_encoders [DecidableEq C] [Inhabited C] (e : Encoder C) (w : Nat) (he : e.Fitted w) :
    (BatchIndependent (fun x : List C => x.length = w) fun R => e.ordinal (F := F) (.ofMat R)) ∧
    (BatchIndependent (fun x : List C => x.length = w) fun R =>
      rowsOf (e.oneHot (F := F) (.ofMat R))) :=
  ⟨e.ordinal_batch w he, e.oneHot_batch w he⟩

/-- **C57**, imputer, with or without its (converted) missing indicator. -/
theorem C57_imputer (statistics : List F) (constant add : Bool) (missing : F)
    (ind : Option (MissingIndicator F)) (h0 : statistics ≠ [])
    (hi : ∀ i, ind = some i → i.nFeatures = statistics.length ∧ i.features.Nodup ∧
      ∀ j ∈ i.features, j < i.nFeatures) :
    BatchIndependent (fun x : List F => x.length = statistics.length) fun M =>
      rowsOf ((SimpleImputer.ofFitted statistics constant add missing ind).transform (.ofMat M)) := by
  refine SimpleImputer.batch (SimpleImputer.ofFitted statistics constant add missing ind) h0 ?_
  intro i hind
  cases ind with
  | none => cases hind
  | some j =>
    cases hind
    obtain ⟨h1, h2, h3⟩ := hi j rfl
    exact ⟨rfl, h1, h2, h3⟩

/-- **C57**, count vectorizer (both values of `binary`), in any analysis configuration. -/
theorem C57_count_vectorizer (lib : TextLib) (v : CountVectorizer) :
    BatchIndependent (fun _ => True) fun docs => rowsOf (v.transform (F := F) lib (some docs)) :=
  v.batch lib

/-- **C57**, tf-idf transformer and vectorizer.  Missing: `binary=True`, where the code hands a
plain list of dicts to the transformer and the claim is false (`C57_false_tfidf_binary`). -/
theorem C57_tfidf_partial (lib : TextLib) (v : CountVectorizer) (t : Tfidf F) (hb : v.binary = false)
    (size : Option Nat) (dt : DType) :
    (BatchIndependent (fun _ => True) fun A : List (Dict Int F) =>
      rowsOf (t.transform (.sparse A size dt) >>= fun p => .ok p.1)) ∧
    (BatchIndependent (fun _ => True) fun docs =>
      rowsOf (tfidfVectorizerTransform lib v t (some docs))) :=
  ⟨t.batch size dt, tfidfVectorizer_batch lib v t hb⟩

/-- **C57**, hashing vectorizer.  Missing: `binary=True`, where the claim is false
(`C57_false_hashing`). -/
theorem C57_hashing_partial (lib : TextLib) (encode : Str → List Nat) (v : HashingVectorizer)
    (hb : v.binary = false) :
    BatchIndependent (fun _ => True) fun docs =>
      rowsOf (v.transform (F := F) lib encode (some docs)) :=
  v.batch lib encode hb

/-- **C57**, dict vectorizer. -/
theorem C57_dict_vectorizer (v : DictVectorizer) :
    BatchIndependent (fun _ => True) fun xs => rowsOf (v.transform (F := F) (.many xs)) :=
  v.batch

/-- **C57**, missing indicator.  Missing: `error_on_new` with "missing-only", where the claim is
false (`C57_false_indicator`). -/
theorem C57_indicator_partial (m : MissingIndicator F) (hf : m.features.Nodup)
    (hr : ∀ j ∈ m.features, j < m.nFeatures) (he : m.errorOnNew = false ∨ m.missingOnly = false) :
    BatchIndependent (fun x : List F => x.length = m.nFeatures) fun M => m.transform (.ofMat M) :=
  m.batch hf hr he

end positive

/-- What batch independence gives a caller: splitting a request anywhere. -/
theorem C57_split {ρ β : Type} {P : ρ → Prop} {f : List ρ → Py (List β)} (h : BatchIndependent P f)
    {A B : List ρ} (hA : A ≠ []) (hB : B ≠ []) (hPA : ∀ r ∈ A, P r) (hPB : ∀ r ∈ B, P r)
    {a b : List β} (ha : f A = .ok a) (hb : f B = .ok b) : f (A ++ B) = .ok (a ++ b) :=
  (h.1 A B hA hB hPA hPB _).2 ⟨a, b, ha, hb, rfl⟩

/-- **C57 is false** of the missing indicator with `error_on_new` and "missing-only": each of two
records is accepted alone, the batch of the two raises ValueError, because the number of missing
values in the batch is compared with the feature indices. -/
theorem C57_false_indicator :
    (∃ y, (newIndicator 1).transform (.ofMat [[.nan, .fin 1]]) = .ok y) ∧
    (newIndicator 1).transform (.ofMat [[.nan, .fin 1], [.nan, .fin 1]]) = .error .valueError ∧
    ¬ BatchIndependent (fun x : List Ex => x.length = 2) fun M => (newIndicator 1).transform (.ofMat M) := by
  have h2 : (newIndicator 1).transform (.ofMat [[.nan, .fin 1], [.nan, .fin 1]]) = .error .valueError := by
    rw [C31_error_on_new_partial (newIndicator 1) (.fin 0) (by simp) (by simp [Rect, newIndicator])
      (by simp [newIndicator]) (by simp [newIndicator]) rfl rfl]
    exact ⟨0, by decide, by simp [countMissing, newIndicator, toImpute_nan],
      by simp [countMissing, newIndicator, toImpute_nan]⟩
  refine ⟨⟨_, C31_false_silent⟩, h2, fun h => ?_⟩
  have := C57_split h (A := [[.nan, .fin 1]]) (B := [[.nan, .fin 1]]) (by simp) (by simp) (by simp)
    (by simp) C31_false_silent C31_false_silent
  rw [show ([[XR.nan, XR.fin 1]] ++ [[XR.nan, XR.fin 1]] : List (List Ex)) =
    [[.nan, .fin 1], [.nan, .fin 1]] from rfl, h2] at this
  cases this

/-- Text functions for the counterexample: a document is one token, the empty one has none. -/
def lib57 : TextLib := ⟨fun _ => false, id, id, fun _ => false, fun s => if s.isEmpty then [] else [s]⟩

/-- A binary hashing vectorizer with two buckets and l2 norm. -/
def hv57 : HashingVectorizer := ⟨⟨.word, 1, 1, .none, .none, false⟩, 2, true, some .l2, false, .float⟩

theorem hashIndex57 : hashIndex (murmur [0] 0) 2 = 1 := by decide

/-- The rows before normalisation. -/
def bucket57 : Str → Row Ex := fun s => if s.isEmpty then .dict [] else .dict [(1, .fin 1)]

theorem hv57_eq (docs : List Str) (hd : docs ≠ []) (h1 : ∀ d ∈ docs, d = [] ∨ d = ['a']) :
    hv57.transform (F := Ex) lib57 (fun s => s.map fun _ => 0) (some docs) =
      normalizePure (.list (docs.map bucket57)) .l2 := by
  have hv : validateNFeatures hv57.nFeatures = .ok 2 := by decide
  have ht : hashingTransform (F := Ex) (fun s => s.map fun _ => 0)
      (docs.map fun d => (if d.isEmpty then [] else [d]).map fun f => (f, FeatVal.num (ofInt 1))) 2 .float
        false = .ok (.sparse (docs.map fun d => if d.isEmpty then [] else [(1, .fin 1)]) (some 2) .float) := by
    have := sparseList_dicts (F := Ex) (ds := docs.map fun d : Str => if d.isEmpty then [] else [(1, .fin 1)])
      (by simpa using hd) (some 2) .float
    rw [← this]
    simp only [hashingTransform, List.map_map]
    rw [if_neg (by decide)]
    congr 2
    apply List.map_congr_left
    intro d hd'
    rcases h1 d hd' with rfl | rfl
    · rfl
    · have h0 : ((ofInt 1 : Ex) ==ₚ ofInt 0) = false := by
        simp [XR.ofInt_exact, XR.eq_fin]
      simp only [Function.comp, List.isEmpty_cons, Bool.false_eq_true, if_false, List.map_cons,
        List.map_nil, List.foldl_cons, List.foldl_nil, hashStep, h0, hashIndex57]
      simp [Dict.set, XR.ofInt_exact]
  have e : hv57.transform (F := Ex) lib57 (fun s => s.map fun _ => 0) (some docs) = (do
      let X ← hashingTransform (F := Ex) (fun s => s.map fun _ => 0)
        (docs.map fun d => (if d.isEmpty then [] else [d]).map fun f => (f, FeatVal.num (ofInt 1))) 2 .float
        false
      let X ← fromkeysOne X
      normalizePure X .l2) := by
    simp only [HashingVectorizer.transform, featureHasher_string, hv, py_ok_bind]
    rfl
  rw [e, ht, py_ok_bind, fromkeysOne_sparse, py_ok_bind, List.map_map]
  congr 2
  apply List.map_congr_left
  intro d _
  simp only [Function.comp, bucket57]
  cases d.isEmpty <;> simp [Dict.mapVals, XR.ofInt_exact]

/-- **C57 is false** of the hashing vectorizer with `binary=True`: the document alone raises
KeyError, but it succeeds in a batch whose first document is empty, because the result is a plain
list of dicts whose width is taken from the first one. -/
theorem C57_false_hashing :
    hv57.transform (F := Ex) lib57 (fun s => s.map fun _ => 0) (some [['a']]) = .error .keyError ∧
    (∃ c, hv57.transform (F := Ex) lib57 (fun s => s.map fun _ => 0) (some [[], ['a']]) = .ok c) ∧
    ¬ BatchIndependent (fun _ => True) fun docs =>
      rowsOf (hv57.transform (F := Ex) lib57 (fun s => s.map fun _ => 0) (some docs)) := by
  have h1 : hv57.transform (F := Ex) lib57 (fun s => s.map fun _ => 0) (some [['a']]) =
      .error .keyError := by
    rw [hv57_eq _ (by simp) (by simp)]
    rfl
  have h2 : ∃ c, hv57.transform (F := Ex) lib57 (fun s => s.map fun _ => 0) (some [[], ['a']]) =
      .ok (.ofMat c) := by
    rw [hv57_eq _ (by simp) (by simp)]
    have hn : denseNorms .l2 (.list [bucket57 [], bucket57 ['a']] : Arr Ex) = .ok [.fin 0, .fin 0] := by
      have e : denseNorms .l2 (.list [bucket57 [], bucket57 ['a']] : Arr Ex) =
          [ofInt 0, ofInt 0].mapM Arith.sqrt := rfl
      have h0 : Arith.sqrt (ofInt 0 : Ex) = .ok (.fin 0) := by
        rw [XR.ofInt_exact, XR.sqrt_exact (by simp)]; simp
      rw [e, mapM_cons', mapM_cons', h0]
      rfl
    have hz : handleZeros ([.fin 0, .fin 0] : List Ex) = [.fin 1, .fin 1] := by
      simp [handleZeros, XR.ofInt_exact, XR.eq_fin]
    have e : normalizePure (.list [bucket57 [], bucket57 ['a']] : Arr Ex) .l2 = (do
        let q ← denseNorms .l2 (.list [bucket57 [], bucket57 ['a']] : Arr Ex)
        let rs' ← (List.zip [bucket57 [], bucket57 ['a']] (handleZeros q)).mapM fun p => do
          (← p.1.iter).mapM fun a => a /ₚ p.2
        return .ofMat rs') := by
      simp only [normalizePure, normalizePure', Arr.issparse, Bool.and_false, Bool.false_eq_true,
        if_false, checkArray, List.length_cons, List.length_nil, py_ok_bind, reduceCtorEq,
        show ((1 : Int) == 0) = false from rfl, show ((1 : Int) == 1) = true from rfl, Bool.or_true,
        Bool.not_true, py_pure, Bool.false_and, normalizeRows, Arr.rows, bind_assoc, Nat.add_one_ne_zero]
    refine ⟨[[], [.fin 1]], ?_⟩
    show normalizePure (.list [bucket57 [], bucket57 ['a']] : Arr Ex) .l2 = _
    rw [e, hn, py_ok_bind, hz]
    have hd : (ofInt 1 : Ex) /ₚ (.fin 1) = .ok (.fin 1) := by
      rw [XR.ofInt_exact, XR.div_exact _ (by norm_num)]; simp
    have e2 : (List.zip [bucket57 [], bucket57 ['a']] [.fin 1, .fin 1] : List (Row Ex × Ex)).mapM (fun p => do
          (← p.1.iter).mapM fun a => a /ₚ p.2) = (do
          let x ← (ofInt 1 : Ex) /ₚ (.fin 1)
          (.ok [[], [x]] : Py (List (List Ex)))) := by
      rw [hd]
      simp only [List.zip_cons_cons, List.zip_nil_left, mapM_cons', mapM_nil', bucket57]
      have e3 : (Row.dict [(1, .fin 1)] : Row Ex).iter = .ok [ofInt 1] := rfl
      have e4 : (Row.dict [] : Row Ex).iter = .ok [] := rfl
      have hd' : (.fin 1 : Ex) /ₚ (.fin 1) = .ok (.fin 1) := by
        rw [XR.div_exact _ (by norm_num)]; simp
      simp [e3, e4, hd']
    rw [e2, hd]
    rfl
  refine ⟨h1, ⟨_, h2.choose_spec⟩, fun h => ?_⟩
  obtain ⟨c, hc⟩ := h2
  have := (h.1 [[]] [['a']] (by simp) (by simp) (by simp) (by simp) (c.map Row.list)).1 (by
    show rowsOf (hv57.transform (F := Ex) lib57 _ (some [[], ['a']])) = _
    rw [rowsOf, hc, py_ok_bind, rows_ofMat])
  obtain ⟨a, b, -, hb, -⟩ := this
  simp only [rowsOf, h1, py_error_bind, reduceCtorEq] at hb

/-- A binary tf-idf vectorizer whose only word is "a". -/
def tv57 : CountVectorizer := ⟨⟨.word, 1, 1, .none, .none, false⟩, [(['a'], 0)], true, .float⟩

/-- **C57 is false** of the tf-idf vectorizer with `binary=True` and without a norm, in any arithmetic and for any weight: a
document without known words raises NameError alone and is answered behind a document with all the words, because the
width of a plain list of dicts is taken from the first one. -/
theorem C57_false_tfidf_binary {F : Type} [Arith F] (w : F) :
    tfidfVectorizerTransform lib57 tv57 ⟨none, true, false, [w], 1⟩ (some [[]]) = .error .nameError ∧
    tfidfVectorizerTransform lib57 tv57 ⟨none, true, false, [w], 1⟩ (some [['a'], []]) = .ok (.list [.dict [(0, ofInt 1 *ₚ w)], .dict []]) ∧
    ¬ BatchIndependent (fun _ => True) fun docs =>
      rowsOf (tfidfVectorizerTransform lib57 tv57 ⟨none, true, false, [w], 1⟩ (some docs)) := by
  have h1 : tfidfVectorizerTransform lib57 tv57 ⟨none, true, false, [w], 1⟩ (some [[]]) = .error .nameError := rfl
  have h2 : tfidfVectorizerTransform lib57 tv57 ⟨none, true, false, [w], 1⟩ (some [['a'], []]) = .ok (.list [.dict [(0, ofInt 1 *ₚ w)], .dict []]) := rfl
  refine ⟨h1, h2, fun h => ?_⟩
  have := (h.1 [['a']] [[]] (by simp) (by simp) (by simp) (by simp) _).1 (by
    show rowsOf (tfidfVectorizerTransform lib57 tv57 ⟨none, true, false, [w], 1⟩ (some [['a'], []])) = .ok _
    rw [rowsOf, h2, py_ok_bind]
    rfl)
  obtain ⟨a, b, -, hb, -⟩ := this
  simp only [rowsOf, h1, py_error_bind, reduceCtorEq] at hb

/-! ### Non-vacuity -/

/-- A stump on feature 0: class 0 up to 1/2, class 1 above. -/
noncomputable def stump57 : Tree Ex Nat := ⟨[1, -1, -1], [2, -1, -1], [0, -2, -2], [.fin (1 / 2), .fin 0, .fin 0],
  [[.fin 1, .fin 1], [.fin 1, .fin 0], [.fin 0, .fin 1]], [0, 1]⟩

/-- A forest of two stumps meets the hypotheses. -/
example : BatchIndependent (fun _ => True) fun A =>
    (⟨none, [0, 1], [stump57, stump57].map fun t => ⟨t.predictProba⟩⟩ : Bagging Ex Nat).predict (.ofMat A) :=
  (C57_forest none [0, 1] [stump57, stump57] 2 (by
    intro t ht v hv
    simp at ht
    subst ht
    simp [stump57] at hv
    rcases hv with rfl | rfl | rfl <;> rfl)).1

/-- Batches on which the conclusion says something: a document batch succeeds. -/
example (lib : TextLib) : ∃ c, rowsOf ((⟨⟨.word, 1, 1, .none, .none, false⟩, [(['a'], 0)], false, .int⟩ :
    CountVectorizer).transform (F := Ex) lib (some [['a'], ['b']])) = .ok c :=
  ⟨_, by
    simp only [rowsOf, CountVectorizer.transform]
    rw [CountVectorizer.countVocab_eq lib _ (by simp)]
    rfl⟩

/-- A fitted encoder with two features. -/
example : BatchIndependent (fun x : List Nat => x.length = 2) fun R =>
    (⟨[[0, 1], [5, 6]], .float, true, true⟩ : Encoder Nat).ordinal (F := Ex) (.ofMat R) :=
  (C57_encoders _ 2 ⟨rfl, by simp⟩).1

/-- A Gaussian model with classes. -/
example (m : GaussianNB Ex Nat) (h : m.classes = [0, 1]) : NBBatch m.jll m.classes :=
  C57_naive_bayes_gaussian m (by simp [h])

/-- An imputer with an indicator on column 1. -/
example : BatchIndependent (fun x : List Ex => x.length = 2) fun M =>
    rowsOf ((SimpleImputer.ofFitted [.fin 1, .fin 2] false true .nan
      (some ⟨true, [1], 2, .nan, true⟩)).transform (.ofMat M)) :=
  C57_imputer (F := Ex) [.fin 1, .fin 2] false true .nan (some ⟨true, [1], 2, .nan, true⟩) (by simp) (by
    intro i hi
    cases hi
    simp)

end PurePredict
