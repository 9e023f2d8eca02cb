import Verif.Props.C02
import Verif.Props.C04
import Verif.Props.C05
import Verif.Props.C36
import Verif.Props.C41
/-
C72: a text classification pipeline (TfidfVectorizer, then a linear classifier) end to end.
-/
namespace PurePredict
open Spec
variable {C : Type}

/-! ### Specification -/

/-- tf-idf of a bag of features: occurrences of each term times its idf weight. -/
noncomputable def Spec.tfidfOf (terms : List Str) (idf : List ℝ) (features : List Str) : List ℝ :=
  List.zipWith (fun t w => (features.count t : ℝ) * w) terms idf

/-- The score of class `c` for a document with these features. -/
noncomputable def Spec.textScore (N : List ℝ → ℝ) (terms : List Str) (idf : List ℝ) (W : List (List ℝ))
    (b : List ℝ) (features : List Str) (c : Nat) : ℝ :=
  linScore terms.length W b (unitBy N (tfidfOf terms idf features)) c

/-! ### The pipeline -/

/-- What flows through a text pipeline: documents, then matrices. -/
inductive TextData (F : Type)
  | docs (ds : List Str)
  | arr (X : Arr F)

/-- `TfidfVectorizerPure` as a pipeline step (text.py:397-400).  Documents only: iterating over a
matrix instead is not modelled. -/
def vectorizerStep {F L P : Type} [Arith F] (lib : TextLib) (v : CountVectorizer) (t : Tfidf F) :
    Est (TextData F) L P where
  transform := some fun
    | .docs ds => do return .arr (← tfidfVectorizerTransform lib v t (some ds))
    | .arr _ => .error .typeError
  predict := none
  predictProba := none
  predictLogProba := none

/-- A converted `LogisticRegression` as a pipeline step (linear_model/_base.py:50-57,
_logistic.py:23-44).  Simplified: documents given straight to the classifier (which cannot happen behind
a vectorizer) are a TypeError here. -/
def logisticStep {F : Type} [Arith F] (m : Linear F C) :
    Est (TextData F) (List C) (List (List F)) where
  transform := none
  predict := some fun
    | .arr X => m.predict X
    | .docs _ => .error .typeError
  predictProba := some fun
    | .arr X => m.predictProba X
    | .docs _ => .error .typeError
  predictLogProba := some fun
    | .arr X => m.predictLogProba X
    | .docs _ => .error .typeError

/-- The converted pipeline (pipeline.py:75-125). -/
def textPipeline {F : Type} [Arith F] (lib : TextLib) (v : CountVectorizer) (t : Tfidf F)
    (m : Linear F C) : Pipeline (TextData F) (List C) (List (List F)) :=
  ⟨[("tfidf", some (vectorizerStep lib v t)), ("clf", some (logisticStep m))]⟩

theorem textPipeline_eq {F : Type} [Arith F] (lib : TextLib) (v : CountVectorizer) (t : Tfidf F)
    (m : Linear F C) (ds : List Str) :
    (textPipeline lib v t m).predict (.docs ds) =
      (tfidfVectorizerTransform lib v t (some ds) >>= m.predict) ∧
    (textPipeline lib v t m).predictProba (.docs ds) =
      (tfidfVectorizerTransform lib v t (some ds) >>= m.predictProba) ∧
    (textPipeline lib v t m).predictLogProba (.docs ds) =
      (tfidfVectorizerTransform lib v t (some ds) >>= m.predictLogProba) := by
  refine ⟨?_, ?_, ?_⟩ <;>
  · simp only [textPipeline, Pipeline.predict, Pipeline.predictProba, Pipeline.predictLogProba,
      Pipeline.delegated, Pipeline.finalEstimator, Pipeline.front, logisticStep, vectorizerStep,
      List.getLast?_cons_cons, List.getLast?_singleton, List.dropLast_cons_cons, List.dropLast_singleton,
      Pipeline.applyAll, py_ok_bind, py_pure]
    cases tfidfVectorizerTransform lib v t (some ds) <;> rfl

/-- A fitted vectorizer with its terms in column order and real idf weights: not binary, idf
weighting on, sublinear off, l1 or l2 norm (C35, C36 treat the rest). -/
structure FittedTfidf (v : CountVectorizer) (t : Tfidf Ex) (terms : List Str) (idf : List ℝ)
    (n : Norm) : Prop where
  binary : v.binary = false
  vocab : FittedVocab v.vocabulary
  size : terms.length = v.vocabulary.length
  termAt : ∀ (j : Nat) (hj : j < terms.length), (terms[j], (j : Int)) ∈ v.vocabulary
  idf_eq : t.idf = fins idf
  idf_len : idf.length = terms.length
  expected : t.expectedNFeatures = terms.length
  sublinear : t.sublinearTf = false
  useIdf : t.useIdf = true
  norm : t.norm = some n
  norm_ok : n = .l1 ∨ n = .l2

theorem tfidfOf_eq {v : CountVectorizer} {t : Tfidf Ex} {terms : List Str} {idf : List ℝ} {n : Norm}
    (h : FittedTfidf v t terms idf n) (fs : List Str) :
    tfidfDense idf (termCounts v.vocabulary fs) = tfidfOf terms idf fs := by
  apply List.ext_getElem
  · simp [tfidfDense, termCounts, tfidfOf, ← h.size, h.idf_len]
  · intro j h1 h2
    have hj : j < terms.length := by simp [tfidfOf] at h2; exact h2.1
    have hg : v.vocabulary.get? terms[j] = some (j : Int) :=
      Dict.get?_eq_some_of_mem h.vocab.terms (h.termAt j hj)
    simp [tfidfDense, termCounts, tfidfOf, codeCount_eq_count h.vocab hg]

/-- What the vectorizer hands to the classifier is as good as the dense tf-idf rows. -/
theorem text_dense {v : CountVectorizer} {t : Tfidf Ex} {terms : List Str} {idf : List ℝ} {n : Norm}
    (h : FittedTfidf v t terms idf n) {lib : TextLib} {an : Str → List Str}
    (han : buildAnalyzer lib v.opts = .ok an) {m : Linear Ex C} {k : Nat} {W : List (List ℝ)} {b : List ℝ}
    (hm : m.IsExact terms.length k W b) {docs : List Str} (hd : docs ≠ []) :
    ∃ X, tfidfVectorizerTransform lib v t (some docs) = .ok X ∧
      m.SameOutputs X (.ofMat ((docs.map fun d => unitBy (normOf n) (tfidfOf terms idf (an d))).map fins)) ∧
      Rect terms.length (docs.map fun d => unitBy (normOf n) (tfidfOf terms idf (an d))) := by
  have hrect : Rect terms.length (docs.map fun d => unitBy (normOf n) (tfidfOf terms idf (an d))) := by
    intro r hr
    obtain ⟨d, _, rfl⟩ := List.mem_map.1 hr
    unfold unitBy
    split <;> simp [tfidfOf, h.idf_len]
  obtain ⟨ds', h1, h2, h3⟩ := C36_vectorizer_partial lib v h.binary h.vocab han hd t idf h.idf_eq h.sublinear
    h.useIdf n h.norm_ok h.norm (by rw [h.idf_eq, fins_length, h.idf_len, h.expected])
    (by rw [h.expected, h.size])
  refine ⟨_, h1, ?_, hrect⟩
  have hne : ds' ≠ [] := by
    intro e
    subst e
    cases docs with
    | nil => exact hd rfl
    | cons d docs => simp at h3
  rw [← h.size] at h2 h3 h1 ⊢
  obtain ⟨D, hD, hsame⟩ := C02_sparse_dense_agree m terms.length W hm.coef hm.rect ds' hne h2 v.dtype
  have hz := todense_sparse (ds := ds'.map finD) (n := terms.length) (castTo_zero_exact v.dtype)
  rw [hz] at hD
  cases hD
  have e : (ds'.map finD).map (dense (.fin 0 : Ex) terms.length) =
      (docs.map fun d => unitBy (normOf n) (tfidfOf terms idf (an d))).map fins := by
    have h4 : docs.map (fun d => unitBy (normOf n) (tfidfOf terms idf (an d))) =
        ds'.map (dense 0 terms.length) := by
      rw [h3]
      exact List.map_congr_left fun d _ => by rw [tfidfOf_eq h]
    rw [h4, List.map_map, List.map_map]
    exact List.map_congr_left fun d _ => dense_finD _ d
  rw [← e]
  exact hsame

section
variable {v : CountVectorizer} {t : Tfidf Ex} {terms : List Str} {idf : List ℝ} {n : Norm}
  (h : FittedTfidf v t terms idf n) {lib : TextLib} {an : Str → List Str}
  (han : buildAnalyzer lib v.opts = .ok an) {m : Linear Ex C} {W : List (List ℝ)} {b : List ℝ}
include h han

/-- **C72**, two classes, exact arithmetic: for every list of documents, the probability of the
second class is the logistic function of the score, and the label is the second class exactly when
the score is positive. -/
theorem C72_binary (hm : m.IsExact terms.length 1 W b) (ho : m.isOvr = .ok true) (c0 c1 : C)
    (hc : m.classes = [c0, c1]) (docs : List Str) (hd : docs ≠ []) :
    (textPipeline lib v t m).predictProba (.docs docs) = .ok (docs.map fun d =>
      fins [1 - sigmoid (textScore (normOf n) terms idf W b (an d) 0),
        sigmoid (textScore (normOf n) terms idf W b (an d) 0)]) ∧
    (textPipeline lib v t m).predict (.docs docs) = .ok (docs.map fun d =>
      if 0 < textScore (normOf n) terms idf W b (an d) 0 then c1 else c0) := by
  obtain ⟨X, hX, hsame, hrect⟩ := text_dense h han hm hd
  obtain ⟨e1, e2, -⟩ := textPipeline_eq lib v t m docs
  obtain ⟨-, s1, -, s2, -⟩ := hsame
  have hne : (docs.map fun d => unitBy (normOf n) (tfidfOf terms idf (an d))) ≠ [] := by simpa using hd
  constructor
  · rw [e2, hX, py_ok_bind, s2, C05_ovr_uses_lr m _ ho, C05_lr_binary m _ W b hm _ hne hrect, List.map_map]
    rfl
  · rw [e1, hX, py_ok_bind, s1, (C04_binary m _ W b hm c0 c1 hc _ hne hrect).2, List.map_map]
    rfl

/-- **C72**, several classes, multinomial: softmax of the scores; the label is that of the first
largest score. -/
theorem C72_multinomial {k : Nat} (hm : m.IsExact terms.length k W b) (hk : 2 ≤ k)
    (ho : m.isOvr = .ok false) (hc : m.classes.length = k) (docs : List Str) (hd : docs ≠ []) :
    (textPipeline lib v t m).predictProba (.docs docs) = .ok (docs.map fun d =>
      fins ((List.range k).map (softmax k (textScore (normOf n) terms idf W b (an d))))) ∧
    ∃ labels, (textPipeline lib v t m).predict (.docs docs) = .ok labels ∧
      List.Forall₂ (fun d l => ∃ i,
        IsFirstMax ((List.range k).map (textScore (normOf n) terms idf W b (an d))) i ∧
        m.classes[i]? = some l) docs labels := by
  obtain ⟨X, hX, hsame, hrect⟩ := text_dense h han hm hd
  obtain ⟨e1, e2, -⟩ := textPipeline_eq lib v t m docs
  obtain ⟨-, s1, -, s2, -⟩ := hsame
  have hne : (docs.map fun d => unitBy (normOf n) (tfidfOf terms idf (an d))) ≠ [] := by simpa using hd
  constructor
  · rw [e2, hX, py_ok_bind, s2, C05_multinomial m _ k W b hm hk ho _ hne hrect, List.map_map]
    rfl
  · obtain ⟨-, ls, h1, h2⟩ := C04_multiclass m _ k W b hm hk hc _ hne hrect
    refine ⟨ls, by rw [e1, hX, py_ok_bind, s1, h1], ?_⟩
    rw [List.forall₂_map_left_iff] at h2
    exact h2

/-- **C72**, several classes, one-vs-rest: normalised logistic functions of the scores. -/
theorem C72_ovr {k : Nat} (hm : m.IsExact terms.length k W b) (hk : 2 ≤ k)
    (ho : m.isOvr = .ok true) (docs : List Str) (hd : docs ≠ []) :
    (textPipeline lib v t m).predictProba (.docs docs) = .ok (docs.map fun d =>
      fins ((List.range k).map (ovr k (textScore (normOf n) terms idf W b (an d))))) := by
  obtain ⟨X, hX, hsame, hrect⟩ := text_dense h han hm hd
  obtain ⟨-, e2, -⟩ := textPipeline_eq lib v t m docs
  obtain ⟨-, -, -, s2, -⟩ := hsame
  have hne : (docs.map fun d => unitBy (normOf n) (tfidfOf terms idf (an d))) ≠ [] := by simpa using hd
  rw [e2, hX, py_ok_bind, s2, C05_ovr_uses_lr m _ ho, C05_lr_multiclass m _ k W b hm hk _ hne hrect,
    List.map_map]
  rfl

end

/-- **C72**, bag of words: the score depends only on how often each term of the vocabulary occurs,
not on the order of the features nor on features outside the vocabulary. -/
theorem C72_bag (N : List ℝ → ℝ) (terms : List Str) (idf : List ℝ) (W : List (List ℝ)) (b : List ℝ)
    {fs gs : List Str} (hc : ∀ x ∈ terms, fs.count x = gs.count x) (c : Nat) :
    textScore N terms idf W b fs c = textScore N terms idf W b gs c := by
  have : tfidfOf terms idf fs = tfidfOf terms idf gs := by
    apply List.ext_getElem
    · simp [tfidfOf]
    · intro j h1 h2
      have hj : j < terms.length := by simp [tfidfOf] at h2; exact h2.1
      simp [tfidfOf, hc _ (List.getElem_mem hj)]
  simp only [textScore, this]

/-- **C72**, unknown documents: a document without any known term gets the intercepts as scores. -/
theorem C72_unknown (N : List ℝ → ℝ) (terms : List Str) (idf : List ℝ) (W : List (List ℝ)) (b : List ℝ)
    {fs : List Str} (hf : ∀ f ∈ fs, f ∉ terms) (c : Nat) :
    textScore N terms idf W b fs c = b.getD c 0 := by
  have hz : ∀ x ∈ unitBy N (tfidfOf terms idf fs), x = 0 := by
    have h0 : ∀ x ∈ tfidfOf terms idf fs, x = 0 := by
      intro x hx
      obtain ⟨j, hj, rfl⟩ := List.getElem_of_mem hx
      have hj' : j < terms.length := by simp [tfidfOf] at hj; exact hj.1
      have : fs.count terms[j] = 0 :=
        List.count_eq_zero.2 fun hm => hf _ hm (List.getElem_mem hj')
      simp [tfidfOf, this]
    intro x hx
    unfold unitBy at hx
    split at hx
    · exact h0 x hx
    · obtain ⟨y, hy, rfl⟩ := List.mem_map.1 hx
      simp [h0 y hy]
  unfold textScore linScore
  rw [Finset.sum_eq_zero, zero_add]
  intro i _
  have : (unitBy N (tfidfOf terms idf fs)).getD i 0 = 0 := by
    rw [List.getD_eq_getElem?_getD]
    cases hg : (unitBy N (tfidfOf terms idf fs))[i]? with
    | none => rfl
    | some x => exact hz x (List.mem_of_getElem? hg)
  rw [this, zero_mul]

/-! ### Non-vacuity -/

/-- Two terms with idf 1 and 2, l2 norm. -/
noncomputable def catDogTfidf : Tfidf Ex :=
  { norm := some .l2, useIdf := true, sublinearTf := false, idf := fins [1, 2], expectedNFeatures := 2 }

theorem catDogFitted : FittedTfidf ⟨plainOpts, catDog, false, .int⟩ catDogTfidf ["cat".toList, "dog".toList]
    [1, 2] .l2 where
  binary := rfl
  vocab := catDog_fitted
  size := rfl
  termAt := by
    intro j hj
    have : j = 0 ∨ j = 1 := by simp at hj; omega
    rcases this with rfl | rfl <;> simp [catDog]
  idf_eq := rfl
  idf_len := rfl
  expected := rfl
  sublinear := rfl
  useIdf := rfl
  norm := rfl
  norm_ok := .inr rfl

noncomputable def catDogModel : Linear Ex String :=
  { coef := [fins [1, -1]], classes := ["d", "c"], intercept := some (fins [0]), multiClass := some "ovr",
    solver := none, loss := none }

theorem catDogModel_exact : catDogModel.IsExact 2 1 [[1, -1]] [0] where
  coef := rfl
  rect := by simp [Rect]
  rows := rfl
  intercept := rfl
  len := rfl
  pos := by norm_num

/-- A document with one cat and one dog: the tf-idf direction is (1,2), so the score is negative and
the label is "d". -/
example : (textPipeline plainLib ⟨plainOpts, catDog, false, .int⟩ catDogTfidf catDogModel).predict
    (.docs ["dog cat".toList]) = .ok ["d"] := by
  rw [(C72_binary catDogFitted plain_analyzer catDogModel_exact rfl "d" "c" rfl ["dog cat".toList]
    (by simp)).2]
  have ha : wordNgrams 1 1 (splitWs (· == ' ') "dog cat".toList) none = ["dog".toList, "cat".toList] := by
    decide
  have hv : tfidfOf ["cat".toList, "dog".toList] [1, 2] ["dog".toList, "cat".toList] = [1, 2] := by
    simp [tfidfOf]
  have hneg : ¬ 0 < textScore (normOf .l2) ["cat".toList, "dog".toList] [1, 2] [[1, -1]] [0]
      ["dog".toList, "cat".toList] 0 := by
    have hs : 0 ≤ normOf .l2 [1, 2] := Real.sqrt_nonneg _
    unfold textScore
    rw [hv]
    unfold unitBy
    split
    · simp [linScore, Finset.sum_range_succ]
    · have := inv_nonneg.2 hs
      simp [linScore, Finset.sum_range_succ, div_eq_mul_inv]
      linarith
  simp only [List.map_cons, List.map_nil, ha, if_neg hneg]

/-- A document of unknown words has score 0 (the intercept), so it gets the first class, "d". -/
example : (textPipeline plainLib ⟨plainOpts, catDog, false, .int⟩ catDogTfidf catDogModel).predict
    (.docs ["bird".toList]) = .ok ["d"] := by
  rw [(C72_binary catDogFitted plain_analyzer catDogModel_exact rfl "d" "c" rfl ["bird".toList]
    (by simp)).2]
  have ha : wordNgrams 1 1 (splitWs (· == ' ') "bird".toList) none = ["bird".toList] := by decide
  simp only [List.map_cons, List.map_nil, ha]
  rw [C72_unknown _ _ _ _ _ (by simp)]
  simp

end PurePredict
