import Verif.Lemmas.TextUnion
import Verif.Props.C72
import Verif.Props.C86
/-
C87: feature unions of text vectorizers, and text pipelines built from them, end to end.
-/
namespace PurePredict
open Spec
variable {C : Type}

/-! ### Specification -/
namespace Spec
/-- What a text transformer computes: a fixed number of columns, and a row for every document. -/
structure TextMap where
  width : Nat
  row : Str → List ℝ

/-- The transformer `t` computes the map `m` on the documents satisfying `P`: for every non-empty list of
them a sparse matrix of finite numbers whose rows are those of `m`. -/
structure Computes (P : Str → Prop) (t : List Str → Py (Arr Ex)) (m : TextMap) : Prop where
  pos : 0 < m.width
  rows : ∀ docs ≠ [], (∀ d ∈ docs, P d) → ∃ (ds : List (Dict Int ℝ)) (dt : DType),
    t docs = .ok (.sparse (ds.map finD) (some m.width) dt) ∧ (∀ d ∈ ds, ValidRow m.width d) ∧
      ds.map (dense 0 m.width) = docs.map m.row

/-- Maps side by side. -/
def TextMap.beside (ms : List TextMap) : TextMap :=
  ⟨(ms.map TextMap.width).sum, fun d => (ms.map fun m => m.row d).flatten⟩

/-- Occurrences of each term. -/
noncomputable def countMap (terms : List Str) (an : Str → List Str) : TextMap :=
  ⟨terms.length, fun d => terms.map fun t => ((an d).count t : ℝ)⟩

/-- Normalised tf-idf weights of each term. -/
noncomputable def tfidfMap (N : List ℝ → ℝ) (terms : List Str) (idf : List ℝ) (an : Str → List Str) : TextMap :=
  ⟨terms.length, fun d => unitBy N (tfidfOf terms idf (an d))⟩

/-- Normalised sums of the signs of the tokens hashed to each column. -/
noncomputable def hashMap (n : Nat) (alt : Bool) (norm : Option Norm) (an : Str → List Str) : TextMap :=
  ⟨n, fun d => scaled norm (hashedSums coreUtf8 n alt (an d))⟩

/-- The columns `[k, k + w)` of the coefficient rows. -/
def columnsFrom (k w : Nat) (W : List (List ℝ)) : List (List ℝ) := W.map fun r => (r.drop k).take w
end Spec

theorem Spec.Computes.width {P : Str → Prop} {t : List Str → Py (Arr Ex)} {m : TextMap} (h : Computes P t m)
    {d : Str} (hd : P d) : (m.row d).length = m.width := by
  obtain ⟨ds, dt, -, -, h3⟩ := h.rows [d] (by simp) (by simpa using hd)
  have hm : m.row d ∈ ds.map (dense 0 m.width) := by rw [h3]; simp
  obtain ⟨r, -, hr⟩ := List.mem_map.1 hm
  rw [← hr]
  exact dense_length _ _ _

/-! ### The three vectorizers -/

/-- **C87**: a fitted CountVectorizer (not binary) counts. -/
theorem C87_count (lib : TextLib) {v : CountVectorizer} (hb : v.binary = false) (hv : FittedVocab v.vocabulary)
    {an : Str → List Str} (han : buildAnalyzer lib v.opts = .ok an) {terms : List Str}
    (hsize : terms.length = v.vocabulary.length) (hpos : 0 < terms.length)
    (hterm : ∀ (j : Nat) (hj : j < terms.length), (terms[j], (j : Int)) ∈ v.vocabulary) :
    Computes (fun _ => True) (fun docs => v.transform lib (some docs)) (countMap terms an) := by
  refine ⟨hpos, fun docs hd _ => ⟨docs.map fun d => realCounts v.vocabulary (an d), v.dtype, ?_, ?_, ?_⟩⟩
  · rw [C34_transform lib v hb han hd, List.map_map]
    simp only [countRow_finD, countMap, hsize]
    rfl
  · intro r hr
    obtain ⟨d, -, rfl⟩ := List.mem_map.1 hr
    simp only [countMap, hsize]
    exact realCounts_valid hv (an d)
  · rw [List.map_map]
    apply List.map_congr_left
    intro d _
    simp only [Function.comp, countMap, hsize]
    rw [dense_realCounts]
    apply List.ext_getElem
    · simp [termCounts, hsize]
    · intro j h1 h2
      have hj : j < terms.length := by simpa using h2
      have hg : v.vocabulary.get? terms[j] = some (j : Int) :=
        Dict.get?_eq_some_of_mem hv.terms (hterm j hj)
      simp [termCounts, codeCount_eq_count hv hg]

/-- **C87**: a fitted TfidfVectorizer. -/
theorem C87_tfidf (lib : TextLib) {v : CountVectorizer} {t : Tfidf Ex} {terms : List Str} {idf : List ℝ} {n : Norm}
    (h : FittedTfidf v t terms idf n) (hpos : 0 < terms.length) {an : Str → List Str}
    (han : buildAnalyzer lib v.opts = .ok an) :
    Computes (fun _ => True) (fun docs => tfidfVectorizerTransform lib v t (some docs))
      (tfidfMap (normOf n) terms idf an) := by
  refine ⟨hpos, fun docs hd _ => ?_⟩
  obtain ⟨ds', h1, h2, h3⟩ := C36_vectorizer_partial lib v h.binary h.vocab han hd t idf h.idf_eq h.sublinear
    h.useIdf n h.norm_ok h.norm (by rw [h.idf_eq, fins_length, h.idf_len, h.expected])
    (by rw [h.expected, h.size])
  rw [← h.size] at h1 h2 h3
  exact ⟨ds', v.dtype, h1, h2, h3.trans (List.map_congr_left fun d _ => by rw [tfidfOf_eq h]; rfl)⟩

/-- **C87**: a HashingVectorizer, on documents in which no two tokens share a column (otherwise see
C78). -/
theorem C87_hash_partial (lib : TextLib) {v : HashingVectorizer} {an : Str → List Str}
    (han : buildAnalyzer lib v.opts = .ok an) (hb : v.binary = false) (hn : 1 ≤ v.nFeatures)
    (hn' : v.nFeatures ≤ 2147483647) (hnorm : v.norm = none ∨ v.norm = some .l1 ∨ v.norm = some .l2) :
    Computes (fun d => (∀ t ∈ an d, t.length < 2 ^ 30) ∧
        ((an d).map (tokColumn coreUtf8 v.nFeatures.toNat)).Nodup)
      (fun docs => v.transform lib utf8 (some docs))
      (hashMap v.nFeatures.toNat v.alternateSign v.norm an) := by
  refine ⟨by simp only [hashMap]; omega, fun docs hd hP => ?_⟩
  obtain ⟨ds, h1, h2, h3⟩ := C86_vectorizer lib v han hb hn hn' hnorm hd (fun d hd => (hP d hd).1)
    fun d hd => (hP d hd).2
  exact ⟨ds, v.dtype, h1, h2, h3⟩

/-! ### Unions -/

/-- **C87**: a union of text transformers without weights computes their maps side by side; the
documents are those all of its transformers can handle.  Unions can be nested. -/
theorem C87_union_partial {P : Str → Prop} (u : TextUnion Ex) (hw : ∀ t ∈ u.transformers, weightFor u.weights t.1 = none)
    {ms : List TextMap} (hne : ms ≠ [])
    (hms : List.Forall₂ (fun t m => Computes P t.2 m) u.transformers ms) :
    Computes P u.transform (TextMap.beside ms) := by
  have hpos : 0 < (TextMap.beside ms).width := by
    generalize u.transformers = ts at hms
    cases hms with
    | nil => exact absurd rfl hne
    | cons h _ => simp only [TextMap.beside, List.map_cons, List.sum_cons]; have := h.pos; omega
  refine ⟨hpos, fun docs hd hP => ?_⟩
  let X : Arr Ex := .list (docs.map fun _ => .scalar (ofInt 0))
  let bs : List (Block Ex) := ms.map fun m => ⟨true, m.width, (docs.map m.row).map fins⟩
  have hbs : List.Forall₂ (fun (t : String × (Arr Ex → Py (Arr Ex))) b =>
      Yields t.2 (weightFor u.weights t.1) X docs.length b ∧
        (weightFor u.weights t.1 ≠ none → b.isSparse = false))
      (u.transformers.map fun t => (t.1, fun _ => t.2 docs)) bs := by
    rw [List.forall₂_map_left_iff, List.forall₂_map_right_iff]
    have : ∀ (ts : List (String × (List (List Char) → Py (Arr Ex)))) (ms : List TextMap),
        (∀ t ∈ ts, weightFor u.weights t.1 = none) → List.Forall₂ (fun t m => Computes P t.2 m) ts ms →
        List.Forall₂ (fun t m => Yields (fun _ => t.2 docs) (weightFor u.weights t.1) X docs.length
          ⟨true, m.width, (docs.map m.row).map fins⟩ ∧ (weightFor u.weights t.1 ≠ none → true = false)) ts ms := by
      intro ts ms hw h
      induction h with
      | nil => exact .nil
      | @cons t m ts ms h _ ih =>
        refine .cons ?_ (ih fun t ht => hw t (List.mem_cons_of_mem _ ht))
        rw [hw t (by simp)]
        obtain ⟨ds, dt, h1, h2, h3⟩ := h.rows docs hd hP
        have hdne : ds.map finD ≠ [] := by
          intro e
          have : ds = [] := by simpa using e
          subst this
          exact hd (by simpa using h3.symm)
        have hval : ∀ d ∈ ds.map finD, ValidRow m.width d := by
          intro d hd
          obtain ⟨d', hd', rfl⟩ := List.mem_map.1 hd
          exact finD_valid (h2 d' hd')
        have heq : (ds.map finD).map (dense (ofInt 0) m.width) = (docs.map m.row).map fins := by
          rw [← h3, List.map_map, List.map_map]
          apply List.map_congr_left
          intro d _
          have : (ofInt 0 : Ex) = .fin 0 := by simp
          simp only [Function.comp, this, dense_finD]
        refine ⟨⟨_, _, h1, rfl, ?_, by simp, h.pos, rfl⟩, fun h => absurd rfl h⟩
        rw [← heq]
        exact .sparse hdne hval
    exact this _ _ hw hms
  obtain ⟨R, h1, h2, h3⟩ := C42_xr_partial FP.exact_sound
    (⟨u.transformers.map fun t => (t.1, fun _ => t.2 docs), u.weights⟩ : FeatureUnion Ex) (X := X)
    (by cases docs with
        | nil => exact absurd rfl hd
        | cons => rfl) (n := docs.length) (by simp [X, Arr.len, Arr.rows]) (List.length_pos_iff.2 hd)
    (bs := bs) (by simpa [bs] using hne) hbs
  rw [← TextUnion.transform_eq u hd] at h1
  have hwid : (bs.map Block.width).sum = (TextMap.beside ms).width := by
    simp [bs, TextMap.beside, List.map_map, Function.comp_def]
  have hrows : (List.range docs.length).map (hrow (bs.map Block.mat)) =
      docs.map fun d => fins ((TextMap.beside ms).row d) := by
    apply List.ext_getElem
    · simp
    · intro i h1 h2
      have hi : i < docs.length := by simpa using h2
      simp only [List.getElem_map, List.getElem_range, hrow, bs, List.map_map, Function.comp_def,
        TextMap.beside, fins, List.map_flatten]
      congr 1
      apply List.map_congr_left
      intro m _
      simp [hi]
  have hsp : R.issparse = true := by
    rw [h3]
    cases ms with
    | nil => exact absurd rfl hne
    | cons m ms => simp [bs]
  rw [hwid, hrows] at h2
  have hz : (ofInt 0 : Ex) = .fin 0 := by simp
  rw [hz] at h2
  generalize hM : (docs.map fun d => fins ((TextMap.beside ms).row d)) = M at h2
  cases h2 with
  | dense => exact absurd hsp (by simp)
  | @sparse ds w dt hne' hv =>
    have hM' : ds.map (dense (.fin 0) (TextMap.beside ms).width) = (docs.map (TextMap.beside ms).row).map fins := by
      rw [← hM, List.map_map]
      rfl
    obtain ⟨ds', e1, e2, e3⟩ := finDs_of_dense ds _ hv hM'
    exact ⟨ds', dt, by rw [h1, e1], e2, e3⟩

/-- **C87**, why the list must not be empty: a union refuses an empty list of documents, with TypeError
instead of the intended ValueError (C46), whatever its transformers are. -/
theorem C87_no_documents {F : Type} [Arith F] (u : TextUnion F) : u.transform [] = .error .typeError := rfl

/-- **C87**: no transformers, no columns to return: IndexError for documents. -/
theorem C87_no_transformers (ws : Option (Dict String Ex)) {docs : List Str} (hd : docs ≠ []) :
    (⟨[], ws⟩ : TextUnion Ex).transform docs = .error .indexError := by
  cases docs with
  | nil => exact absurd rfl hd
  | cons => rfl

/-- **C87 is false** of unions with weights: a weight for a text vectorizer raises ValueError on every
request. -/
theorem C87_weight_false {P : Str → Prop} {t : List Str → Py (Arr Ex)} {m : TextMap} (h : Computes P t m)
    (u : TextUnion Ex) {name : String} {rest : List (String × (List Str → Py (Arr Ex)))}
    (hu : u.transformers = (name, t) :: rest) {c : Ex} (hc : weightFor u.weights name = some c)
    {docs : List Str} (hd : docs ≠ []) (hP : ∀ d ∈ docs, P d) : u.transform docs = .error .valueError := by
  obtain ⟨ds, dt, h1, -, -⟩ := h.rows docs hd hP
  rw [TextUnion.transform_eq u hd]
  refine C42_weight_sparse _ ?_ (name := name) (t := fun _ => t docs)
    (rest := rest.map fun t => (t.1, fun _ => t.2 docs)) ?_ (c := c) ?_ h1 rfl
  · cases docs with
    | nil => exact absurd rfl hd
    | cons => rfl
  · simp only [hu, List.map_cons]
  · exact hc

/-! ### Classification -/

/-- A text transformer as a pipeline step. -/
def textStep {F L P : Type} [Arith F] (t : List Str → Py (Arr F)) : Est (TextData F) L P where
  transform := some fun
    | .docs ds => do return .arr (← t ds)
    | .arr _ => .error .typeError
  predict := none
  predictProba := none
  predictLogProba := none

/-- A text transformer followed by a linear classifier (pipeline.py:75-125). -/
def textModel {F : Type} [Arith F] (t : List Str → Py (Arr F)) (m : Linear F C) :
    Pipeline (TextData F) (List C) (List (List F)) :=
  ⟨[("text", some (textStep t)), ("clf", some (logisticStep m))]⟩

theorem textModel_eq {F : Type} [Arith F] (t : List Str → Py (Arr F)) (m : Linear F C) (ds : List Str) :
    (textModel t m).predict (.docs ds) = (t ds >>= m.predict) ∧
    (textModel t m).predictProba (.docs ds) = (t ds >>= m.predictProba) ∧
    (textModel t m).predictLogProba (.docs ds) = (t ds >>= m.predictLogProba) := by
  refine ⟨?_, ?_, ?_⟩ <;>
  · simp only [textModel, Pipeline.predict, Pipeline.predictProba, Pipeline.predictLogProba,
      Pipeline.delegated, Pipeline.finalEstimator, Pipeline.front, logisticStep, textStep,
      List.getLast?_cons_cons, List.getLast?_singleton, List.dropLast_cons_cons, List.dropLast_singleton,
      Pipeline.applyAll, py_ok_bind, py_pure]
    cases t ds <;> rfl

section
variable {P : Str → Prop} {t : List Str → Py (Arr Ex)} {f : TextMap} (h : Computes P t f) {m : Linear Ex C}
  {W : List (List ℝ)} {b : List ℝ}
include h

theorem map_dense {k : Nat} (hm : m.IsExact f.width k W b) {docs : List Str} (hd : docs ≠ [])
    (hP : ∀ d ∈ docs, P d) :
    ∃ X, t docs = .ok X ∧ m.SameOutputs X (.ofMat ((docs.map f.row).map fins)) ∧
      Rect f.width (docs.map f.row) := by
  obtain ⟨ds, dt, h1, h2, h3⟩ := h.rows docs hd hP
  refine ⟨_, h1, ?_, ?_⟩
  · have hne : ds ≠ [] := by
      rintro rfl
      exact hd (by simpa using h3.symm)
    obtain ⟨D, hD, hsame⟩ := C02_sparse_dense_agree m f.width W hm.coef hm.rect ds hne h2 dt
    have hz := todense_sparse (ds := ds.map finD) (n := f.width) (castTo_zero_exact dt)
    rw [hz] at hD
    cases hD
    have e : (ds.map finD).map (dense (.fin 0 : Ex) f.width) = (docs.map f.row).map fins := by
      rw [← h3, List.map_map, List.map_map]
      exact List.map_congr_left fun d _ => dense_finD _ d
    rw [← e]
    exact hsame
  · intro r hr
    obtain ⟨d, hd, rfl⟩ := List.mem_map.1 hr
    exact h.width (hP d hd)

/-- **C87**, two classes, exact arithmetic. -/
theorem C87_binary (hm : m.IsExact f.width 1 W b) (ho : m.isOvr = .ok true) (c0 c1 : C)
    (hc : m.classes = [c0, c1]) (docs : List Str) (hd : docs ≠ []) (hP : ∀ d ∈ docs, P d) :
    (textModel t m).predictProba (.docs docs) = .ok (docs.map fun d =>
      fins [1 - sigmoid (linScore f.width W b (f.row d) 0), sigmoid (linScore f.width W b (f.row d) 0)]) ∧
    (textModel t m).predict (.docs docs) = .ok (docs.map fun d =>
      if 0 < linScore f.width W b (f.row d) 0 then c1 else c0) := by
  obtain ⟨X, hX, hsame, hrect⟩ := map_dense h hm hd hP
  obtain ⟨e1, e2, -⟩ := textModel_eq t m docs
  obtain ⟨-, s1, -, s2, -⟩ := hsame
  have hne : docs.map f.row ≠ [] := by simpa using hd
  constructor
  · rw [e2, hX, py_ok_bind, s2, C05_ovr_uses_lr m _ ho, C05_lr_binary m _ W b hm _ hne hrect, List.map_map]
    rfl
  · rw [e1, hX, py_ok_bind, s1, (C04_binary m _ W b hm c0 c1 hc _ hne hrect).2, List.map_map]
    rfl

/-- **C87**, several classes, multinomial. -/
theorem C87_multinomial {k : Nat} (hm : m.IsExact f.width k W b) (hk : 2 ≤ k)
    (ho : m.isOvr = .ok false) (hc : m.classes.length = k) (docs : List Str) (hd : docs ≠ [])
    (hP : ∀ d ∈ docs, P d) :
    (textModel t m).predictProba (.docs docs) = .ok (docs.map fun d =>
      fins ((List.range k).map (softmax k (linScore f.width W b (f.row d))))) ∧
    ∃ labels, (textModel t m).predict (.docs docs) = .ok labels ∧
      List.Forall₂ (fun d l => ∃ i,
        IsFirstMax ((List.range k).map (linScore f.width W b (f.row d))) i ∧ m.classes[i]? = some l)
        docs labels := by
  obtain ⟨X, hX, hsame, hrect⟩ := map_dense h hm hd hP
  obtain ⟨e1, e2, -⟩ := textModel_eq t m docs
  obtain ⟨-, s1, -, s2, -⟩ := hsame
  have hne : docs.map f.row ≠ [] := by simpa using hd
  constructor
  · rw [e2, hX, py_ok_bind, s2, C05_multinomial m _ k W b hm hk ho _ hne hrect, List.map_map]
    rfl
  · obtain ⟨-, ls, h1, h2⟩ := C04_multiclass m _ k W b hm hk hc _ hne hrect
    refine ⟨ls, by rw [e1, hX, py_ok_bind, s1, h1], ?_⟩
    rw [List.forall₂_map_left_iff] at h2
    exact h2

/-- **C87**, several classes, one-vs-rest. -/
theorem C87_ovr {k : Nat} (hm : m.IsExact f.width k W b) (hk : 2 ≤ k) (ho : m.isOvr = .ok true)
    (docs : List Str) (hd : docs ≠ []) (hP : ∀ d ∈ docs, P d) :
    (textModel t m).predictProba (.docs docs) = .ok (docs.map fun d =>
      fins ((List.range k).map (ovr k (linScore f.width W b (f.row d))))) := by
  obtain ⟨X, hX, hsame, hrect⟩ := map_dense h hm hd hP
  obtain ⟨-, e2, -⟩ := textModel_eq t m docs
  obtain ⟨-, -, -, s2, -⟩ := hsame
  have hne : docs.map f.row ≠ [] := by simpa using hd
  rw [e2, hX, py_ok_bind, s2, C05_ovr_uses_lr m _ ho, C05_lr_multiclass m _ k W b hm hk _ hne hrect,
    List.map_map]
  rfl
end

/-! ### Scores of a union are sums over its members -/

theorem linScore_append {p w : Nat} {W : List (List ℝ)} (b : List ℝ) {x y : List ℝ} (hx : x.length = p)
    (c : Nat) : linScore (p + w) W b (x ++ y) c =
      linScore p (columnsFrom 0 p W) [] x c + linScore w (columnsFrom p w W) [] y c + b.getD c 0 := by
  have hcol : ∀ k n i, i < n → ((columnsFrom k n W).getD c []).getD i 0 = (W.getD c []).getD (k + i) 0 := by
    intro k n i hi
    simp only [columnsFrom, List.getD_eq_getElem?_getD, List.getElem?_map]
    cases W[c]? with
    | none => simp
    | some r => simp [List.getElem?_take, hi]
  unfold linScore
  rw [Finset.sum_range_add]
  congr 1
  simp only [List.getD_nil, add_zero]
  congr 1
  · apply Finset.sum_congr rfl
    intro i hi
    have hi := Finset.mem_range.1 hi
    rw [hcol 0 p i hi, Nat.zero_add]
    congr 1
    simp only [List.getD_eq_getElem?_getD, List.getElem?_append_left (show i < x.length by omega)]
  · apply Finset.sum_congr rfl
    intro i hi
    have hi := Finset.mem_range.1 hi
    rw [hcol p w i hi]
    congr 1
    simp only [List.getD_eq_getElem?_getD]
    rw [List.getElem?_append_right (by omega), hx, Nat.add_sub_cancel_left]

/-- The share of each member of a union in the score: its row against its own columns of the
coefficients, which begin at `k`. -/
noncomputable def Spec.memberScores (W : List (List ℝ)) (d : Str) (c : Nat) : Nat → List TextMap → List ℝ
  | _, [] => []
  | k, m :: ms => linScore m.width (columnsFrom k m.width W) [] (m.row d) c :: memberScores W d c (k + m.width) ms

/-- **C87**: the score of a union is the sum of the scores of its members, each with its own columns of
the coefficients, plus the intercept. -/
theorem C87_additive (ms : List TextMap) (W : List (List ℝ)) (b : List ℝ) (d : Str)
    (hw : ∀ m ∈ ms, (m.row d).length = m.width) (c : Nat) :
    linScore (TextMap.beside ms).width W b ((TextMap.beside ms).row d) c =
      (memberScores W d c 0 ms).sum + b.getD c 0 := by
  have key : ∀ (ms : List TextMap), (∀ m ∈ ms, (m.row d).length = m.width) → ∀ k,
      linScore (TextMap.beside ms).width (columnsFrom k (TextMap.beside ms).width W) []
        ((TextMap.beside ms).row d) c = (memberScores W d c k ms).sum := by
    intro ms
    induction ms with
    | nil => intro _ k; simp [TextMap.beside, linScore, memberScores]
    | cons m ms ih =>
      intro hw k
      have e : linScore (m.width + (TextMap.beside ms).width)
          (columnsFrom k (m.width + (TextMap.beside ms).width) W) []
          (m.row d ++ (TextMap.beside ms).row d) c = _ :=
        linScore_append [] (hw m (by simp)) c
      have e1 : columnsFrom 0 m.width (columnsFrom k (m.width + (TextMap.beside ms).width) W) =
          columnsFrom k m.width W := by
        simp [columnsFrom, List.map_map, Function.comp_def, List.take_take]
      have e2 : columnsFrom m.width (TextMap.beside ms).width
          (columnsFrom k (m.width + (TextMap.beside ms).width) W) =
          columnsFrom (k + m.width) (TextMap.beside ms).width W := by
        simp only [columnsFrom, List.map_map, Function.comp_def]
        apply List.map_congr_left
        intro r _
        rw [List.drop_take, List.take_take, List.drop_drop]
        congr 1
        omega
      rw [e1, e2, ih (fun m hm => hw m (List.mem_cons_of_mem _ hm)) (k + m.width)] at e
      simp only [List.getD_nil, add_zero] at e
      simpa [memberScores, TextMap.beside] using e
  have h0 := key ms hw 0
  rw [← h0]
  have hcol : ∀ i < (TextMap.beside ms).width,
      ((columnsFrom 0 (TextMap.beside ms).width W).getD c []).getD i 0 = (W.getD c []).getD i 0 := by
    intro i hi
    simp only [columnsFrom, List.getD_eq_getElem?_getD, List.getElem?_map]
    cases W[c]? with
    | none => simp
    | some r => simp [List.getElem?_take, hi]
  unfold linScore
  rw [List.getD_nil, add_zero]
  congr 1
  apply Finset.sum_congr rfl
  intro i hi
  rw [hcol i (Finset.mem_range.1 hi)]

/-! ### Non-vacuity -/

/-- Counts and tf-idf weights of two terms, side by side. -/
noncomputable def union87 : TextUnion Ex :=
  ⟨[("n", fun docs => (⟨plainOpts, catDog, false, .int⟩ : CountVectorizer).transform plainLib (some docs)),
    ("w", fun docs => tfidfVectorizerTransform plainLib ⟨plainOpts, catDog, false, .int⟩ catDogTfidf (some docs))],
    none⟩

noncomputable def words87 : Str → List Str := fun d => wordNgrams 1 1 (splitWs (· == ' ') d) none

theorem union87_computes : Computes (fun _ => True) union87.transform (TextMap.beside
    [countMap ["cat".toList, "dog".toList] words87,
      tfidfMap (normOf .l2) ["cat".toList, "dog".toList] [1, 2] words87]) :=
  C87_union_partial union87 (fun _ _ => rfl) (by simp) (.cons
    (C87_count plainLib rfl catDog_fitted plain_analyzer rfl (by decide) catDogFitted.termAt)
    (.cons (C87_tfidf plainLib catDogFitted (by decide) plain_analyzer) .nil))

/-- Weight 3 on the count of "cat", -1 on its tf-idf weight and on the count of "dog". -/
noncomputable def model87 : Linear Ex String :=
  { coef := [fins [3, -1, -1, 0]], classes := ["d", "c"], intercept := some (fins [0]), multiClass := some "ovr",
    solver := none, loss := none }

theorem model87_exact : model87.IsExact 4 1 [[3, -1, -1, 0]] [0] where
  coef := rfl
  rect := by simp [Rect]
  rows := rfl
  intercept := rfl
  len := rfl
  pos := by norm_num

/-- "cat cat dog": two cats, one dog; the score is 3·2 - 1 - 2/√8 > 0. -/
example : (textModel union87.transform model87).predict (.docs ["cat cat dog".toList]) = .ok ["c"] := by
  rw [(C87_binary union87_computes model87_exact rfl "d" "c" rfl ["cat cat dog".toList] (by simp)
    (by simp)).2]
  have hw : words87 "cat cat dog".toList = ["cat".toList, "cat".toList, "dog".toList] := by
    unfold words87
    decide
  have hc : (countMap ["cat".toList, "dog".toList] words87).row "cat cat dog".toList = [2, 1] := by
    simp only [countMap, hw]
    norm_num [List.count_cons, show ¬ "dog".toList = "cat".toList by decide, show ¬ "cat".toList = "dog".toList by decide]
  have ht : tfidfOf ["cat".toList, "dog".toList] [1, 2] (words87 "cat cat dog".toList) = [2, 2] := by
    simp only [tfidfOf, hw]
    norm_num [List.count_cons, show ¬ "dog".toList = "cat".toList by decide, show ¬ "cat".toList = "dog".toList by decide]
  have hn : (2 : ℝ) ≤ normOf .l2 [2, 2] := by
    have : normOf .l2 [2, 2] = √8 := by norm_num [normOf, l2norm]
    rw [this]
    exact Real.le_sqrt_of_sq_le (by norm_num)
  have hu : (tfidfMap (normOf .l2) ["cat".toList, "dog".toList] [1, 2] words87).row "cat cat dog".toList =
      [2 / normOf .l2 [2, 2], 2 / normOf .l2 [2, 2]] := by
    simp only [tfidfMap, ht]
    unfold unitBy
    rw [if_neg (by linarith)]
    simp
  have hq : 2 / normOf .l2 [2, 2] ≤ 1 := by
    rw [div_le_one (by linarith)]
    exact hn
  have hpos : 0 < linScore (TextMap.beside
    [countMap ["cat".toList, "dog".toList] words87,
      tfidfMap (normOf .l2) ["cat".toList, "dog".toList] [1, 2] words87]).width [[3, -1, -1, 0]] [0]
      ((TextMap.beside [countMap ["cat".toList, "dog".toList] words87,
      tfidfMap (normOf .l2) ["cat".toList, "dog".toList] [1, 2] words87]).row "cat cat dog".toList) 0 := by
    rw [C87_additive _ _ _ _ (by
      intro m hm
      rcases List.mem_cons.1 hm with rfl | hm
      · rw [hc]; rfl
      · rw [List.mem_singleton.1 hm, hu]; rfl)]
    simp only [memberScores, hc, hu, columnsFrom]
    simp [linScore, countMap, tfidfMap, Finset.sum_range_succ]
    linarith
  rw [List.map_cons, List.map_nil, if_pos hpos]

/-- The same union with a weight fails. -/
example : (⟨union87.transformers, some [("n", .fin 2)]⟩ : TextUnion Ex).transform ["cat".toList] =
    .error .valueError :=
  C87_weight_false (C87_count plainLib rfl catDog_fitted plain_analyzer rfl (by decide) catDogFitted.termAt)
    _ rfl (c := .fin 2) rfl (by simp) (by simp)

end PurePredict
