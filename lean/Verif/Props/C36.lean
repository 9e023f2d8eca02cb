import Verif.Props.C35
import Verif.Props.C26
/-
C36: tf-idf weighting.  The weighting is right for sparse input without sublinear_tf; the claim
that the caller's data is unchanged is false of the code (text.py:436-438 writes into X).
-/
namespace PurePredict
open Spec

section
variable {F : Type} [Arith F]

/-- A sparse row with every entry multiplied by the column's idf. -/
def weighted (zero : F) (idf : List F) (d : Dict Int F) : Dict Int F :=
  d.map fun kv => (kv.1, kv.2 *ₚ idf.getD kv.1.toNat zero)

theorem tfidfRow_eq (z : F) {idf : List F} {d : Dict Int F} (hd : ValidRow idf.length d) :
    tfidfRow idf (.dict d) = .ok (.dict (weighted z idf d)) := by
  have : d.mapM (fun kv => do return (kv.1, kv.2 *ₚ (← pyGet idf kv.1))) =
      Except.ok (weighted z idf d) := by
    apply mapM_ok_map
    intro kv hkv
    obtain ⟨h0, h1⟩ := hd.2 kv hkv
    obtain ⟨n, hn⟩ := Int.eq_ofNat_of_zero_le h0
    have hlt : n < idf.length := by omega
    rw [hn, pyGet_lt hlt]
    simp [hlt, py_ok_bind, py_pure]
  simp only [tfidfRow]
  rw [this]
  rfl

/-- What `TfidfTransformer.transform` does on a sparse matrix of the right width, in any
arithmetic: the result, and the caller's matrix afterwards. -/
theorem tfidf_transform (t : Tfidf F) (z : F) (hs : t.sublinearTf = false)
    (hn : t.idf.length = t.expectedNFeatures) {ds : List (Dict Int F)} (hds : ds ≠ [])
    (hd : ∀ d ∈ ds, ValidRow t.expectedNFeatures d) (dt : DType) :
    t.transform (.sparse ds (some t.expectedNFeatures) dt) =
      (let X := Arr.sparse (if t.useIdf then ds.map (weighted z t.idf) else ds) (some t.expectedNFeatures) dt
       match t.norm with
       | none => .ok (X, X)
       | some n => do return (← normalizePure X n, X)) := by
  have hsh : (Arr.sparse ds (some t.expectedNFeatures) dt).shape =
      .ok (.d2 ds.length (some t.expectedNFeatures)) := by
    cases ds with
    | nil => exact absurd rfl hds
    | cons d ds => exact shape_sparse_cons d ds _ dt
  have hrows : (ds.map Row.dict).mapM (tfidfRow t.idf) =
      .ok ((ds.map (weighted z t.idf)).map Row.dict) := by
    rw [mapM_map', List.map_map]
    exact mapM_ok_map fun d hdm => tfidfRow_eq z (hn ▸ hd d hdm)
  simp only [Tfidf.transform, checkArray, py_ok_bind, hsh, hs, Bool.false_eq_true, if_false]
  cases hu : t.useIdf with
  | false =>
    simp only [Bool.false_eq_true, if_false, py_pure, py_ok_bind]
    cases t.norm <;> rfl
  | true =>
    simp only [if_true, bne_self_eq_false, Bool.false_eq_true, if_false, rows_sparse, py_ok_bind, hrows,
      Arr.withRows, asDicts_map, py_pure]
    cases t.norm <;> rfl

/-- **C36**, weighting without normalisation, any arithmetic: every stored entry is multiplied by
its column's idf. -/
theorem C36_weights_partial (t : Tfidf F) (z : F) (hs : t.sublinearTf = false) (hu : t.useIdf = true)
    (hnorm : t.norm = none) (hn : t.idf.length = t.expectedNFeatures) {ds : List (Dict Int F)} (hds : ds ≠ [])
    (hd : ∀ d ∈ ds, ValidRow t.expectedNFeatures d) (dt : DType) :
    (t.transform (.sparse ds (some t.expectedNFeatures) dt)).map Prod.fst =
      .ok (.sparse (ds.map (weighted z t.idf)) (some t.expectedNFeatures) dt) := by
  rw [tfidf_transform t z hs hn hds hd dt, hnorm, hu]
  rfl

/-- **C36**: without idf weighting the caller's data is unchanged. -/
theorem C36_unchanged_partial (t : Tfidf F) (hs : t.sublinearTf = false) (hu : t.useIdf = false)
    (hn : t.idf.length = t.expectedNFeatures) {ds : List (Dict Int F)} (hds : ds ≠ [])
    (hd : ∀ d ∈ ds, ValidRow t.expectedNFeatures d) (dt : DType) {Y X' : Arr F}
    (h : t.transform (.sparse ds (some t.expectedNFeatures) dt) = .ok (Y, X')) :
    X' = .sparse ds (some t.expectedNFeatures) dt := by
  rw [tfidf_transform t (ofInt 0) hs hn hds hd dt, hu] at h
  simp only [Bool.false_eq_true, if_false] at h
  cases hnorm : t.norm with
  | none => rw [hnorm] at h; cases h; rfl
  | some n =>
    rw [hnorm] at h
    obtain ⟨y, _, h2⟩ := bind_ok_iff.1 h
    cases h2
    rfl

/-- **C36**: with idf weighting the caller's matrix is left holding the weighted values. -/
theorem C36_changed_partial (t : Tfidf F) (z : F) (hs : t.sublinearTf = false) (hu : t.useIdf = true)
    (hn : t.idf.length = t.expectedNFeatures) {ds : List (Dict Int F)} (hds : ds ≠ [])
    (hd : ∀ d ∈ ds, ValidRow t.expectedNFeatures d) (dt : DType) {Y X' : Arr F}
    (h : t.transform (.sparse ds (some t.expectedNFeatures) dt) = .ok (Y, X')) :
    X' = .sparse (ds.map (weighted z t.idf)) (some t.expectedNFeatures) dt := by
  rw [tfidf_transform t z hs hn hds hd dt, hu] at h
  simp only [if_true] at h
  cases hnorm : t.norm with
  | none => rw [hnorm] at h; cases h; rfl
  | some n =>
    rw [hnorm] at h
    obtain ⟨y, _, h2⟩ := bind_ok_iff.1 h
    cases h2
    rfl

/-- `sublinear_tf` always fails: `safe_log` is not imported (NameError). -/
theorem C36_sublinear (t : Tfidf F) (hs : t.sublinearTf = true) {ds : List (Dict Int F)} (hds : ds ≠ [])
    (n : Option Nat) (dt : DType) : t.transform (.sparse ds n dt) = .error .nameError := by
  cases ds with
  | nil => exact absurd rfl hds
  | cons d ds => simp [Tfidf.transform, checkArray, shape_sparse_cons, hs]

/-- A wrong column count fails with NameError: the message uses an undefined name. -/
theorem C36_wrong_width (t : Tfidf F) (hs : t.sublinearTf = false) (hu : t.useIdf = true)
    {ds : List (Dict Int F)} (hds : ds ≠ []) {n : Option Nat} (hne : n ≠ some t.expectedNFeatures)
    (dt : DType) : t.transform (.sparse ds n dt) = .error .nameError := by
  cases ds with
  | nil => exact absurd rfl hds
  | cons d ds => simp [Tfidf.transform, checkArray, shape_sparse_cons, hs, hu, hne]

/-- Dense input with idf weighting fails with AttributeError: lists have no `items`. -/
theorem C36_dense (t : Tfidf F) (hs : t.sublinearTf = false) (hu : t.useIdf = true)
    {M : List (List F)} (hM : M ≠ []) (hw : Rect t.expectedNFeatures M) :
    t.transform (.ofMat M) = .error .attributeError := by
  have hr : (M.map Row.list).mapM (tfidfRow t.idf) = .error .attributeError := by
    cases M with
    | nil => exact absurd rfl hM
    | cons r M => simp [tfidfRow]
  simp [Tfidf.transform, checkArray_ofMat hM, shape_ofMat hM hw, hs, hu, hr]

end

/-! ### Exact arithmetic -/

/-- Real tf-idf values of one row. -/
noncomputable def tfidfDense (idf : List ℝ) (x : List ℝ) : List ℝ :=
  x.zipWith (· * ·) idf

theorem weighted_finD (idf : List ℝ) (d : Dict Int ℝ) :
    weighted (.fin 0) (fins idf) (finD d) =
      (finD (d.map fun kv => (kv.1, kv.2 * idf.getD kv.1.toNat 0)) : Dict Int Ex) := by
  have hget : ∀ j, (fins idf).getD j (.fin 0) = (.fin (idf.getD j 0) : Ex) := by
    intro j
    simp only [fins_def, List.getD_eq_getElem?_getD, List.getElem?_map]
    cases idf[j]? <;> rfl
  simp only [weighted, finD, List.map_map]
  apply List.map_congr_left
  intro kv _
  simp only [Function.comp, hget, XR.mul_exact]

theorem dense_weighted {w : Nat} (idf : List ℝ) (hn : idf.length = w) (d : Dict Int ℝ) :
    dense 0 w (d.map fun kv => (kv.1, kv.2 * idf.getD kv.1.toNat 0)) = tfidfDense idf (dense 0 w d) := by
  apply List.ext_getElem
  · simp [dense, tfidfDense, hn]
  · intro i h1 h2
    have hi : i < w := by simpa [dense] using h1
    have := entry_mapKV (z := (0 : ℝ)) (g := fun k v => v * idf.getD k.toNat 0) d i (by simp)
    simp only [dense, tfidfDense, List.getElem_map, List.getElem_range, List.getElem_zipWith]
    rw [this]
    have hi' : i < idf.length := by omega
    simp [hi']

/-- **C36**, exact arithmetic: the result denotes the rows tf·idf divided by their norm (l1 or
l2; rows of zeros are left alone). -/
theorem C36_tfidf_partial (t : Tfidf Ex) (idf : List ℝ) (hidf : t.idf = fins idf)
    (hs : t.sublinearTf = false) (hu : t.useIdf = true) (n : Norm) (hnm : n = .l1 ∨ n = .l2)
    (hnorm : t.norm = some n) (hn : t.idf.length = t.expectedNFeatures) {ds : List (Dict Int ℝ)} (hds : ds ≠ [])
    (hd : ∀ d ∈ ds, ValidRow t.expectedNFeatures d) (dt : DType) :
    ∃ ds' : List (Dict Int ℝ),
      (t.transform (.sparse (ds.map finD) (some t.expectedNFeatures) dt)).map Prod.fst =
        .ok (.sparse (ds'.map finD) (some t.expectedNFeatures) dt) ∧
      (∀ d ∈ ds', ValidRow t.expectedNFeatures d) ∧
      ds'.map (dense 0 t.expectedNFeatures) = ds.map fun d =>
        unitBy (normOf n) (tfidfDense idf (dense 0 t.expectedNFeatures d)) := by
  set w := t.expectedNFeatures with hw
  have hil : idf.length = w := by rw [← hn, hidf, fins_length]
  have hval : ∀ d ∈ ds.map (finD : Dict Int ℝ → Dict Int Ex), ValidRow w d := by
    intro d hdm
    obtain ⟨d', hd', rfl⟩ := List.mem_map.1 hdm
    exact finD_valid (hd d' hd')
  set es := ds.map fun d : Dict Int ℝ => d.map fun kv => (kv.1, kv.2 * idf.getD kv.1.toNat 0) with hes
  have hesv : ∀ d ∈ es, ValidRow w d := by
    intro d hdm
    obtain ⟨d', hd', rfl⟩ := List.mem_map.1 hdm
    exact validRow_mapKV (g := fun k v => v * idf.getD k.toNat 0) (hd d' hd')
  obtain ⟨ds', h1, h2, h3⟩ := C26_sparse_agrees n hnm w es (by simpa [hes] using hds) hesv dt
  refine ⟨ds', ?_, h2, ?_⟩
  · rw [tfidf_transform t (.fin 0) hs hn (by simpa using hds) hval dt, hnorm, hu]
    simp only [if_true]
    have hmap : (ds.map finD).map (weighted (.fin 0) t.idf) = es.map (finD : Dict Int ℝ → Dict Int Ex) := by
      rw [hes, List.map_map, List.map_map, hidf]
      apply List.map_congr_left
      intro d _
      exact weighted_finD idf d
    rw [hmap]
    simp only [normalizerTransform, checkArray, py_ok_bind] at h1
    rw [h1]
    rfl
  · rw [h3, hes, List.map_map]
    apply List.map_congr_left
    intro d _
    simp only [Function.comp]
    rw [dense_weighted idf hil]

/-- The counts of a document as real numbers. -/
noncomputable def realCounts (v : Dict Str Int) (fs : List Str) : Dict Int ℝ :=
  (countDoc v fs).mapVals fun (c : Int) => (c : ℝ)

theorem countRow_finD (v : Dict Str Int) (fs : List Str) :
    (countRow v fs : Dict Int Ex) = finD (realCounts v fs) := by
  simp only [countRow, realCounts, finD, Dict.mapVals, List.map_map]
  apply List.map_congr_left
  intro p _
  simp [Function.comp]

/-- Number of occurrences of each term, in column order. -/
noncomputable def termCounts (v : Dict Str Int) (fs : List Str) : List ℝ :=
  (List.range v.length).map fun (j : Nat) => (codeCount v fs (j : Int) : ℝ)

theorem dense_realCounts (v : Dict Str Int) (fs : List Str) :
    dense 0 v.length (realCounts v fs) = termCounts v fs := by
  unfold dense termCounts
  apply List.map_congr_left
  intro j _
  rw [entry_eq_get?, realCounts, Dict.get?_mapVals, countDoc_get?]
  split
  · rename_i h; simp [h]
  · simp

theorem realCounts_valid {v : Dict Str Int} (hv : FittedVocab v) (fs : List Str) :
    ValidRow v.length (realCounts v fs) := by
  have h := C34_valid (F := Ex) hv fs
  rw [countRow_finD] at h
  constructor
  · have := h.1
    simpa [finD, List.map_map, Function.comp_def] using this
  · intro p hp
    exact h.2 (p.1, .fin p.2) (List.mem_map.2 ⟨p, hp, rfl⟩)

/-- **C36**, `TfidfVectorizer.transform`, exact arithmetic: each document's row is its term counts
times idf, divided by the norm. -/
theorem C36_vectorizer_partial (lib : TextLib) (v : CountVectorizer) (hb : v.binary = false)
    (hv : FittedVocab v.vocabulary) {an : Str → List Str} (han : buildAnalyzer lib v.opts = .ok an)
    {docs : List Str} (hdocs : docs ≠ [])
    (t : Tfidf Ex) (idf : List ℝ) (hidf : t.idf = fins idf)
    (hs : t.sublinearTf = false) (hu : t.useIdf = true) (n : Norm) (hnm : n = .l1 ∨ n = .l2)
    (hnorm : t.norm = some n) (hn : t.idf.length = t.expectedNFeatures)
    (hw : t.expectedNFeatures = v.vocabulary.length) :
    ∃ ds' : List (Dict Int ℝ),
      tfidfVectorizerTransform lib v t (some docs) =
        .ok (.sparse (ds'.map finD) (some v.vocabulary.length) v.dtype) ∧
      (∀ d ∈ ds', ValidRow v.vocabulary.length d) ∧
      ds'.map (dense 0 v.vocabulary.length) = docs.map fun d =>
        unitBy (normOf n) (tfidfDense idf (termCounts v.vocabulary (an d))) := by
  obtain ⟨ds', h1, h2, h3⟩ := C36_tfidf_partial t idf hidf hs hu n hnm hnorm hn
    (ds := docs.map fun d => realCounts v.vocabulary (an d)) (by simpa using hdocs) (by
      intro d hd
      obtain ⟨x, _, rfl⟩ := List.mem_map.1 hd
      rw [hw]
      exact realCounts_valid hv (an x)) v.dtype
  rw [hw] at h1 h2 h3
  refine ⟨ds', ?_, h2, ?_⟩
  · rw [tfidfVectorizerTransform, C34_transform lib v hb han hdocs]
    have e : (docs.map fun d => (countRow v.vocabulary (an d) : Dict Int Ex)) =
        (docs.map fun d => realCounts v.vocabulary (an d)).map finD := by
      rw [List.map_map]
      exact List.map_congr_left fun d _ => countRow_finD _ _
    simp only [py_ok_bind, e]
    cases ht : t.transform (Arr.sparse ((docs.map fun d => realCounts v.vocabulary (an d)).map finD)
        (some v.vocabulary.length) v.dtype) with
    | error e => rw [ht] at h1; cases h1
    | ok p =>
      rw [ht] at h1
      simp only [Except.map] at h1
      simp only [py_ok_bind, py_pure]
      exact h1
  · rw [h3, List.map_map]
    apply List.map_congr_left
    intro d _
    simp only [Function.comp, dense_realCounts]

/-- **C36**, `TfidfVectorizer` with binary=True: fails with NameError unless the first document
happens to contain every term. -/
theorem C36_vectorizer_binary {F : Type} [Arith F] (lib : TextLib) (v : CountVectorizer)
    (hb : v.binary = true) {an : Str → List Str} (han : buildAnalyzer lib v.opts = .ok an)
    {doc : Str} {docs : List Str} (t : Tfidf F) (hs : t.sublinearTf = false) (hu : t.useIdf = true)
    (hne : (countDoc v.vocabulary (an doc)).length ≠ t.expectedNFeatures) :
    tfidfVectorizerTransform lib v t (some (doc :: docs)) = .error .nameError := by
  rw [tfidfVectorizerTransform, C35_transform_partial lib v hb han (by simp)]
  have hw := C35_width_partial (F := F) v.vocabulary (an doc) (docs.map an)
  simp only [List.map_cons, List.map_map] at hw ⊢
  simp only [py_ok_bind]
  have hlen : (binaryRow v.vocabulary (an doc) : Dict Int F).length =
      (countDoc v.vocabulary (an doc)).length := by
    simp [binaryRow, countRow, Dict.mapVals]
  simp [Tfidf.transform, checkArray, Arr.shape, Arr.ndim, Arr.first, Arr.rows, Arr.len, Row.len, hs, hu, hlen,
    hne]

/-- **C36 is false** of `TfidfVectorizer` with binary=True and a norm: where it answers, the rows hold the numbers of the
columns divided by the norm, not the weights.  A document with both words of a vocabulary, each of idf 1, should get two
equal weights; the first one is 0. -/
theorem C36_binary_false : ∃ (lib : TextLib) (v : CountVectorizer) (t : Tfidf Ex) (doc : Str) (a b : Ex),
    v.binary = true ∧ v.vocabulary.length = 2 ∧ t.idf = [.fin 1, .fin 1] ∧ t.norm = some .l2 ∧
    (∃ an, buildAnalyzer lib v.opts = .ok an ∧ countDoc v.vocabulary (an doc) = [(0, 1), (1, 1)]) ∧
    tfidfVectorizerTransform lib v t (some [doc]) = .ok (.ofMat [[a, b]]) ∧ a = .fin 0 ∧ a ≠ b := by
  let lib : TextLib := ⟨fun _ => false, id, id, fun _ => false, fun _ => [['a'], ['b']]⟩
  let v : CountVectorizer := ⟨⟨.word, 1, 1, .none, .none, false⟩, [(['a'], 0), (['b'], 1)], true, .float⟩
  let t : Tfidf Ex := ⟨some .l2, true, false, [.fin 1, .fin 1], 2⟩
  let one : Ex := ofInt 1 *ₚ .fin 1
  have h1 : one = .fin 1 := by
    show (ofInt 1 : Ex) *ₚ .fin 1 = _
    rw [XR.ofInt_exact, XR.mul_exact]
    simp
  have e0 : tfidfVectorizerTransform lib v t (some [[]]) = ((normalizePure (.list [Row.dict [(0, one), (1, one)]]) .l2 >>= fun Y =>
      .ok (Y, Arr.list [Row.dict [(0, one), (1, one)]])) >>= fun p => .ok p.1) := rfl
  have e : normalizePure (.list [Row.dict [(0, one), (1, one)]]) .l2 = (do
      let q ← [pySum [one *ₚ one, one *ₚ one]].mapM Arith.sqrt
      let rs' ← (List.zip [Row.dict [(0, one), (1, one)]] (handleZeros q)).mapM fun (p : Row Ex × Ex) => do (← p.1.iter).mapM fun a => a /ₚ p.2
      (.ok (.ofMat rs') : Py (Arr Ex))) := by
    have hn : denseNorms .l2 (.list [Row.dict [(0, one), (1, one)]]) = [pySum [one *ₚ one, one *ₚ one]].mapM Arith.sqrt := rfl
    rw [← hn]
    simp only [normalizePure, normalizePure', Arr.issparse, Bool.and_false, Bool.false_eq_true,
        if_false, checkArray, List.length_cons, List.length_nil, py_ok_bind, reduceCtorEq,
        show ((1 : Int) == 0) = false from rfl, show ((1 : Int) == 1) = true from rfl, Bool.or_true,
        Bool.not_true, py_pure, Bool.false_and, normalizeRows, Arr.rows, bind_assoc, Nat.add_one_ne_zero]
  have s2 : Real.sqrt 2 ≠ 0 := by positivity
  have e1 : pySum [one *ₚ one, one *ₚ one] = (.fin 2 : Ex) := by
    rw [h1, XR.mul_exact]
    show ((ofInt 0 : Ex) +ₚ .fin (1 * 1)) +ₚ .fin (1 * 1) = _
    rw [XR.ofInt_exact, XR.add_exact, XR.add_exact]
    norm_num
  have e2 : (Row.dict [(0, one), (1, one)] : Row Ex).iter = .ok [ofInt 0, ofInt 1] := rfl
  have e3 : handleZeros [(.fin (Real.sqrt 2) : Ex)] = [.fin (Real.sqrt 2)] := by
    simp [handleZeros, XR.ofInt_exact, XR.eq_fin, s2]
  refine ⟨lib, v, t, [], .fin (0 / Real.sqrt 2), .fin (1 / Real.sqrt 2), rfl, rfl, rfl, rfl, ⟨_, rfl, by decide⟩, ?_, by simp, ?_⟩
  · rw [e0, e, e1, mapM_cons', mapM_nil', XR.sqrt_exact (by norm_num)]
    simp only [py_ok_bind, py_pure, e3]
    simp only [List.zip_cons_cons, List.zip_nil_left, mapM_cons', mapM_nil', e2, py_ok_bind, XR.ofInt_exact, XR.div_exact _ s2]
    norm_num
  · intro h
    injection h with h
    field_simp at h
    norm_num at h

/-- A transformer with one feature of idf 2 and no normalisation. -/
noncomputable def doubling : Tfidf Ex :=
  { norm := none, useIdf := true, sublinearTf := false, idf := [.fin 2], expectedNFeatures := 1 }

theorem doubling_step (x : ℝ) : doubling.transform (.sparse [[(0, .fin x)]] (some 1) .float) =
    .ok (.sparse [[(0, .fin (x * 2))]] (some 1) .float, .sparse [[(0, .fin (x * 2))]] (some 1) .float) := by
  have := tfidf_transform doubling (.fin 0) rfl rfl (ds := [[(0, .fin x)]]) (by simp)
    (by simp [ValidRow, doubling]) .float
  refine this.trans ?_
  simp [doubling, weighted]

/-- **C36 is false**: the call changes the caller's matrix, and repeating it gives another result. -/
theorem C36_false : ∃ (t : Tfidf Ex) (X Y X' Y' X'' : Arr Ex),
    t.transform X = .ok (Y, X') ∧ X' ≠ X ∧ t.transform X' = .ok (Y', X'') ∧ Y' ≠ Y := by
  refine ⟨doubling, .sparse [[(0, .fin 3)]] (some 1) .float, _, _, _, _, doubling_step 3, ?_,
    doubling_step (3 * 2), ?_⟩
  · intro h
    simp only [Arr.sparse.injEq, List.cons.injEq, Prod.mk.injEq, XR.fin.injEq] at h
    norm_num at h
  · intro h
    simp only [Arr.sparse.injEq, List.cons.injEq, Prod.mk.injEq, XR.fin.injEq] at h
    norm_num at h

/-- The caller's matrix after `k` calls on it. -/
noncomputable def afterCalls (t : Tfidf Ex) : Nat → Arr Ex → Py (Arr Ex)
  | 0, X => .ok X
  | k + 1, X => do
    let X ← afterCalls t k X
    return (← t.transform X).2

/-- **C36**, any number `k` of calls on the same matrix: the entry has been multiplied by the idf
`k` times. -/
theorem C36_repeated_calls (k : Nat) (x : ℝ) :
    afterCalls doubling k (.sparse [[(0, .fin x)]] (some 1) .float) =
      .ok (.sparse [[(0, .fin (x * 2 ^ k))]] (some 1) .float) := by
  induction k with
  | zero => simp [afterCalls]
  | succ k ih =>
    simp only [afterCalls, ih, py_ok_bind, doubling_step, py_pure]
    rw [pow_succ, mul_assoc]

/-- Non-vacuity of `C36_tfidf_partial`: two features, l2. -/
example : ∃ ds' : List (Dict Int ℝ),
    ((⟨some .l2, true, false, fins [1, 2], 2⟩ : Tfidf Ex).transform
      (.sparse ([[(0, 3), (1, 2)]].map finD) (some 2) .float)).map Prod.fst =
        .ok (.sparse (ds'.map finD) (some 2) .float) ∧
      (∀ d ∈ ds', ValidRow 2 d) ∧
      ds'.map (dense 0 2) = [[(0, 3), (1, 2)]].map fun d =>
        unitBy l2norm (tfidfDense [1, 2] (dense 0 2 d)) :=
  C36_tfidf_partial ⟨some .l2, true, false, fins [1, 2], 2⟩ [1, 2] rfl rfl rfl .l2 (.inr rfl) rfl
    (by simp [fins]) (by simp) (by
      intro d hd
      simp only [List.mem_singleton] at hd
      subst hd
      exact ⟨by decide, by simp⟩) .float

end PurePredict
