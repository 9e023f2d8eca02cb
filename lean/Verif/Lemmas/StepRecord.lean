import Verif.Lemmas.BatchChain
/-
The converted transformers as record-by-record steps.
-/
namespace PurePredict
open Spec
variable {F : Type} [Arith F]

theorem columnwise_dense {p : List F} {op : F → F → Py F} {rs rs' : List (Row F)}
    (h : columnwise p op rs = .ok rs') :
    ∃ M, rs' = M.map Row.list ∧ Rect p.length M := by
  unfold columnwise at h
  induction rs generalizing rs' with
  | nil => cases h; exact ⟨[], rfl, by simp [Rect]⟩
  | cons r rs ih =>
    obtain ⟨y, ys, hy, hys, rfl⟩ := mapM_cons_ok.1 h
    obtain ⟨M, rfl, hM⟩ := ih hys
    obtain ⟨l, hl, hy⟩ := bind_ok_iff.1 hy
    cases hy
    refine ⟨l :: M, rfl, ?_⟩
    intro x hx
    rcases List.mem_cons.1 hx with rfl | hx
    · simpa using mapM_length hl
    · exact hM x hx

/-- A scaler fitted on `w` columns: the attributes it uses have length `w`. -/
structure StandardScaler.Width (s : StandardScaler F) (w : Nat) : Prop where
  mean : s.withMean = true → ∀ m, s.mean = some m → m.length = w
  scale : s.withStd = true → ∀ m, s.scale = some m → m.length = w

theorem rowsOf_ok {r : Py (Arr F)} {y : Arr F} (h : r = .ok y) : rowsOf r = y.rows := by
  rw [h]; rfl

theorem StandardScaler.record_dense (s : StandardScaler F) {w : Nat} (hs : s.Width w) :
    RecordByRecord (.denseOf F w) (.denseOf F w) s.transform := by
  refine recordByRecord_dense (A := .denseOf F w) (s.dense_batch.weaken fun _ _ => trivial) ?_
  intro (xs : List (List F)) hxs y hy
  -- the result is a list of rows
  obtain ⟨rs, rfl⟩ : ∃ rs, y = .list rs := by
    have e : s.transform (.ofMat xs) = .ok y := hy
    unfold StandardScaler.transform at e
    rw [checkArray_dense (A := xs) hxs.1, py_ok_bind] at e
    simp only [rows_list, py_ok_bind] at e
    have fin : ∀ r1, (if s.withStd = true then do
          let rs ← columnwise (← notNone s.scale) Arith.div r1
          pure (Arr.list rs)
        else do
          let rs ← pure r1
          pure (Arr.list rs) : Py (Arr F)) = .ok y → ∃ rs, y = .list rs := by
      intro r1 e
      split at e
      · obtain ⟨m, -, e⟩ := bind_ok_iff.1 e
        obtain ⟨r2, -, e⟩ := bind_ok_iff.1 e
        cases e
        exact ⟨_, rfl⟩
      · cases e
        exact ⟨_, rfl⟩
    split at e
    · obtain ⟨m, -, e⟩ := bind_ok_iff.1 e
      obtain ⟨r1, -, e⟩ := bind_ok_iff.1 e
      exact fin r1 e
    · exact fin _ e
  have h := rowsOf_ok hy
  rw [rows_list] at h
  have h' := s.transform_dense (A := xs) hxs.1
  rw [show rowsOf (s.transform (.ofMat xs)) = .ok rs from h] at h'
  obtain ⟨r1, h1, h2⟩ := bind_ok_iff.1 h'.symm
  have g1 : ∃ M, r1 = M.map Row.list ∧ Rect w M := by
    cases hm : s.withMean with
    | false => rw [hm] at h1; cases h1; exact ⟨xs, rfl, hxs.2⟩
    | true =>
      rw [hm] at h1
      obtain ⟨m, hm', h1⟩ := bind_ok_iff.1 h1
      obtain ⟨M, rfl, hM⟩ := columnwise_dense h1
      have : s.mean = some m := by
        cases hsm : s.mean with
        | none => rw [hsm] at hm'; cases hm'
        | some m' => rw [hsm] at hm'; cases hm'; rfl
      rw [hs.mean hm m this] at hM
      exact ⟨M, rfl, hM⟩
  cases hd : s.withStd with
  | false =>
    rw [hd] at h2; cases h2
    obtain ⟨M, rfl, hM⟩ := g1
    exact ⟨M, rfl, hM⟩
  | true =>
    rw [hd] at h2
    obtain ⟨m, hm', h2⟩ := bind_ok_iff.1 h2
    obtain ⟨M, rfl, hM⟩ := columnwise_dense h2
    have : s.scale = some m := by
      cases hsm : s.scale with
      | none => rw [hsm] at hm'; cases hm'
      | some m' => rw [hsm] at hm'; cases hm'; rfl
    rw [hs.scale hd m this] at hM
    exact ⟨M, rfl, hM⟩

theorem StandardScaler.record_sparse (s : StandardScaler F) (w : Nat) (dt : DType) :
    RecordByRecord (.sparseOf F w dt) (.sparseOf F w dt) s.transform := by
  refine recordByRecord_sparse (A := .sparseOf F w dt) (s.sparse_batch (some w) dt) ?_
  intro xs hxs y hy
  have e : s.transform (.sparse xs (some w) dt) = .ok y := hy
  simp only [StandardScaler.transform, checkArray, py_ok_bind] at e
  split at e
  · cases e
  · cases hsc : s.scale with
    | none => rw [hsc] at e; cases e; exact ⟨xs, rfl⟩
    | some v =>
      rw [hsc] at e
      obtain ⟨rs, h1, e⟩ := bind_ok_iff.1 e
      have : rs ≠ [] := by
        rintro rfl
        exact hxs.1 (List.length_eq_zero_iff.1 (mapM_length h1).symm)
      rw [sparseList_dicts this] at e
      cases e; exact ⟨rs, rfl⟩

theorem MaxAbsScaler.record_sparse (s : MaxAbsScaler F) (w : Nat) (dt : DType) :
    RecordByRecord (.sparseOf F w dt) (.sparseOf F w dt) s.transform := by
  refine recordByRecord_sparse (A := .sparseOf F w dt) (s.sparse_batch (some w) dt) ?_
  intro xs hxs y hy
  have e : s.transform (.sparse xs (some w) dt) = .ok y := hy
  simp only [MaxAbsScaler.transform, checkArray, py_ok_bind] at e
  obtain ⟨rs, h1, e⟩ := bind_ok_iff.1 e
  have : rs ≠ [] := by
    rintro rfl
    exact hxs.1 (List.length_eq_zero_iff.1 (mapM_length h1).symm)
  rw [sparseList_dicts this] at e
  cases e; exact ⟨rs, rfl⟩

theorem MaxAbsScaler.record_dense (s : MaxAbsScaler F) {w w' : Nat}
    (hs : ∀ m, s.scale = some m → m.length = w) :
    RecordByRecord (.denseOf F w') (.denseOf F w) s.transform := by
  refine recordByRecord_dense (A := .denseOf F w') (s.dense_batch.weaken fun _ _ => trivial) ?_
  intro (xs : List (List F)) hxs y hy
  have e : s.transform (.ofMat xs) = .ok y := hy
  unfold MaxAbsScaler.transform at e
  rw [checkArray_dense (A := xs) hxs.1, py_ok_bind] at e
  simp only [rows_list, py_ok_bind] at e
  obtain ⟨m, hm, e⟩ := bind_ok_iff.1 e
  obtain ⟨rs, h1, e⟩ := bind_ok_iff.1 e
  cases e
  obtain ⟨M, rfl, hM⟩ := columnwise_dense h1
  have : s.scale = some m := by
    cases hsm : s.scale with
    | none => rw [hsm] at hm; cases hm
    | some m' => rw [hsm] at hm; cases hm; rfl
  rw [hs m this] at hM
  exact ⟨M, rfl, hM⟩

theorem MinMaxScaler.record_dense (s : MinMaxScaler F) {w w' : Nat}
    (hs : ∀ m, s.scale = some m → m.length = w) :
    RecordByRecord (.denseOf F w') (.denseOf F w) s.transform := by
  refine recordByRecord_dense (A := .denseOf F w') (s.dense_batch.weaken fun _ _ => trivial) ?_
  intro (xs : List (List F)) hxs y hy
  have e : s.transform (.ofMat xs) = .ok y := hy
  unfold MinMaxScaler.transform at e
  rw [issparse_ofMat] at e
  simp only [Bool.false_eq_true, if_false, checkArray_dense (A := xs) hxs.1, py_ok_bind,
    rows_list] at e
  obtain ⟨rs, h1, e⟩ := bind_ok_iff.1 e
  cases e
  refine ⟨rs, rfl, fun r hr => ?_⟩
  obtain ⟨x, -, hx⟩ := mapM_mem h1 hr
  obtain ⟨m, hm, hx⟩ := bind_ok_iff.1 hx
  have : s.scale = some m := by
    cases hsm : s.scale with
    | none => rw [hsm] at hm; cases hm
    | some m' => rw [hsm] at hm; cases hm; rfl
  rw [← hs m this]
  simpa using mapM_length hx

/-- Normalising a sparse matrix keeps its size and type. -/
theorem normalizePure_sparse_kind {n : Norm} {w : Option Nat} {dt : DType} {xs : List (Dict Int F)}
    {y : Arr F} (e : normalizePure (.sparse xs w dt) n = .ok y) : ∃ ds, y = .sparse ds w dt := by
  by_cases hn : n = .bad
  · subst hn
    cases e
  · simp only [normalizePure, normalizePure', Arr.issparse, Bool.and_true, Bool.false_eq_true,
      if_false, hn, checkArray, py_ok_bind, show ((1 : Int) == 0) = false from rfl,
      show ((1 : Int) == 1) = true from rfl, Bool.or_true, Bool.not_true, py_pure, Bool.and_false,
      Bool.false_and, normalizeRows, bind_assoc] at e
    obtain ⟨q, -, e⟩ := bind_ok_iff.1 e
    obtain ⟨rs, -, e⟩ := bind_ok_iff.1 e
    obtain ⟨a, ha, e⟩ := bind_ok_iff.1 e
    cases e
    by_cases hrs : rs = []
    · subst hrs
      rw [List.map_nil, sparseList_dicts_nil] at ha
      cases ha
    · rw [sparseList_dicts hrs] at ha
      cases ha
      exact ⟨rs, rfl⟩

theorem normalizer_record_sparse (n : Norm) (w : Nat) (dt : DType) :
    RecordByRecord (.sparseOf F w dt) (.sparseOf F w dt) (normalizerTransform n) :=
  recordByRecord_sparse (A := .sparseOf F w dt) (normalizer_sparse_batch n (some w) dt)
    fun _ _ _ hy => normalizePure_sparse_kind hy

theorem normalizer_record_dense (n : Norm) (w : Nat) :
    RecordByRecord (.denseOf F w) (.denseOf F w) (normalizerTransform n) := by
  refine recordByRecord_dense (A := .denseOf F w) (normalizer_dense_batch n w) ?_
  intro (xs : List (List F)) hxs y hy
  have e : normalizerTransform n (.ofMat xs) = .ok y := hy
  by_cases hn : n = .bad
  · subst hn
    simp only [normalizerTransform, checkArray_ofMat (M := xs) hxs.1, py_ok_bind, normalizePure,
      normalizePure', issparse_ofMat, Bool.and_false, Bool.false_eq_true, if_false, if_true,
      py_error_bind] at e
    cases e
  · have e2 : normalizeRows (.ofMat xs : Arr F) n = (do
        let norms := handleZeros (← denseNorms n (.ofMat xs))
        let rs' ← (List.zip (← (Arr.ofMat xs : Arr F).rows) norms).mapM fun p => do
          (← p.1.iter).mapM fun a => a /ₚ p.2
        return (.ofMat rs', norms)) := rfl
    simp only [normalizerTransform, checkArray_ofMat (M := xs) hxs.1, py_ok_bind, normalizePure,
      normalizePure', issparse_ofMat, Bool.and_false, Bool.false_eq_true, if_false, if_true, hn,
      show ((1 : Int) == 0) = false from rfl, show ((1 : Int) == 1) = true from rfl, Bool.or_true,
      Bool.not_true, py_pure, Bool.false_and, e2, bind_assoc, rows_ofMat] at e
    obtain ⟨q, -, e⟩ := bind_ok_iff.1 e
    obtain ⟨rs, h1, e⟩ := bind_ok_iff.1 e
    cases e
    refine ⟨rs, rfl, fun r hr => ?_⟩
    obtain ⟨p, hp, hx⟩ := mapM_mem h1 hr
    have := (List.of_mem_zip hp).1
    obtain ⟨l, hl, h2⟩ := List.mem_map.1 this
    rw [← h2] at hx
    obtain ⟨l', hl', hx⟩ := bind_ok_iff.1 hx
    cases hl'
    rw [mapM_length hx]
    exact hxs.2 l hl

/-- tf-idf of a sparse matrix keeps its size and type. -/
theorem Tfidf.kind {t : Tfidf F} {w : Option Nat} {dt : DType} {xs : List (Dict Int F)} {p : Arr F × Arr F}
    (e : t.transform (.sparse xs w dt) = .ok p) : ∃ ds, p.1 = .sparse ds w dt := by
  simp only [Tfidf.transform, checkArray, py_ok_bind] at e
  obtain ⟨sh, -, e⟩ := bind_ok_iff.1 e
  cases sh with
  | d1 _ => cases e
  | d2 _ nf =>
    dsimp only at e
    split at e
    · cases e
    · have fin : ∀ ds : List (Dict Int F), (match t.norm with
            | none => pure (.sparse ds w dt, .sparse ds w dt)
            | some n => do pure (← normalizePure (.sparse ds w dt) n, .sparse ds w dt) :
              Py (Arr F × Arr F)) = .ok p → ∃ ds, p.1 = .sparse ds w dt := by
        intro ds e
        cases hn : t.norm with
        | none => rw [hn] at e; cases e; exact ⟨ds, rfl⟩
        | some n =>
          rw [hn] at e
          obtain ⟨y, hy, e⟩ := bind_ok_iff.1 e
          cases e
          exact normalizePure_sparse_kind hy
      split at e
      · split at e
        · cases e
        · obtain ⟨rs, -, e⟩ := bind_ok_iff.1 e
          obtain ⟨rs', -, e⟩ := bind_ok_iff.1 e
          obtain ⟨X, hX, e⟩ := bind_ok_iff.1 e
          simp only [Arr.withRows] at hX
          obtain ⟨ds, -, hX⟩ := bind_ok_iff.1 hX
          cases hX
          exact fin ds e
      · exact fin xs e

theorem Tfidf.record (t : Tfidf F) (w : Nat) (dt : DType) :
    RecordByRecord (.sparseOf F w dt) (.sparseOf F w dt)
      (fun X => t.transform X >>= fun p => .ok p.1) := by
  refine recordByRecord_sparse (A := .sparseOf F w dt) (t.batch (some w) dt) ?_
  intro xs hxs y hy
  obtain ⟨p, hp, e⟩ := bind_ok_iff.1 hy
  cases e
  exact Tfidf.kind hp

end PurePredict
