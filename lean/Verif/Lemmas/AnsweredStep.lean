import Verif.Spec.Answered
import Verif.Lemmas.SameMatrixObject
import Verif.Lemmas.LeafRecord
import Verif.Props.C23
import Verif.Props.C36
import Verif.Props.C38
/-
Transformers answer the requests they are fitted for.
-/
namespace PurePredict
open Spec

/-! ### Requests -/

theorem finiteVec_fins {v : List Ex} {n : Nat} (h : FiniteVec v n) : ∃ xs : List ℝ, v = fins xs ∧ xs.length = n := h

theorem finiteMat_fins {M : List (List Ex)} {n w : Nat} (h : FiniteMat M n w) :
    ∃ R : List (List ℝ), M = R.map fins ∧ R.length = n ∧ Rect w R := by
  obtain ⟨R, rfl⟩ := exists_fins (M := M) fun r hr x hx => by
    obtain ⟨xs, rfl, -⟩ := h.2 r hr
    obtain ⟨a, -, rfl⟩ := List.mem_map.1 hx
    exact ⟨a, rfl⟩
  refine ⟨R, rfl, by simpa using h.1, fun r hr => ?_⟩
  obtain ⟨xs, e, hl⟩ := h.2 (fins r) (List.mem_map.2 ⟨r, hr, rfl⟩)
  rw [← hl, fins_injective e]

/-- a vector as a function of the column -/
theorem fins_getD {v : List ℝ} {w : Nat} (h : v.length = w) : fins v = fins ((List.range w).map fun j => v.getD j 0) := by
  congr 1
  subst h
  apply List.ext_getElem
  · simp
  · intro i h1 h2
    simp [List.getD_eq_getElem?_getD, h1]

theorem shows_fins {R : List (List ℝ)} {w : Nat} (h : R ≠ []) (hw : Rect w R) : Shows (fp := FP.exact) .exact (.ofMat (R.map fins)) w (R.map fins) := by
  refine .dense (by simpa using h) fun r hr => ?_
  obtain ⟨x, hx, rfl⟩ := List.mem_map.1 hr
  refine ⟨by rw [fins_length]; exact hw x hx, fun y hy => ?_⟩
  obtain ⟨a, -, rfl⟩ := List.mem_map.1 hy
  exact ⟨a, rfl⟩

theorem holds_fins {R : List (List ℝ)} {l : Layout} {w : Nat} (h : R ≠ []) (hw : Rect w R) (hl : l.Fits false) :
    (Ask.matrix l w).Holds (.arr (.ofMat (R.map fins))) R.length :=
  .matrix (shows_fins h hw) (by rw [issparse_ofMat]; exact hl) (by simp)

theorem holds_sparse {ds : List (Dict Int Ex)} {l : Layout} {w : Nat} {dt : DType} (h : ds ≠ []) (hd : ∀ d ∈ ds, GoodRow w d)
    (hl : l.Fits true) : (Ask.matrix l w).Holds (.arr (.sparse ds (some w) dt)) ds.length :=
  .matrix (.sparse h fun d hm => ⟨(hd d hm).1, trivial, (hd d hm).2⟩) hl (by simp)

/-- A matrix request is a dense real matrix or a sparse one. -/
theorem Spec.Ask.Holds.matrix_cases {l : Layout} {w n : Nat} {X : Data Ex} (h : (Ask.matrix l w).Holds X n) :
    (∃ R : List (List ℝ), X = .arr (.ofMat (R.map fins)) ∧ R ≠ [] ∧ Rect w R ∧ R.length = n ∧ l.Fits false) ∨
    ∃ (ds : List (Dict Int Ex)) (dt : DType), X = .arr (.sparse ds (some w) dt) ∧ ds ≠ [] ∧ (∀ d ∈ ds, GoodRow w d) ∧
      ds.length = n ∧ l.Fits true := by
  cases h with
  | @matrix A _ _ M n h1 h2 h3 =>
    cases h1 with
    | dense g1 g2 =>
      obtain ⟨R, rfl⟩ := exists_fins fun r hr => (g2 r hr).2
      refine .inl ⟨R, rfl, by simpa using g1, fun r hr => ?_, by simpa using h3, by simpa [issparse_ofMat] using h2⟩
      have := (g2 (fins r) (List.mem_map.2 ⟨r, hr, rfl⟩)).1
      rwa [fins_length] at this
    | @sparse ds w dt g1 g2 => exact .inr ⟨ds, dt, rfl, g1, fun d hd => ⟨(g2 d hd).1, (g2 d hd).2.2⟩, by simpa using h3, h2⟩

theorem delivered_of {A B : Ask} {t : Data Ex → Py (Arr Ex)}
    (h : ∀ X n, A.Holds X n → ∃ Y, t X = .ok Y ∧ B.Holds (.arr Y) n) : Delivered (transformer t) A (.form B) := by
  refine ⟨_, rfl, fun X n hX => ?_⟩
  obtain ⟨Y, h1, h2⟩ := h X n hX
  exact ⟨.arr Y, by simp only [h1, py_ok_bind, py_pure], h2⟩

theorem rect_onColumns {q : Nat → ℝ → ℝ} {w : Nat} (R : List (List ℝ)) : Rect w (onColumns 0 w q R) := by
  intro r hr
  obtain ⟨x, -, rfl⟩ := List.mem_map.1 hr
  simp

theorem goodRow_map {w : Nat} {d : Dict Int Ex} (h : GoodRow w d) (q : Nat → Ex → Ex) (hq : ∀ j r, ∃ r', q j (.fin r) = .fin r') :
    GoodRow w (d.map fun kv => (kv.1, q kv.1.toNat kv.2)) := by
  refine ⟨validRow_mapKV (g := fun k v => q k.toNat v) h.1, fun kv hkv => ?_⟩
  obtain ⟨kv', hkv', rfl⟩ := List.mem_map.1 hkv
  obtain ⟨r, hr⟩ := h.2 _ hkv'
  show ∃ r', q _ kv'.2 = _
  rw [hr]
  exact hq _ r

/-! ### Scalers -/

theorem standard_sure {s : StandardScaler Ex} {l : Layout} {w : Nat}
    (h1 : s.withMean = true → l = .dense ∧ ∃ m, s.mean = some m ∧ FiniteVec m w)
    (h2 : s.withStd = true → GoodScale s.scale w) (h3 : s.withStd = false → s.scale = none) :
    Delivered (transformer (Data.onArr s.transform)) (.matrix l w) (.form (.matrix l w)) := by
  refine delivered_of fun X n hX => ?_
  rcases hX.matrix_cases with ⟨R, rfl, hR, hw, rfl, hl⟩ | ⟨ds, dt, rfl, hds, hd, rfl, hl⟩
  · obtain ⟨me, hme⟩ : ∃ me : Nat → ℝ, s.withMean = true → s.mean = some (fins ((List.range w).map me)) := by
      by_cases hm : s.withMean = true
      · obtain ⟨-, m, e, xs, rfl, hx⟩ := h1 hm
        exact ⟨fun j => xs.getD j 0, fun _ => by rw [e, ← fins_getD hx]; rfl⟩
      · exact ⟨fun _ => 0, fun h => absurd h hm⟩
    obtain ⟨sc, hsc⟩ : ∃ sc : Nat → ℝ, s.withStd = true → s.scale = some (fins ((List.range w).map sc)) ∧ ∀ j < w, sc j ≠ 0 := by
      by_cases hm : s.withStd = true
      · obtain ⟨S, e, hS, hne⟩ := h2 hm
        refine ⟨fun j => S.getD j 0, fun _ => ⟨by rw [e, ← fins_getD hS]; rfl, fun j hj => ?_⟩⟩
        show S.getD j 0 ≠ 0
        rw [List.getD_eq_getElem?_getD, List.getElem?_eq_getElem (by rw [hS]; exact hj)]
        exact hne _ (List.getElem_mem _)
      · exact ⟨fun _ => 0, fun h => absurd h hm⟩
    refine ⟨_, C22_transform_formula s w me sc hme hsc R hR hw, ?_⟩
    have := holds_fins (l := l) (R := onColumns 0 w (stdEntry s.withMean s.withStd me sc) R) (by simpa [onColumns] using hR)
      (rect_onColumns R) hl
    simpa [onColumns] using this
  · have hm : s.withMean = false := by
      cases hm : s.withMean with
      | false => rfl
      | true =>
        obtain ⟨rfl, -⟩ := h1 hm
        cases hl
    by_cases hs : s.withStd = true
    · obtain ⟨S, hsc, hS, hne⟩ := h2 hs
      refine ⟨.sparse (ds.map fun d => d.map fun kv => (kv.1, XR.quot kv.2 (S.getD kv.1.toNat 1))) (some w) dt, ?_, ?_⟩
      · show s.transform _ = _
        simp only [StandardScaler.transform, checkArray, py_ok_bind, hm, Bool.false_eq_true, if_false,
          hsc, scaleDicts_ok hS hne fun d hdm => (hd d hdm).1]
        exact sparseList_dicts (by simpa using hds) _ _
      · have := holds_sparse (l := l) (w := w) (dt := dt) (ds := ds.map fun d => d.map fun kv => (kv.1, XR.quot kv.2 (S.getD kv.1.toNat 1)))
          (by simpa using hds) (fun d hdm => by
            obtain ⟨d', hd', rfl⟩ := List.mem_map.1 hdm
            exact goodRow_map (hd d' hd') (fun j x => XR.quot x (S.getD j 1)) fun j r => ⟨_, XR.quot_exact r _⟩) hl
        simpa using this
    · refine ⟨.sparse ds (some w) dt, ?_, holds_sparse hds hd hl⟩
      show s.transform _ = _
      simp [StandardScaler.transform, checkArray, hm, h3 (by simpa using hs)]

theorem maxAbs_sure {s : MaxAbsScaler Ex} {l : Layout} {w : Nat} (hs : GoodScale s.scale w) :
    Delivered (transformer (Data.onArr s.transform)) (.matrix l w) (.form (.matrix l w)) := by
  refine delivered_of fun X n hX => ?_
  obtain ⟨S, hsc, hS, hne⟩ := hs
  obtain ⟨sc, ma⟩ := s
  simp only at hsc
  subst hsc
  rcases hX.matrix_cases with ⟨R, rfl, hR, hw, rfl, hl⟩ | ⟨ds, dt, rfl, hds, hd, rfl, hl⟩
  · have e := C24_transform_rounded FP.exact w (fun j => S.getD j 1) (fun j hj => by
      rw [List.getD_eq_getElem?_getD, List.getElem?_eq_getElem (by rw [hS]; exact hj)]
      exact hne _ (List.getElem_mem _)) ma (R.map fins) (by simpa using hR) (fun r hr => by
        obtain ⟨x, hx, rfl⟩ := List.mem_map.1 hr
        rw [fins_length]; exact hw x hx)
    obtain ⟨c1, -⟩ := shows_columns (g := .exact) (fp := FP.exact) (q := fun j x => XR.quot x (S.getD j 1)) (w := w)
      (fun _ => XR.quot_zero FP.exact_sound _) fun j x => entry_quot (g := .exact) rfl _ x
    refine ⟨.ofMat (onColumns (.fin 0) w (fun j x => XR.quot x (S.getD j 1)) (R.map fins)), ?_, ?_⟩
    · show MaxAbsScaler.transform _ _ = _
      rw [scale_range hS]
      exact e
    · exact .matrix (c1 _ (shows_fins hR hw)) (by rw [issparse_ofMat]; exact hl) (by simp [onColumns])
  · refine ⟨.sparse (ds.map fun d => d.map fun kv => (kv.1, XR.quot kv.2 (S.getD kv.1.toNat 1))) (some w) dt, ?_, ?_⟩
    · show MaxAbsScaler.transform _ _ = _
      simp only [MaxAbsScaler.transform, checkArray, py_ok_bind, scaleDicts_ok hS hne fun d hdm => (hd d hdm).1]
      exact sparseList_dicts (by simpa using hds) _ _
    · have := holds_sparse (l := l) (w := w) (dt := dt) (ds := ds.map fun d => d.map fun kv => (kv.1, XR.quot kv.2 (S.getD kv.1.toNat 1)))
        (by simpa using hds) (fun d hdm => by
          obtain ⟨d', hd', rfl⟩ := List.mem_map.1 hdm
          exact goodRow_map (hd d' hd') (fun j x => XR.quot x (S.getD j 1)) fun j r => ⟨_, XR.quot_exact r _⟩) hl
      simpa using this

theorem minMax_sure {s : MinMaxScaler Ex} {w : Nat} {a b : List Ex} (h1 : s.scale = some a) (ha : FiniteVec a w)
    (h2 : s.min = some b) (hb : FiniteVec b w) :
    Delivered (transformer (Data.onArr s.transform)) (.matrix .dense w) (.form (.matrix .dense w)) := by
  refine delivered_of fun X n hX => ?_
  obtain ⟨xs, rfl, hx⟩ := finiteVec_fins ha
  obtain ⟨ys, rfl, hy⟩ := finiteVec_fins hb
  obtain ⟨sc, mi⟩ := s
  simp only at h1 h2
  subst h1 h2
  rcases hX.matrix_cases with ⟨R, rfl, hR, hw, rfl, hl⟩ | ⟨ds, dt, rfl, hds, hd, rfl, hl⟩
  · have e := C23_transform_formula w (fun j => xs.getD j 0) (fun j => ys.getD j 0) R hR hw
    rw [← fins_getD hx, ← fins_getD hy] at e
    refine ⟨_, e, ?_⟩
    have := holds_fins (l := .dense) (R := onColumns 0 w (minMaxEntry (fun j => xs.getD j 0) fun j => ys.getD j 0) R)
      (by simpa [onColumns] using hR) (rect_onColumns R) rfl
    simpa [onColumns] using this
  · cases hl

/-! ### Normalising -/

/-- Rows of numbers divided by their norms. -/
theorem normalizePure_good {n : Norm} (hn : n = .l1 ∨ n = .l2) {w : Nat} {ds : List (Dict Int Ex)} (hds : ds ≠ [])
    (hd : ∀ d ∈ ds, GoodRow w d) (dt : DType) :
    ∃ ds' : List (Dict Int Ex), normalizePure (.sparse ds (some w) dt) n = .ok (.sparse ds' (some w) dt) ∧ ds'.length = ds.length ∧
      ∀ d ∈ ds', GoodRow w d := by
  obtain ⟨es, rfl⟩ := exists_finD fun d hdm => (hd d hdm).2
  obtain ⟨ds', e1, e2, e3⟩ := C26_sparse_agrees n hn w es (by simpa using hds)
    (fun d hdm => finD_valid_iff (hd _ (List.mem_map.2 ⟨d, hdm, rfl⟩)).1) dt
  refine ⟨ds'.map finD, ?_, ?_, fun d hdm => ?_⟩
  · simp only [normalizerTransform, checkArray, py_ok_bind] at e1
    exact e1
  · simpa using congrArg List.length e3
  · obtain ⟨d', hd', rfl⟩ := List.mem_map.1 hdm
    exact ⟨finD_valid (e2 d' hd'), (finD_row (e2 d' hd')).2.2⟩

theorem normalizer_sure {n : Norm} (hn : n = .l1 ∨ n = .l2) {l : Layout} {w : Nat} :
    Delivered (transformer (Data.onArr (normalizerTransform n))) (.matrix l w) (.form (.matrix l w)) := by
  refine delivered_of fun X m hX => ?_
  rcases hX.matrix_cases with ⟨R, rfl, hR, hw, rfl, hl⟩ | ⟨ds, dt, rfl, hds, hd, rfl, hl⟩
  · refine ⟨_, C26_dense n hn w R hR hw, ?_⟩
    have := holds_fins (l := l) (w := w) (R := R.map (unitBy (normOf n))) (by simpa using hR) (fun r hr => by
      obtain ⟨x, hx, rfl⟩ := List.mem_map.1 hr
      rw [unitBy_eq]; simp [hw x hx]) hl
    simpa using this
  · obtain ⟨ds', e1, e2, e3⟩ := normalizePure_good hn hds hd dt
    refine ⟨_, e1, ?_⟩
    rw [← e2]
    refine holds_sparse (fun h => hds ?_) e3 hl
    subst h
    exact List.length_eq_zero_iff.1 e2.symm

/-! ### Text -/

theorem tfidf_good {t : Tfidf Ex} {w : Nat} (h : GoodTfidf t w) {ds : List (Dict Int Ex)} (hds : ds ≠ [])
    (hd : ∀ d ∈ ds, GoodRow w d) (dt : DType) :
    ∃ (ds' : List (Dict Int Ex)) (X' : Arr Ex), t.transform (.sparse ds (some w) dt) = .ok (.sparse ds' (some w) dt, X') ∧
      ds'.length = ds.length ∧ ∀ d ∈ ds', GoodRow w d := by
  obtain ⟨hs, ⟨idf, hi, hl⟩, rfl, hn⟩ := h
  have e := tfidf_transform t (.fin 0) hs (by rw [hi, List.length_map]; exact hl) hds (fun d hdm => (hd d hdm).1) dt
  rw [e]
  clear e
  have hgood : ∀ d ∈ (if t.useIdf = true then ds.map (weighted (.fin 0) t.idf) else ds), GoodRow t.expectedNFeatures d := by
    split
    · intro d hdm
      obtain ⟨d', hd', rfl⟩ := List.mem_map.1 hdm
      refine goodRow_map (hd d' hd') (fun j x => x *ₚ t.idf.getD j (.fin 0)) fun j r => ?_
      have : ∃ c, t.idf.getD j (.fin 0) = .fin c := by
        rw [hi, List.getD_eq_getElem?_getD, List.getElem?_map]
        cases idf[j]? with
        | none => exact ⟨0, rfl⟩
        | some c => exact ⟨c, rfl⟩
      obtain ⟨c, hc⟩ := this
      exact ⟨r * c, by rw [hc, XR.mul_exact]⟩
    · exact hd
  have hlen : (if t.useIdf = true then ds.map (weighted (.fin 0) t.idf) else ds).length = ds.length := by split <;> simp
  generalize (if t.useIdf = true then ds.map (weighted (.fin 0) t.idf) else ds) = es at hgood hlen
  have hes : es ≠ [] := by
    rintro rfl
    exact hds (List.length_eq_zero_iff.1 hlen.symm)
  cases hnm : t.norm with
  | none => exact ⟨es, _, rfl, hlen, hgood⟩
  | some n =>
    have hn' : n = .l1 ∨ n = .l2 := by
      rcases hn with h | h | h
      · rw [hnm] at h; cases h
      · rw [hnm] at h; cases h; exact .inl rfl
      · rw [hnm] at h; cases h; exact .inr rfl
    obtain ⟨ds', e1, e2, e3⟩ := normalizePure_good hn' hes hgood dt
    exact ⟨ds', .sparse es (some t.expectedNFeatures) dt, by simp only [e1, py_ok_bind, py_pure], by rw [e2, hlen], e3⟩

theorem tfidf_sure {t : Tfidf Ex} {w : Nat} (h : GoodTfidf t w) :
    Delivered (transformer (Data.onArr fun X => do return (← t.transform X).1)) (.matrix .sparse w) (.form (.matrix .sparse w)) := by
  refine delivered_of fun X m hX => ?_
  rcases hX.matrix_cases with ⟨R, rfl, hR, hw, rfl, hl⟩ | ⟨ds, dt, rfl, hds, hd, rfl, hl⟩
  · cases hl
  · obtain ⟨ds', X', e1, e2, e3⟩ := tfidf_good h hds hd dt
    refine ⟨.sparse ds' (some w) dt, ?_, ?_⟩
    · show (t.transform _ >>= fun p => .ok p.1) = _
      rw [e1]; rfl
    · rw [← e2]
      refine holds_sparse (fun h => hds ?_) e3 hl
      subst h
      exact List.length_eq_zero_iff.1 e2.symm

theorem buildAnalyzer_ok (lib : TextLib) {o : VectorizerOpts} (h : GoodOpts o) : ∃ an, buildAnalyzer lib o = .ok an := by
  obtain ⟨h1, h2, h3⟩ := h
  have hp : ∃ pre, buildPreprocessor lib o = .ok pre := by
    unfold buildPreprocessor
    cases hs : o.stripAccents <;> simp_all [py_pure]
  obtain ⟨pre, hp⟩ := hp
  unfold buildAnalyzer
  rw [hp]
  cases ha : o.analyzer with
  | bad => exact absurd ha h1
  | char => exact ⟨_, rfl⟩
  | charWb => exact ⟨_, rfl⟩
  | word =>
    cases hw : o.stopWords with
    | str s => exact absurd hw (h3 ha s)
    | none => exact ⟨_, rfl⟩
    | list ws => exact ⟨_, rfl⟩

theorem countRow_good {v : Dict Str Int} (hv : GoodVocabulary v) (fs : List Str) : GoodRow v.length (countRow v fs : Dict Int Ex) := by
  refine ⟨⟨?_, fun p hp => ?_⟩, fun p hp => ?_⟩
  · have : (Dict.keys (countRow v fs : Dict Int Ex)).Nodup := by
      rw [countRow, Dict.keys_mapVals]; exact countDoc_nodup v fs
    exact this
  · have hk : p.1 ∈ Dict.keys (countRow v fs : Dict Int Ex) := List.mem_map.2 ⟨p, hp, rfl⟩
    have hne : (countRow v fs : Dict Int Ex).get? p.1 ≠ none := by
      rw [Ne, Dict.get?_eq_none_iff]; simpa using hk
    rw [countRow_get?] at hne
    have h0 : codeCount v fs p.1 ≠ 0 := by
      intro h; rw [if_pos h] at hne; exact hne rfl
    obtain ⟨f, hf⟩ := List.exists_mem_of_length_pos (Nat.pos_of_ne_zero h0)
    exact hv _ (Dict.mem_of_get? (by simpa using (List.mem_filter.1 hf).2 : v.get? f = some p.1))
  · rw [countRow_finD] at hp
    obtain ⟨q, -, rfl⟩ := List.mem_map.1 hp
    exact ⟨_, rfl⟩

theorem count_sure (lib : TextLib) {v : CountVectorizer} (hb : v.binary = false) (ho : GoodOpts v.opts)
    (hv : GoodVocabulary v.vocabulary) :
    Delivered (transformer (Data.onDocs fun ds => v.transform lib (some ds))) .docs (.form (.matrix .sparse v.vocabulary.length)) := by
  refine delivered_of fun X m hX => ?_
  obtain ⟨an, han⟩ := buildAnalyzer_ok lib ho
  cases hX with
  | @docs ds _ hds hl =>
    subst hl
    refine ⟨_, C34_transform lib v hb han hds, ?_⟩
    have := holds_sparse (l := .sparse) (dt := v.dtype) (ds := ds.map fun d => (countRow v.vocabulary (an d) : Dict Int Ex)) (by simpa using hds)
      (fun d hd => by obtain ⟨x, -, rfl⟩ := List.mem_map.1 hd; exact countRow_good hv _) rfl
    simpa using this

theorem tfidfVec_sure (lib : TextLib) {v : CountVectorizer} {t : Tfidf Ex} (hb : v.binary = false) (ho : GoodOpts v.opts)
    (hv : GoodVocabulary v.vocabulary) (ht : GoodTfidf t v.vocabulary.length) :
    Delivered (transformer (Data.onDocs fun ds => tfidfVectorizerTransform lib v t (some ds))) .docs
      (.form (.matrix .sparse v.vocabulary.length)) := by
  refine delivered_of fun X m hX => ?_
  obtain ⟨an, han⟩ := buildAnalyzer_ok lib ho
  cases hX with
  | @docs ds _ hds hl =>
    subst hl
    obtain ⟨ds', X', e1, e2, e3⟩ := tfidf_good ht (ds := ds.map fun d => (countRow v.vocabulary (an d) : Dict Int Ex)) (by simpa using hds)
      (fun d hd => by obtain ⟨x, -, rfl⟩ := List.mem_map.1 hd; exact countRow_good hv _) v.dtype
    refine ⟨.sparse ds' (some v.vocabulary.length) v.dtype, ?_, ?_⟩
    · show tfidfVectorizerTransform lib v t (some ds) = _
      rw [tfidfVectorizerTransform, C34_transform lib v hb han hds]
      simp only [py_ok_bind, e1, py_pure]
    · have := holds_sparse (l := .sparse) (dt := v.dtype) (ds := ds') (fun h => hds ?_) e3 rfl
      · rwa [e2, List.length_map] at this
      · subst h
        exact List.length_eq_zero_iff.1 (by simpa using e2.symm)

theorem hashRow_good (encode : Str → List Nat) {n : Nat} (hn : 0 < n) (alt : Bool) (fs : List Str) :
    GoodRow n (hashRow encode n alt (fs.map fun f => (f, .num (ofInt 1))) : Dict Int Ex) := by
  unfold hashRow
  have : ∀ (x : List (Str × FeatVal Ex)), (∀ p ∈ x, p.2 = .num (ofInt 1)) → ∀ d : Dict Int Ex, GoodRow n d →
      GoodRow n (x.foldl (hashStep encode n alt 0) d) := by
    intro x
    induction x with
    | nil => exact fun _ d hd => hd
    | cons a x ih =>
      intro hx d hd
      refine ih (fun p hp => hx p (by simp [hp])) _ ?_
      obtain ⟨f, v⟩ := a
      obtain rfl : v = .num (ofInt 1) := hx (f, v) (by simp)
      simp only [hashStep]
      split
      · exact hd
      · refine hd.set ?_ ?_
        · have := C38_range (murmur (encode f) 0) hn
          omega
        · split
          · rw [XR.ofInt_exact, XR.ofInt_exact, XR.mul_exact]
            exact ⟨_, rfl⟩
          · exact ⟨_, XR.ofInt_exact 1⟩
  refine this _ (fun p hp => ?_) [] (.nil _)
  obtain ⟨f, -, rfl⟩ := List.mem_map.1 hp
  rfl

theorem hashing_sure (lib : TextLib) (encode : Str → List Nat) {v : HashingVectorizer} (hb : v.binary = false) (ho : GoodOpts v.opts)
    (h1 : 1 ≤ v.nFeatures) (h2 : v.nFeatures ≤ 2147483647) (hn : SumNorm v.norm) :
    Delivered (transformer (Data.onDocs fun ds => v.transform lib encode (some ds))) .docs
      (.form (.matrix .sparse v.nFeatures.toNat)) := by
  refine delivered_of fun X m hX => ?_
  obtain ⟨an, han⟩ := buildAnalyzer_ok lib ho
  cases hX with
  | @docs ds _ hds hl =>
    subst hl
    have hpos : 0 < v.nFeatures.toNat := by omega
    have hval := ((C38_validate v.nFeatures).2 v.nFeatures.toNat).2 ⟨h1, h2, rfl⟩
    have hT := (C38_transform (F := Ex) encode hpos v.dtype v.alternateSign
      (X := ds.map fun d => (an d).map fun f => (f, .num (ofInt 1))) (by simpa using hds)).1
    set es : List (Dict Int Ex) := (ds.map fun d => (an d).map fun f => (f, FeatVal.num (ofInt 1))).map
      (hashRow encode v.nFeatures.toNat v.alternateSign) with hes
    have hg : ∀ d ∈ es, GoodRow v.nFeatures.toNat d := by
      intro d hd
      rw [hes, List.map_map] at hd
      obtain ⟨x, -, rfl⟩ := List.mem_map.1 hd
      exact hashRow_good encode hpos _ _
    have hne : es ≠ [] := by simpa [hes] using hds
    have hlen : es.length = ds.length := by simp [hes]
    have e : v.transform lib encode (some ds) = (match v.norm with
        | some nm => normalizePure (Arr.sparse es (some v.nFeatures.toNat) v.dtype) nm
        | none => .ok (Arr.sparse es (some v.nFeatures.toNat) v.dtype)) := by
      simp only [HashingVectorizer.transform, han, py_ok_bind, hval, featureHasher_string, hT, hb, Bool.false_eq_true, if_false,
        py_pure]
      cases v.norm <;> rfl
    cases hnm : v.norm with
    | none =>
      rw [hnm] at e
      exact ⟨_, e, hlen ▸ holds_sparse hne hg rfl⟩
    | some nm =>
      rw [hnm] at e
      have hn' : nm = .l1 ∨ nm = .l2 := by
        rcases hn with h | h | h
        · rw [hnm] at h; cases h
        · rw [hnm] at h; cases h; exact .inl rfl
        · rw [hnm] at h; cases h; exact .inr rfl
      obtain ⟨ds', e1, e2, e3⟩ := normalizePure_good hn' hne hg v.dtype
      refine ⟨_, e.trans e1, ?_⟩
      rw [← hlen, ← e2]
      refine holds_sparse (fun h => hne ?_) e3 rfl
      subst h
      exact List.length_eq_zero_iff.1 e2.symm

/-! ### Encoders -/

theorem castTo_fin_ok (dt : DType) (r : ℝ) : ∃ y, castTo dt (.fin r : Ex) = .ok (.fin y) := by
  have h : ∃ y, castTo dt (.fin r : Ex) = .ok y := by
    cases dt with
    | int => exact ⟨_, rfl⟩
    | float => exact ⟨_, rfl⟩
    | bool => exact ⟨_, rfl⟩
  obtain ⟨y, h⟩ := h
  obtain ⟨a, rfl⟩ := castTo_fin ⟨r, rfl⟩ h
  exact ⟨a, h⟩

theorem option_layout {ds : List (Dict Int Ex)} (hne : ds ≠ []) {w : Nat} (h : ∀ d ∈ ds, GoodRow w d) (dt : DType) (b : Bool) :
    ∃ A, (if (!b) = true then todense (Arr.sparse ds (some w) dt) else pure (Arr.sparse ds (some w) dt)) = .ok A ∧
      (Ask.matrix (if b then .sparse else .dense) w).Holds (.arr A) ds.length := by
  cases b with
  | true => exact ⟨_, rfl, holds_sparse hne h rfl⟩
  | false =>
    obtain ⟨h1, h2⟩ := dense_of_todense (dt := dt) (GoodRow.shows hne h dt)
    exact ⟨_, h1, .matrix h2 (by rw [issparse_ofMat]; rfl) (by simp)⟩

theorem dictVec_sure {v : DictVectorizer} (hv : GoodVocabulary v.vocabulary) :
    Delivered (transformer (Data.onRecords v.transform)) .records
      (.form (.matrix (if v.sparse then .sparse else .dense) v.vocabulary.length)) := by
  refine delivered_of fun X m hX => ?_
  cases hX with
  | @records xs _ hxs hf hl =>
    subst hl
    have hrow : ∀ x ∈ xs, ∃ r, v.row x = .ok r := by
      intro x hx
      unfold DictVectorizer.row
      have hfx := hf x hx
      clear hf hx
      generalize ([] : Dict Int Ex) = s
      induction x generalizing s with
      | nil => exact ⟨s, rfl⟩
      | cons a x ih =>
        rw [List.foldlM_cons]
        have : ∃ s', v.step s a = .ok s' := by
          rw [dvStep_eq]
          cases v.vocabulary.get? (feature v.separator a).1 with
          | none => exact ⟨_, rfl⟩
          | some j =>
            have : ∃ r, (feature v.separator a).2 = XR.fin r := by
              obtain ⟨f, c | c⟩ := a
              · exact hfx _ List.mem_cons_self c rfl
              · exact ⟨_, XR.ofInt_exact 1⟩
            obtain ⟨r, hr⟩ := this
            obtain ⟨y, hy⟩ := castTo_fin_ok v.dtype r
            exact ⟨Dict.set s j (.fin y), by simp only [hr, hy, py_ok_bind, py_pure]⟩
        obtain ⟨s', hs'⟩ := this
        rw [hs', py_ok_bind]
        exact ih (fun kv hkv => hfx kv (by simp [hkv])) s'
    obtain ⟨ds, hm⟩ : ∃ ds, xs.mapM v.row = .ok ds := by
      clear hxs hf
      induction xs with
      | nil => exact ⟨[], rfl⟩
      | cons x xs ih =>
        obtain ⟨ds, h⟩ := ih fun y hy => hrow y (by simp [hy])
        obtain ⟨d, hd⟩ := hrow x (by simp)
        exact ⟨d :: ds, by rw [mapM_cons', hd, h]; rfl⟩
    have hl := mapM_length hm
    have hds : ds ≠ [] := by
      rintro rfl
      exact hxs (List.length_eq_zero_iff.1 (by simpa using hl.symm))
    have hg : ∀ r ∈ ds, GoodRow v.vocabulary.length r := by
      intro r hr
      obtain ⟨x, hxm, h⟩ := rel_right (mapM_ok_iff.1 hm) r hr
      exact DictVectorizer.row_good hv (hf x hxm) h
    obtain ⟨A, h1, h2⟩ := option_layout hds hg v.dtype v.sparse
    refine ⟨A, ?_, hl ▸ h2⟩
    show v.transform (.many xs) = _
    simp only [DictVectorizer.transform, hm, py_ok_bind, sparseList_dicts hds]
    exact h1

theorem ordinal_sure {e : Encoder Str} (hf : FittedCategories e e.categories.length) :
    Delivered (transformer (Data.onTable fun X => do return .ofMat (← e.ordinal X)) : Methods Ex) (.table e.categories)
      (.form (.matrix .dense e.categories.length)) := by
  refine delivered_of fun X m hX => ?_
  cases hX with
  | @table xs _ _ hxs hk hl =>
    subst hl
    have hR : Rect e.categories.length xs := fun x hx => (hk x hx).1
    have ho := (C29_ordinal (F := Ex) e _ hf xs hxs hR fun x hx => (hk x hx).2).1
    have hM : ∃ R : List (List ℝ), ((xs.map fun x => (codes e.categories x).map fun (k : Nat) => (ofInt k : Ex)).mapM
        fun r => r.mapM (castTo e.dtype)) = .ok (R.map fins) ∧ R.length = xs.length ∧ Rect e.categories.length R := by
      clear ho hxs
      induction xs with
      | nil => exact ⟨[], rfl, rfl, by simp [Rect]⟩
      | cons x xs ih =>
        obtain ⟨R, h1, h2, h3⟩ := ih (fun y hy => hk y (by simp [hy])) fun y hy => hR y (by simp [hy])
        have hx : ∀ ks : List Nat, ∃ r : List ℝ, (ks.map fun (k : Nat) => (ofInt k : Ex)).mapM (castTo e.dtype) = .ok (fins r) ∧
            r.length = ks.length := by
          intro ks
          induction ks with
          | nil => exact ⟨[], rfl, rfl⟩
          | cons k ks ih =>
            obtain ⟨r, h1, h2⟩ := ih
            obtain ⟨y, hy⟩ := castTo_fin_ok e.dtype (((k : Int) : ℝ))
            refine ⟨y :: r, ?_, by simp [h2]⟩
            rw [List.map_cons, mapM_cons', XR.ofInt_exact, hy, h1]
            rfl
        obtain ⟨r, g1, g2⟩ := hx (codes e.categories x)
        refine ⟨r :: R, ?_, by simp [h2], fun y hy => ?_⟩
        · rw [List.map_cons, mapM_cons', g1, h1]
          rfl
        · rcases List.mem_cons.1 hy with rfl | hy
          · rw [g2]; simp [codes, hR x (by simp)]
          · exact h3 y hy
    obtain ⟨R, h1, h2, h3⟩ := hM
    refine ⟨.ofMat (R.map fins), ?_, ?_⟩
    · show (e.ordinal (.ofMat xs) >>= fun M => .ok (Arr.ofMat M)) = _
      rw [ho, h1]
      rfl
    · rw [← h2]
      refine holds_fins (fun h => hxs ?_) h3 rfl
      subst h
      exact List.length_eq_zero_iff.1 h2.symm

theorem oneHot_sure {e : Encoder Str} (hf : FittedCategories e e.categories.length) :
    Delivered (transformer (Data.onTable e.oneHot) : Methods Ex) (.table e.categories)
      (.form (.matrix (if e.sparse then .sparse else .dense) (e.categories.map List.length).sum)) := by
  refine delivered_of fun X m hX => ?_
  cases hX with
  | @table xs _ _ hxs hk hl =>
    subst hl
    have hR : Rect e.categories.length xs := fun x hx => (hk x hx).1
    obtain ⟨one, h1⟩ := castTo_fin_ok e.dtype 1
    have h1' : castTo e.dtype (ofInt 1 : Ex) = .ok (.fin one) := by rw [XR.ofInt_exact]; simpa using h1
    have ho := oneHot_code (F := Ex) e _ hf xs hxs hR (fun _ x hx => (hk x hx).2) (.fin one) h1'
    obtain ⟨A, g1, g2⟩ := option_layout (ds := xs.map fun x => Dict.ofList (codeItems (.fin one) e.categories x)) (by simpa using hxs)
      (w := totalCats e.categories) (fun r hr => by
        obtain ⟨x, hx, rfl⟩ := List.mem_map.1 hr
        refine GoodRow.ofList _ fun p hp => ?_
        obtain ⟨h2, h3⟩ := codeItems_range (hR x hx).symm (fun c hc => (hf.2 c hc).2) (.fin one) p hp
        exact ⟨h2, h3 ▸ ⟨one, rfl⟩⟩) e.dtype e.sparse
    refine ⟨A, ho.trans g1, ?_⟩
    rw [List.length_map] at g2
    exact g2

/-! ### Imputation -/

/-- rows of a request that may have missing entries -/
theorem mayMiss_cases {A : Ask} {w n : Nat} (hA : MayMiss A w) {X : Data Ex} (h : A.Holds X n) :
    ∃ M : List (List Ex), X = .arr (.ofMat M) ∧ M ≠ [] ∧ Rect w M ∧ M.length = n ∧
      ∀ r ∈ M, ∀ x ∈ r, (x = .nan ∧ A = .gaps w) ∨ ∃ a, x = .fin a := by
  rcases hA with rfl | rfl
  · cases h with
    | @gaps M _ _ h1 h2 h3 =>
      refine ⟨M, rfl, h1, fun r hr => (h2 r hr).1, h3, fun r hr x hx => ?_⟩
      rcases (h2 r hr).2 x hx with h | h
      · exact .inl ⟨h, rfl⟩
      · exact .inr h
  · rcases h.matrix_cases with ⟨R, rfl, hR, hw, rfl, -⟩ | ⟨ds, dt, rfl, hds, hd, rfl, hl⟩
    · refine ⟨R.map fins, rfl, by simpa using hR, fun r hr => ?_, by simp, fun r hr x hx => .inr ?_⟩
      · obtain ⟨y, hy, rfl⟩ := List.mem_map.1 hr
        rw [fins_length]; exact hw y hy
      · obtain ⟨y, -, rfl⟩ := List.mem_map.1 hr
        obtain ⟨a, -, rfl⟩ := List.mem_map.1 hx
        exact ⟨a, rfl⟩
    · cases hl

theorem holds_rows {M : List (List Ex)} {w : Nat} (h : M ≠ []) (hw : ∀ r ∈ M, r.length = w ∧ ∀ x ∈ r, ∃ a, x = .fin a) :
    (Ask.matrix .dense w).Holds (.arr (.ofMat M)) M.length :=
  .matrix (.dense h hw) (by rw [issparse_ofMat]; rfl) rfl

theorem ofBool_fin (b : Bool) : ∃ a, (ofBool b : Ex) = .fin a := by
  unfold ofBool
  split
  · exact ⟨_, XR.ofInt_exact 1⟩
  · exact ⟨_, XR.ofInt_exact 0⟩

theorem MissingIndicator.out_finite (m : MissingIndicator Ex) (d : Ex) (x : List Ex) : ∀ y ∈ m.out d x, ∃ a, y = .fin a := by
  intro y hy
  obtain ⟨b, -, rfl⟩ := List.mem_map.1 hy
  exact ofBool_fin b

theorem isnan_fin (a : ℝ) : Arith.isnan (.fin a : Ex) = false := rfl

theorem isnan_nan : Arith.isnan (.nan : Ex) = true := rfl

theorem SimpleImputer.out_finite {s : SimpleImputer Ex} {A : Ask} (h : GoodFill s A) {r : List Ex} (hl : r.length = s.statistics.length)
    (hr : ∀ x ∈ r, (x = .nan ∧ A = .gaps s.statistics.length) ∨ ∃ a, x = .fin a) :
    ∀ y ∈ s.out (ofInt 0) r, ∃ a, y = .fin a := by
  intro y hy
  obtain ⟨j, hj, rfl⟩ := List.mem_map.1 hy
  obtain ⟨hj, hk⟩ := List.mem_filter.1 hj
  have hj := List.mem_range.1 hj
  have hst : ∃ a, s.statistics.getD j (ofInt 0) = .fin a := by
    have hm : s.statistics.getD j (ofInt 0) ∈ s.statistics := by
      rw [List.getD_eq_getElem?_getD, List.getElem?_eq_getElem hj]
      exact List.getElem_mem _
    rcases h.2.2.1 _ hm with h | ⟨h, hc⟩
    · exact h
    · unfold SimpleImputer.keep at hk
      rw [hc, h, isnan_nan] at hk
      cases hk
  have hx : r.getD j (ofInt 0) ∈ r := by
    rw [List.getD_eq_getElem?_getD, List.getElem?_eq_getElem (by omega)]
    exact List.getElem_mem _
  show ∃ a, (if toImpute (r.getD j (ofInt 0)) s.missing then s.statistics.getD j (ofInt 0) else r.getD j (ofInt 0)) = .fin a
  split
  · exact hst
  · rename_i hi
    rcases hr _ hx with ⟨h1, h2⟩ | h
    · rw [h1, h.2.2.2 h2] at hi
      exact absurd rfl hi
    · exact h

theorem imputer_sure {s : SimpleImputer Ex} {A : Ask} (h : GoodFill s A) (ha : s.addIndicator = false) :
    Delivered (transformer (Data.onArr s.transform)) A (.form (.matrix .dense (keptColumns s))) := by
  refine delivered_of fun X n hX => ?_
  obtain ⟨M, rfl, hM, hw, rfl, hr⟩ := mayMiss_cases h.2.1 hX
  refine ⟨_, C30_transform s (ofInt 0) hM hw h.1 ha, ?_⟩
  have := holds_rows (M := M.map (s.out (ofInt 0))) (w := keptColumns s) (by simpa using hM) (fun r hrm => by
    obtain ⟨x, hx, rfl⟩ := List.mem_map.1 hrm
    exact ⟨s.out_length _ _, SimpleImputer.out_finite h (hw x hx) (hr x hx)⟩)
  rwa [List.length_map] at this

theorem imputerFlags_sure {s : SimpleImputer Ex} {A : Ask} {i : MissingIndicator Ex} (h : GoodFill s A) (ha : s.addIndicator = true)
    (hi : s.indicator = some i) (he : i.errorOnNew = false) (hn : i.nFeatures = s.statistics.length) (hf : FittedFlags i) :
    Delivered (transformer (Data.onArr s.transform)) A (.form (.matrix .dense (keptColumns s + flagColumns i))) := by
  refine delivered_of fun X n hX => ?_
  obtain ⟨M, rfl, hM, hw, rfl, hr⟩ := mayMiss_cases h.2.1 hX
  refine ⟨_, C30_indicator s (ofInt 0) hM hw h.1 ha hi he hn hf.1 hf.2, ?_⟩
  have := holds_rows (M := M.map fun x => s.out (ofInt 0) x ++ i.out (ofInt 0) x) (w := keptColumns s + flagColumns i)
    (by simpa using hM) (fun r hrm => by
      obtain ⟨x, hx, rfl⟩ := List.mem_map.1 hrm
      refine ⟨by rw [List.length_append, s.out_length, i.out_length hf], fun y hy => ?_⟩
      rcases List.mem_append.1 hy with hy | hy
      · exact SimpleImputer.out_finite h (hw x hx) (hr x hx) y hy
      · exact i.out_finite _ _ y hy)
  rwa [List.length_map] at this

theorem indicator_sure {m : MissingIndicator Ex} {A : Ask} (hA : MayMiss A m.nFeatures) (hf : FittedFlags m)
    (he : m.errorOnNew = false ∨ m.missingOnly = false) :
    Delivered (transformer (Data.onArr fun X => do return .ofMat (← m.transform X))) A (.form (.matrix .dense (flagColumns m))) := by
  refine delivered_of fun X n hX => ?_
  obtain ⟨M, rfl, hM, hw, rfl, hr⟩ := mayMiss_cases hA hX
  refine ⟨.ofMat (M.map (m.out (ofInt 0))), ?_, ?_⟩
  · show (m.transform (.ofMat M) >>= fun M => .ok (Arr.ofMat M)) = _
    rw [C31_total_partial m (ofInt 0) hM hw hf.1 hf.2 he]
    rfl
  · have := holds_rows (M := M.map (m.out (ofInt 0))) (w := flagColumns m) (by simpa using hM) (fun r hrm => by
      obtain ⟨x, hx, rfl⟩ := List.mem_map.1 hrm
      exact ⟨m.out_length hf _ _, m.out_finite _ _⟩)
    rwa [List.length_map] at this

/-- Every transformer fitted for a kind of requests answers them. -/
theorem sure_delivered (lib : String → TextLib) (encode : Str → List Nat) {s : Single Ex} {A B : Ask} (h : Sure s A B) :
    Delivered (s.est lib encode) A (.form B) := by
  cases h with
  | standard h1 h2 h3 => exact standard_sure h1 h2 h3
  | minMax h1 h2 h3 h4 => exact minMax_sure h1 h2 h3 h4
  | maxAbs h => exact maxAbs_sure h
  | normalizer h => exact normalizer_sure h
  | tfidf h => exact tfidf_sure h
  | imputer h1 h2 => exact imputer_sure h1 h2
  | imputerFlags h1 h2 h3 h4 h5 h6 => exact imputerFlags_sure h1 h2 h3 h4 h5 h6
  | indicator h1 h2 h3 => exact indicator_sure h1 h2 h3
  | count h1 h2 h3 => exact count_sure _ h1 h2 h3
  | tfidfVec h1 h2 h3 h4 => exact tfidfVec_sure _ h1 h2 h3 h4
  | hashing h1 h2 h3 h4 h5 => exact hashing_sure _ _ h1 h2 h3 h4 h5
  | dictVec h => exact dictVec_sure h
  | ordinal h => exact ordinal_sure h
  | oneHot h => exact oneHot_sure h

end PurePredict
