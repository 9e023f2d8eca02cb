import Verif.Lemmas.StepRecord
import Verif.Spec.Requests
import Verif.Props.C29
import Verif.Props.C30
/-
The remaining converted transformers as record-by-record steps: imputation, encoders, vectorizers.
-/
namespace PurePredict
open Spec
variable {F : Type} [Arith F]

/-! ### Number of columns -/

theorem filter_range_getD {α : Type} (l : List α) (d : α) (p : α → Bool) :
    ((List.range l.length).filter fun j => p (l.getD j d)).length = (l.filter p).length := by
  have h : l.filter p = (((List.range l.length).filter fun j => p (l.getD j d)).map fun j => l.getD j d) := by
    conv_lhs => rw [show l = (List.range l.length).map fun j => l.getD j d from eq_range_map l d, List.filter_map]
    rfl
  rw [h, List.length_map]

theorem SimpleImputer.out_length (s : SimpleImputer F) (d : F) (x : List F) :
    (s.out d x).length = keptColumns s := by
  unfold SimpleImputer.out imputed keptColumns SimpleImputer.keep
  rw [List.length_map]
  cases s.constant with
  | true => simp
  | false =>
    simp only [Bool.false_or, Bool.false_eq_true, if_false]
    exact filter_range_getD s.statistics d fun x => !Arith.isnan x

theorem filter_range_contains {l : List Nat} {n : Nat} (hn : l.Nodup) (hl : ∀ j ∈ l, j < n) :
    ((List.range n).filter fun j => l.contains j).length = l.length := by
  apply List.Perm.length_eq
  rw [List.perm_ext_iff_of_nodup (List.nodup_range.filter _) hn]
  intro j
  simp only [List.mem_filter, List.mem_range, List.contains_iff_mem]
  exact ⟨fun h => h.2, fun h => ⟨hl j h, h⟩⟩

theorem MissingIndicator.out_length (m : MissingIndicator F) (h : FittedFlags m) (d : F) (x : List F) :
    (m.out d x).length = flagColumns m := by
  unfold MissingIndicator.out missingMask flagColumns MissingIndicator.selected
  rw [List.length_map, List.length_map]
  cases m.missingOnly with
  | true => simpa using filter_range_contains h.1 h.2
  | false => simp

/-! ### Imputation -/

theorem MissingIndicator.record (m : MissingIndicator F) (h : FittedFlags m)
    (he : m.errorOnNew = false ∨ m.missingOnly = false) :
    RecordByRecord (.denseOf F m.nFeatures) (.denseOf F (flagColumns m))
      (fun X => do return .ofMat (← m.transform X)) := by
  refine ⟨fun M => .ok (M.map (m.out (ofInt 0))), BatchIndependent.ok_map _, fun M hM => ⟨fun y => ?_, ?_⟩⟩
  · have e : m.transform (.ofMat M) = _ := C31_total_partial m (ofInt 0) hM.1 hM.2 h.1 h.2 he
    show (m.transform (.ofMat M) >>= _) = _ ↔ _
    rw [e]
    constructor
    · intro h; cases h; exact ⟨_, rfl, rfl⟩
    · rintro ⟨c, hc, rfl⟩; cases hc; rfl
  · intro c hc z hz
    cases hc
    obtain ⟨x, -, rfl⟩ := List.mem_map.1 hz
    exact m.out_length h _ x

theorem SimpleImputer.record (s : SimpleImputer F) (h0 : s.statistics ≠ []) (ha : s.addIndicator = false) :
    RecordByRecord (.denseOf F s.statistics.length) (.denseOf F (keptColumns s)) s.transform := by
  refine ⟨fun M => .ok (M.map (s.out (ofInt 0))), BatchIndependent.ok_map _, fun M hM => ⟨fun y => ?_, ?_⟩⟩
  · have e : s.transform (.ofMat M) = _ := C30_transform s (ofInt 0) hM.1 hM.2 h0 ha
    show s.transform (.ofMat M) = _ ↔ _
    rw [e]
    constructor
    · intro h; cases h; exact ⟨_, rfl, rfl⟩
    · rintro ⟨c, hc, rfl⟩; cases hc; rfl
  · intro c hc z hz
    cases hc
    obtain ⟨x, -, rfl⟩ := List.mem_map.1 hz
    exact s.out_length _ x

theorem SimpleImputer.record_flags (s : SimpleImputer F) (h0 : s.statistics ≠ []) (ha : s.addIndicator = true)
    {i : MissingIndicator F} (hi : s.indicator = some i) (he : i.errorOnNew = false)
    (hn : i.nFeatures = s.statistics.length) (hf : FittedFlags i) :
    RecordByRecord (.denseOf F s.statistics.length) (.denseOf F (keptColumns s + flagColumns i)) s.transform := by
  refine ⟨fun M => .ok (M.map fun x => s.out (ofInt 0) x ++ i.out (ofInt 0) x), BatchIndependent.ok_map _,
    fun M hM => ⟨fun y => ?_, ?_⟩⟩
  · have e : s.transform (.ofMat M) = _ := C30_indicator s (ofInt 0) hM.1 hM.2 h0 ha hi he hn hf.1 hf.2
    show s.transform (.ofMat M) = _ ↔ _
    rw [e]
    constructor
    · intro h; cases h; exact ⟨_, rfl, rfl⟩
    · rintro ⟨c, hc, rfl⟩; cases hc; rfl
  · intro c hc z hz
    cases hc
    obtain ⟨x, -, rfl⟩ := List.mem_map.1 hz
    show (s.out (ofInt 0) x ++ i.out (ofInt 0) x).length = _
    rw [List.length_append, s.out_length _ x, i.out_length hf _ x]

/-! ### Encoders -/

/-- Rows of strings. -/
def Spec.Form.tableOf (w : Nat) : Form (Arr Str) := ⟨List Str, fun r => r.length = w, Arr.ofMat⟩

theorem FittedCategories.fitted {e : Encoder Str} {w : Nat} (h : FittedCategories e w) : e.Fitted w :=
  h

theorem Encoder.ordinal_record (e : Encoder Str) {w : Nat} (he : e.Fitted w) :
    RecordByRecord (.tableOf w) (.denseOf F w) (fun X => do return .ofMat (← e.ordinal X)) := by
  refine ⟨fun R => e.ordinal (.ofMat R), e.ordinal_batch w he, fun R hR => ⟨fun y => ?_, fun c hc z hz => ?_⟩⟩
  · show (e.ordinal (.ofMat R) >>= _) = _ ↔ _
    rw [bind_ok_iff]
    constructor
    · rintro ⟨c, hc, h⟩; cases h; exact ⟨c, hc, rfl⟩
    · rintro ⟨c, hc, rfl⟩; exact ⟨c, hc, rfl⟩
  · replace hc : e.ordinal (.ofMat R) = .ok c := hc
    by_cases hk : ∀ x ∈ R, Known e.categories x
    · rw [(C29_ordinal e w he R hR.1 hR.2 hk).1] at hc
      obtain ⟨r, hr, hz⟩ := mapM_mem hc hz
      obtain ⟨x, hx, rfl⟩ := List.mem_map.1 hr
      show z.length = w
      rw [mapM_length hz, List.length_map, codes, List.length_zipWith, he.1]
      have : x.length = w := hR.2 x hx
      omega
    · push Not at hk
      rw [C29_unknown e w he R hR.2 hk] at hc
      cases hc

theorem Encoder.oneHot_sparse (e : Encoder Str) {w : Nat} (he : e.Fitted w) (hs : e.sparse = true) :
    RecordByRecord (.tableOf w) (.sparseOf F (e.categories.map List.length).sum e.dtype) e.oneHot := by
  refine recordByRecord_sparse (A := .tableOf w) (e.oneHot_batch w he) fun R hR y hy => ?_
  replace hy : e.oneHot (.ofMat R) = .ok y := hy
  cases h1 : castTo e.dtype (ofInt 1 : F) with
  | error er =>
    exfalso
    cases ht : e.transform_ (.ofMat R) e.handleUnknownError with
    | error e' => simp only [Encoder.oneHot, ht, py_error_bind] at hy; cases hy
    | ok p => simp only [Encoder.oneHot, ht, py_ok_bind, h1, py_error_bind] at hy; cases hy
  | ok one =>
    by_cases hk : e.handleUnknownError = true → ∀ x ∈ R, Known e.categories x
    · rw [oneHot_code e w he R hR.1 hR.2 hk one h1] at hy
      simp only [hs, Bool.not_true, Bool.false_eq_true, if_false] at hy
      cases hy
      exact ⟨_, rfl⟩
    · push Not at hk
      rw [C28_unknown_error e w he hk.1 R hR.2 hk.2] at hy
      cases hy

theorem Encoder.oneHot_dense (e : Encoder Str) {w : Nat} (he : e.Fitted w) (hs : e.sparse = false) :
    RecordByRecord (.tableOf w) (.denseOf F (e.categories.map List.length).sum) e.oneHot := by
  refine recordByRecord_dense (A := .tableOf w) (e.oneHot_batch w he) fun R hR y hy => ?_
  replace hy : e.oneHot (.ofMat R) = .ok y := hy
  cases h1 : castTo e.dtype (ofInt 1 : F) with
  | error er =>
    exfalso
    cases ht : e.transform_ (.ofMat R) e.handleUnknownError with
    | error e' => simp only [Encoder.oneHot, ht, py_error_bind] at hy; cases hy
    | ok p => simp only [Encoder.oneHot, ht, py_ok_bind, h1, py_error_bind] at hy; cases hy
  | ok one =>
    by_cases hk : e.handleUnknownError = true → ∀ x ∈ R, Known e.categories x
    · rw [oneHot_code e w he R hR.1 hR.2 hk one h1] at hy
      simp only [hs, Bool.not_false, if_true] at hy
      cases hz : castTo e.dtype (ofInt 0 : F) with
      | error er => simp only [todense, hz, py_error_bind] at hy; cases hy
      | ok z =>
        rw [todense_sparse hz] at hy
        cases hy
        refine ⟨_, rfl, fun r hr => ?_⟩
        obtain ⟨d, -, rfl⟩ := List.mem_map.1 hr
        simp [dense, totalCats]
    · push Not at hk
      rw [C28_unknown_error e w he hk.1 R hR.2 hk.2] at hy
      cases hy

/-! ### Vectorizers -/

/-- Documents. -/
def Spec.Form.texts : Form (List Str) := ⟨Str, fun _ => True, id⟩

/-- Mappings. -/
def Spec.Form.mappings (F : Type) : Form (DictInput F) := ⟨Dict Str (FeatVal F), fun _ => True, .many⟩

theorem CountVectorizer.record (lib : TextLib) (v : CountVectorizer) (hb : v.binary = false) :
    RecordByRecord .texts (.sparseOf F v.vocabulary.length v.dtype) (fun ds => v.transform lib (some ds)) := by
  refine recordByRecord_sparse (A := .texts) (v.batch lib) fun docs hd y hy => ?_
  replace hy : v.transform lib (some docs) = .ok y := hy
  simp only [CountVectorizer.transform, v.countVocab_eq lib hd.1, bind_assoc, hb, Bool.false_eq_true, if_false,
    py_ok_bind, py_pure] at hy
  obtain ⟨an, -, hy⟩ := bind_ok_iff.1 hy
  cases hy
  exact ⟨_, rfl⟩

theorem tfidfVectorizer_record (lib : TextLib) (v : CountVectorizer) (t : Tfidf F) (hb : v.binary = false) :
    RecordByRecord .texts (.sparseOf F v.vocabulary.length v.dtype)
      (fun ds => tfidfVectorizerTransform lib v t (some ds)) := by
  refine recordByRecord_sparse (A := .texts) (tfidfVectorizer_batch lib v t hb) fun docs hd y hy => ?_
  replace hy : tfidfVectorizerTransform lib v t (some docs) = .ok y := hy
  simp only [tfidfVectorizerTransform, CountVectorizer.transform, v.countVocab_eq lib hd.1,
    bind_assoc, hb, Bool.false_eq_true, if_false, py_ok_bind, py_pure] at hy
  obtain ⟨an, -, hy⟩ := bind_ok_iff.1 hy
  obtain ⟨p, hp, hy⟩ := bind_ok_iff.1 hy
  cases hy
  exact Tfidf.kind hp

theorem HashingVectorizer.record (lib : TextLib) (encode : Str → List Nat) (v : HashingVectorizer)
    (hb : v.binary = false) :
    RecordByRecord .texts (.sparseOf F v.nFeatures.toNat v.dtype) (fun ds => v.transform lib encode (some ds)) := by
  refine recordByRecord_sparse (A := .texts) (v.batch lib encode hb) fun (docs : List Str) hd y hy => ?_
  replace hy : v.transform lib encode (some docs) = .ok y := hy
  simp only [HashingVectorizer.transform, featureHasher_string, bind_assoc, hb, Bool.false_eq_true, if_false] at hy
  obtain ⟨an, -, hy⟩ := bind_ok_iff.1 hy
  obtain ⟨n, hn, hy⟩ := bind_ok_iff.1 hy
  obtain rfl : n = v.nFeatures.toNat := by
    unfold validateNFeatures at hn
    split at hn
    · cases hn
    · cases hn; rfl
  obtain ⟨X, hX, hy⟩ := bind_ok_iff.1 hy
  obtain ⟨X', hX', hy⟩ := bind_ok_iff.1 hy
  cases hX'
  have hk : ∃ ds, X = .sparse ds (some v.nFeatures.toNat) v.dtype := by
    simp only [hashingTransform] at hX
    split at hX
    · cases hX
    · have hne : (docs.map fun d => ((an d).map fun f => (f, FeatVal.num (ofInt 1 : F))).foldl
          (hashStep encode v.nFeatures.toNat v.alternateSign 0) []) ≠ [] := fun h => hd.1 (List.map_eq_nil_iff.1 h)
      have := sparseList_dicts hne (some v.nFeatures.toNat) v.dtype
      simp only [List.map_map] at this hX
      exact ⟨_, Except.ok.inj (hX.symm.trans this)⟩
  obtain ⟨ds, rfl⟩ := hk
  cases hnm : v.norm with
  | none => rw [hnm] at hy; cases hy; exact ⟨_, rfl⟩
  | some nm => rw [hnm] at hy; exact normalizePure_sparse_kind hy

theorem DictVectorizer.record_sparse (v : DictVectorizer) (hs : v.sparse = true) :
    RecordByRecord (.mappings F) (.sparseOf F v.vocabulary.length v.dtype) v.transform := by
  refine recordByRecord_sparse (A := .mappings F) v.batch fun xs hx y hy => ?_
  replace hy : v.transform (.many xs) = .ok y := hy
  simp only [DictVectorizer.transform, hs, Bool.not_true, Bool.false_eq_true, if_false] at hy
  obtain ⟨ds, hds, hy⟩ := bind_ok_iff.1 hy
  have : ds ≠ [] := by
    intro e; subst e
    exact hx.1 (List.length_eq_zero_iff.1 (mapM_length hds).symm)
  rw [sparseList_dicts this] at hy
  cases hy
  exact ⟨_, rfl⟩

theorem DictVectorizer.record_dense (v : DictVectorizer) (hs : v.sparse = false) :
    RecordByRecord (.mappings F) (.denseOf F v.vocabulary.length) v.transform := by
  refine recordByRecord_dense (A := .mappings F) v.batch fun xs hx y hy => ?_
  replace hy : v.transform (.many xs) = .ok y := hy
  simp only [DictVectorizer.transform, hs, Bool.not_false, if_true] at hy
  obtain ⟨ds, hds, hy⟩ := bind_ok_iff.1 hy
  have : ds ≠ [] := by
    intro e; subst e
    exact hx.1 (List.length_eq_zero_iff.1 (mapM_length hds).symm)
  rw [sparseList_dicts this, py_ok_bind] at hy
  cases hz : castTo v.dtype (ofInt 0 : F) with
  | error er => simp only [todense, hz, py_error_bind] at hy; cases hy
  | ok z =>
    rw [todense_sparse hz] at hy
    cases hy
    refine ⟨_, rfl, fun r hr => ?_⟩
    obtain ⟨d, -, rfl⟩ := List.mem_map.1 hr
    simp [dense]

end PurePredict
