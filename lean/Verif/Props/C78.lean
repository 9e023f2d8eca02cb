import Verif.Lemmas.Hasher
import Verif.Props.C26
import Verif.Props.C39
import Verif.Lemmas.TransformBatch
import Verif.Props.C35
/-
C78: the hashing vectorizer from documents to normalised rows (feature_extraction/text.py:446-497
with _hash.py:92-154).  Exact arithmetic.
-/
namespace PurePredict
open Spec

namespace Spec
/-- The column of a token. -/
def tokColumn (utf8 : Str → List (BitVec 8)) (n : Nat) (t : Str) : Nat := refColumn (refHash utf8 t) n

/-- The reference hasher's row: every column holds the sum of the signs of the tokens that hash to
it. -/
noncomputable def hashedSums (utf8 : Str → List (BitVec 8)) (n : Nat) (alt : Bool) (ts : List Str) : List ℝ :=
  (List.range n).map fun j => ((ts.filter fun t => tokColumn utf8 n t = j).map (tokSign utf8 alt)).sum

/-- The row with, in every column, the sign of the last token that hashes to it. -/
noncomputable def lastSigns (utf8 : Str → List (BitVec 8)) (n : Nat) (alt : Bool) (ts : List Str) : List ℝ :=
  (List.range n).map fun j =>
    (((ts.filter fun t => tokColumn utf8 n t = j).map (tokSign utf8 alt)).getLast?).getD 0

/-- The normalisation chosen by the `norm` parameter. -/
noncomputable def scaled : Option Norm → List ℝ → List ℝ
  | none => id
  | some n => unitBy (normOf n)
end Spec

/-! ### One document -/

/-- The row of a document with real values. -/
noncomputable def realHash (utf8 : Str → List (BitVec 8)) (n : Nat) (alt : Bool) (ts : List Str) : Dict Int ℝ :=
  ts.foldl (fun d t => d.set (tokColumn utf8 n t : Int) (tokSign utf8 alt t)) []

theorem finD_set (d : Dict Int ℝ) (k : Int) (v : ℝ) : finD (d.set k v) = (finD d).set k (.fin v) := by
  induction d with
  | nil => rfl
  | cons p d ih =>
    obtain ⟨k', v'⟩ := p
    by_cases h : k' = k
    · simp [Dict.set, finD, h]
    · have : finD ((k', v') :: d) = (k', XR.fin v') :: finD d := rfl
      rw [this]
      simp only [Dict.set]
      have h' : (k' == k) = false := by simpa using h
      simp only [h', Bool.false_eq_true, if_false]
      rw [← ih]; rfl

theorem hashRow_tokens (utf8 : Str → List (BitVec 8)) {n : Nat}
    (hn : 0 < n) (hn' : n ≤ 2147483647) (alt : Bool) (ts : List Str)
    (hlen : ∀ t ∈ ts, (utf8 t).length < 2 ^ 32) :
    hashRow (fun f => nats (utf8 f)) n alt (ts.map tok) = finD (realHash utf8 n alt ts) := by
  unfold hashRow realHash
  have : ∀ (d : Dict Int ℝ), (ts.map tok).foldl (hashStep (fun f => nats (utf8 f)) n alt 0) (finD d) =
      finD (ts.foldl (fun d t => d.set (tokColumn utf8 n t : Int) (tokSign utf8 alt t)) d) := by
    induction ts with
    | nil => intro d; rfl
    | cons t ts ih =>
      intro d
      rw [List.map_cons, List.foldl_cons, List.foldl_cons, C38_step utf8 hn hn' _ _ _ (by exact hlen t (by simp)),
        contribution_tok]
      rw [← ih fun t h => hlen t (List.mem_cons_of_mem _ h), finD_set]
      rfl
  exact this []

theorem realHash_valid (utf8 : Str → List (BitVec 8)) {n : Nat}
    (hn : 0 < n) (hn' : n ≤ 2147483647) (alt : Bool) (ts : List Str)
    (hlen : ∀ t ∈ ts, (utf8 t).length < 2 ^ 32) :
    ValidRow n (realHash utf8 n alt ts) := by
  have h := (C38_transform (F := Ex) (fun f => nats (utf8 f)) hn .float alt (X := [ts.map tok])
    (by simp)).2 (ts.map tok) (by simp)
  rw [hashRow_tokens utf8 hn hn' _ _ hlen] at h
  constructor
  · simpa [finD, List.map_map, Function.comp_def] using h.1
  · intro p hp
    exact h.2 (p.1, .fin p.2) (List.mem_map.2 ⟨p, hp, rfl⟩)

theorem dense_realHash (utf8 : Str → List (BitVec 8)) (n : Nat) (alt : Bool) (ts : List Str) :
    dense 0 n (realHash utf8 n alt ts) = lastSigns utf8 n alt ts := by
  unfold dense lastSigns
  apply List.map_congr_left
  intro j _
  rw [entry_eq_get?, realHash]
  have : ∀ d : Dict Int ℝ, (ts.foldl (fun d t => d.set (tokColumn utf8 n t : Int) (tokSign utf8 alt t)) d).get?
      (j : Int) = match ((ts.filter fun t => tokColumn utf8 n t = j).map (tokSign utf8 alt)).getLast? with
        | some v => some v
        | none => d.get? (j : Int) := by
    induction ts with
    | nil => intro d; rfl
    | cons t ts ih =>
      intro d
      rw [List.foldl_cons, ih, Dict.get?_set]
      by_cases h : tokColumn utf8 n t = j
      · rw [if_pos (by exact_mod_cast h)]
        simp only [List.filter_cons, h, decide_true, if_true, List.map_cons, List.getLast?_cons]
        cases ((ts.filter fun t => tokColumn utf8 n t = j).map (tokSign utf8 alt)).getLast? <;> rfl
      · rw [if_neg (by exact_mod_cast h)]
        simp only [List.filter_cons, h, decide_false, Bool.false_eq_true, if_false]
  rw [this]
  cases ((ts.filter fun t => tokColumn utf8 n t = j).map (tokSign utf8 alt)).getLast? <;> rfl

theorem last_eq_sum (col : Str → Nat) (sgn : Str → ℝ) {ts : List Str} (h : (ts.map col).Nodup) (j : Nat) :
    (((ts.filter fun t => col t = j).map sgn).getLast?).getD 0 = ((ts.filter fun t => col t = j).map sgn).sum := by
  have hl : (ts.filter fun t => col t = j).length ≤ 1 := by
    rw [← List.countP_eq_length_filter]
    have := List.nodup_iff_count_le_one.1 h j
    rw [List.count_eq_countP, List.countP_map] at this
    refine le_trans (le_of_eq ?_) this
    apply List.countP_congr
    intro t _
    simp
  generalize ts.filter (fun t => decide (col t = j)) = l at hl
  match l with
  | [] => rfl
  | [t] => simp
  | a :: b :: l => simp at hl

theorem lastSigns_eq_sums {utf8 : Str → List (BitVec 8)} {n : Nat} {alt : Bool} {ts : List Str}
    (h : (ts.map (tokColumn utf8 n)).Nodup) : lastSigns utf8 n alt ts = hashedSums utf8 n alt ts :=
  List.map_congr_left fun j _ => last_eq_sum (tokColumn utf8 n) (tokSign utf8 alt) h j

/-! ### `transform` -/

section
variable (utf8 : Str → List (BitVec 8)) (lib : TextLib)
  (v : HashingVectorizer) {an : Str → List Str} (han : buildAnalyzer lib v.opts = .ok an)
include han

/-- **C78**, what the code computes, for every list of documents: a sparse matrix with
`n_features` columns whose rows are the signs of the last token of every column, normalised. -/
theorem C78_rows_partial (hb : v.binary = false) (hn : 1 ≤ v.nFeatures) (hn' : v.nFeatures ≤ 2147483647)
    (hnorm : v.norm = none ∨ v.norm = some .l1 ∨ v.norm = some .l2) {docs : List Str} (hd : docs ≠ [])
    (hlen : ∀ d ∈ docs, ∀ t ∈ an d, (utf8 t).length < 2 ^ 32) :
    ∃ ds : List (Dict Int ℝ),
      v.transform lib (fun f => nats (utf8 f)) (some docs) =
        .ok (.sparse (ds.map finD) (some v.nFeatures.toNat) v.dtype) ∧
      (∀ d ∈ ds, ValidRow v.nFeatures.toNat d) ∧
      ds.map (dense 0 v.nFeatures.toNat) =
        docs.map fun d => scaled v.norm (lastSigns utf8 v.nFeatures.toNat v.alternateSign (an d)) := by
  set n := v.nFeatures.toNat with hnn
  have h0 : 0 < n := by omega
  have h1 : n ≤ 2147483647 := by omega
  have hval : validateNFeatures v.nFeatures = .ok n := ((C38_validate v.nFeatures).2 n).2 ⟨hn, hn', rfl⟩
  have hh := (C38_transform (F := Ex) (fun f => nats (utf8 f)) h0 v.dtype v.alternateSign
    (X := docs.map fun d => (an d).map tok) (by simpa using hd)).1
  have hrow : (docs.map fun d => (an d).map tok).map (hashRow (fun f => nats (utf8 f)) n v.alternateSign) =
      (docs.map fun d => realHash utf8 n v.alternateSign (an d)).map (finD : Dict Int ℝ → Dict Int Ex) := by
    rw [List.map_map, List.map_map]
    exact List.map_congr_left fun d hd => hashRow_tokens utf8 h0 h1 _ _ (hlen d hd)
  rw [hrow] at hh
  have hvalid : ∀ d ∈ docs.map fun d => realHash utf8 n v.alternateSign (an d), ValidRow n d := by
    intro d hdm
    obtain ⟨x, hx, rfl⟩ := List.mem_map.1 hdm
    exact realHash_valid utf8 h0 h1 _ _ (hlen x hx)
  have ht : v.transform (F := Ex) lib (fun f => nats (utf8 f)) (some docs) =
      match v.norm with
      | some nm => normalizePure (.sparse ((docs.map fun d =>
          realHash utf8 n v.alternateSign (an d)).map finD) (some n) v.dtype) nm
      | none => .ok (.sparse ((docs.map fun d =>
          realHash utf8 n v.alternateSign (an d)).map finD) (some n) v.dtype) := by
    have e : (docs.map fun d => (an d).map fun f => (f, FeatVal.num (ofInt 1 : Ex))) =
        docs.map fun d => (an d).map tok := rfl
    simp only [HashingVectorizer.transform, featureHasher_string, han, hval, py_ok_bind, e, hh, hb, Bool.false_eq_true, if_false,
      py_pure]
    cases v.norm <;> rfl
  have hdense : (docs.map fun d => realHash utf8 n v.alternateSign (an d)).map (dense 0 n) =
      docs.map fun d => lastSigns utf8 n v.alternateSign (an d) := by
    rw [List.map_map]
    exact List.map_congr_left fun d _ => dense_realHash utf8 n v.alternateSign (an d)
  have norm : ∀ nm : Norm, nm = .l1 ∨ nm = .l2 → ∃ ds : List (Dict Int ℝ),
      (normalizePure (.sparse ((docs.map fun d => realHash utf8 n v.alternateSign (an d)).map finD) (some n)
        v.dtype) nm : Py (Arr Ex)) = .ok (.sparse (ds.map finD) (some n) v.dtype) ∧
      (∀ d ∈ ds, ValidRow n d) ∧ ds.map (dense 0 n) =
        docs.map fun d => unitBy (normOf nm) (lastSigns utf8 n v.alternateSign (an d)) := by
    intro nm hnm
    obtain ⟨ds, e1, e2, e3⟩ := C26_sparse_agrees nm hnm n
      (docs.map fun d => realHash utf8 n v.alternateSign (an d)) (by simpa using hd) hvalid v.dtype
    refine ⟨ds, ?_, e2, ?_⟩
    · simpa only [normalizerTransform, checkArray, py_ok_bind] using e1
    · rw [e3, List.map_map]
      apply List.map_congr_left
      intro d _
      simp only [Function.comp, dense_realHash]
  rcases hnorm with hm | hm | hm
  · refine ⟨_, by rw [ht, hm], hvalid, ?_⟩
    rw [hdense, hm]; rfl
  · rw [ht, hm]; exact norm .l1 (.inl rfl)
  · rw [ht, hm]; exact norm .l2 (.inr rfl)

/-- **C78** for documents in which no two tokens (also no two occurrences of a token) share a column:
the reference hasher's rows, normalised. -/
theorem C78_reference_partial (hb : v.binary = false) (hn : 1 ≤ v.nFeatures) (hn' : v.nFeatures ≤ 2147483647)
    (hnorm : v.norm = none ∨ v.norm = some .l1 ∨ v.norm = some .l2) {docs : List Str} (hd : docs ≠ [])
    (hlen : ∀ d ∈ docs, ∀ t ∈ an d, (utf8 t).length < 2 ^ 32)
    (hc : ∀ d ∈ docs, ((an d).map (tokColumn utf8 v.nFeatures.toNat)).Nodup) :
    ∃ ds : List (Dict Int ℝ),
      v.transform lib (fun f => nats (utf8 f)) (some docs) =
        .ok (.sparse (ds.map finD) (some v.nFeatures.toNat) v.dtype) ∧
      (∀ d ∈ ds, ValidRow v.nFeatures.toNat d) ∧
      ds.map (dense 0 v.nFeatures.toNat) =
        docs.map fun d => scaled v.norm (hashedSums utf8 v.nFeatures.toNat v.alternateSign (an d)) := by
  obtain ⟨ds, e1, e2, e3⟩ := C78_rows_partial utf8 lib v han hb hn hn' hnorm hd hlen
  refine ⟨ds, e1, e2, ?_⟩
  rw [e3]
  apply List.map_congr_left
  intro d hdm
  rw [lastSigns_eq_sums (hc d hdm)]

/-- **C78 is false** as soon as a token occurs twice: with `norm=None` the row of the document
whose tokens are `t, t` is the row of the document `t`, while the reference hasher's is twice it. -/
theorem C78_repeated_false (hb : v.binary = false) (hn : 1 ≤ v.nFeatures) (hn' : v.nFeatures ≤ 2147483647)
    (hnorm : v.norm = none) {doc : Str} {t : Str} (hlen : (utf8 t).length < 2 ^ 32) (hdoc : an doc = [t, t]) :
    ¬ ∃ ds : List (Dict Int ℝ),
      v.transform lib (fun f => nats (utf8 f)) (some [doc]) =
        .ok (.sparse (ds.map finD) (some v.nFeatures.toNat) v.dtype) ∧
      ds.map (dense 0 v.nFeatures.toNat) =
        [scaled v.norm (hashedSums utf8 v.nFeatures.toNat v.alternateSign (an doc))] := by
  rintro ⟨ds, e1, e2⟩
  obtain ⟨ds', f1, -, f2⟩ := C78_rows_partial utf8 lib v han hb hn hn' (.inl hnorm) (docs := [doc])
    (by simp) (by simp only [List.mem_singleton]; rintro d rfl; rw [hdoc]; simpa using hlen)
  rw [e1] at f1
  have hfin : Function.Injective (finD : Dict Int ℝ → Dict Int Ex) := by
    intro a b h
    refine List.map_injective_iff.2 ?_ h
    rintro ⟨k, x⟩ ⟨k', x'⟩ h
    simp only [Prod.mk.injEq, XR.fin.injEq] at h
    rw [h.1, h.2]
  have : ds = ds' := by
    injection f1 with f1
    injection f1 with f1
    exact List.map_injective_iff.2 hfin f1
  subst this
  rw [e2, hnorm, hdoc] at f2
  set n := v.nFeatures.toNat with hnn
  have hcn : tokColumn utf8 n t < n := by
    unfold tokColumn
    rw [← C38_column _ (by omega) (by omega)]
    exact C38_range _ (by omega)
  simp only [scaled, id, List.map_cons, List.map_nil, hdoc, List.cons.injEq, and_true] at f2
  have h := congrArg (fun l : List ℝ => l[tokColumn utf8 n t]?) f2
  simp [hashedSums, lastSigns, hcn] at h
  exact tokSign_ne utf8 v.alternateSign t h

end

/-! ### Refusals and `binary=True` -/

section
variable {F : Type} [Arith F]

/-- **C78**: `n_features` outside `[1, 2^31)` is refused with ValueError at every request (not at
conversion). -/
theorem C78_invalid (lib : TextLib) (encode : Str → List Nat) (v : HashingVectorizer)
    (hn : v.nFeatures < 1 ∨ 2147483648 ≤ v.nFeatures) (docs : Option (List Str)) {an : Str → List Str}
    (han : buildAnalyzer lib v.opts = .ok an) :
    v.transform (F := F) lib encode docs = .error .valueError := by
  cases docs with
  | none => rfl
  | some docs =>
    simp only [HashingVectorizer.transform, featureHasher_string, han, ((C38_validate v.nFeatures).1).2 hn, py_ok_bind,
      py_error_bind]

/-- **C78**: a bare string is refused. -/
theorem C78_string (lib : TextLib) (encode : Str → List Nat) (v : HashingVectorizer) :
    v.transform (F := F) lib encode none = .error .valueError := rfl

/-- **C78**: an empty list of documents fails with IndexError (`A[0]`, utils.py:164). -/
theorem C78_empty (lib : TextLib) (encode : Str → List Nat) (v : HashingVectorizer)
    (hn : 1 ≤ v.nFeatures) (hn' : v.nFeatures ≤ 2147483647) {an : Str → List Str}
    (han : buildAnalyzer lib v.opts = .ok an) :
    v.transform (F := F) lib encode (some []) = .error .indexError := by
  have hval := ((C38_validate v.nFeatures).2 v.nFeatures.toNat).2 ⟨hn, hn', rfl⟩
  simp only [HashingVectorizer.transform, han, hval, py_ok_bind, List.map_nil, featureHasher]
  have h : hashingTransform (F := F) encode [] v.nFeatures.toNat v.dtype v.alternateSign =
      .error .indexError := by
    unfold hashingTransform
    rw [if_neg (by omega)]
    exact sparseList_dicts_nil _ _
  rw [h]; rfl

/-- **C78**, `binary=True` without normalisation: a plain list of dicts with value 1 (not a sparse
matrix, text.py:484), with the columns of the non-binary rows. -/
theorem C78_binary (lib : TextLib) (encode : Str → List Nat) (v : HashingVectorizer) (hb : v.binary = true)
    (hn : 1 ≤ v.nFeatures) (hn' : v.nFeatures ≤ 2147483647) (hnorm : v.norm = none) {an : Str → List Str}
    (han : buildAnalyzer lib v.opts = .ok an) {docs : List Str} (hd : docs ≠ []) :
    v.transform (F := F) lib encode (some docs) = .ok (.list (docs.map fun d =>
      Row.dict ((hashRow encode v.nFeatures.toNat v.alternateSign
        ((an d).map fun t => (t, FeatVal.num (ofInt 1 : F)))).mapVals fun _ => ofInt 1))) := by
  have hval := ((C38_validate v.nFeatures).2 v.nFeatures.toNat).2 ⟨hn, hn', rfl⟩
  have hh := (C38_transform (F := F) encode (n := v.nFeatures.toNat) (by omega) v.dtype v.alternateSign
    (X := docs.map fun d => (an d).map fun t => (t, FeatVal.num (ofInt 1 : F))) (by simpa using hd)).1
  simp only [HashingVectorizer.transform, featureHasher_string, han, hval, py_ok_bind, hh, hb, if_true, fromkeysOne_sparse, hnorm,
    py_pure, List.map_map]
  rfl

/-- **C78 is false** of `binary=True`: no answer is a sparse matrix. -/
theorem C78_binary_not_sparse (lib : TextLib) (encode : Str → List Nat) (v : HashingVectorizer)
    (hb : v.binary = true) (hnorm : v.norm = none) (docs : Option (List Str)) {X : Arr F}
    (h : v.transform (F := F) lib encode docs = .ok X) : X.issparse = false := by
  cases docs with
  | none => cases h
  | some docs =>
    simp only [HashingVectorizer.transform, featureHasher_string, hb, hnorm, if_true] at h
    obtain ⟨an, -, h⟩ := bind_ok_iff.1 h
    obtain ⟨n, -, h⟩ := bind_ok_iff.1 h
    obtain ⟨Y, -, h⟩ := bind_ok_iff.1 h
    obtain ⟨Z, hz, h⟩ := bind_ok_iff.1 h
    unfold fromkeysOne at hz
    obtain ⟨rs, -, hz⟩ := bind_ok_iff.1 hz
    obtain ⟨ds, -, hz⟩ := bind_ok_iff.1 hz
    cases hz
    cases h
    rfl

end

/-! ### Non-vacuity -/

/-- Eight columns, alternating signs, l2 norm. -/
def hv78 : HashingVectorizer := ⟨plainOpts, 8, false, some .l2, true, .float⟩

/-- Two documents of one word each. -/
example (utf8 : Str → List (BitVec 8)) (h3 : ∀ t, t.length = 3 → (utf8 t).length < 2 ^ 32) :
    ∃ ds : List (Dict Int ℝ),
      hv78.transform plainLib (fun f => nats (utf8 f)) (some ["cat".toList, "dog".toList]) =
        .ok (.sparse (ds.map finD) (some 8) .float) ∧
      ds.map (dense 0 8) = [unitBy l2norm (hashedSums utf8 8 true ["cat".toList]),
        unitBy l2norm (hashedSums utf8 8 true ["dog".toList])] := by
  have h1 : wordNgrams 1 1 (splitWs (· == ' ') "cat".toList) none = ["cat".toList] := by decide
  have h2 : wordNgrams 1 1 (splitWs (· == ' ') "dog".toList) none = ["dog".toList] := by decide
  obtain ⟨ds, e1, -, e2⟩ := C78_reference_partial utf8 plainLib hv78 plain_analyzer rfl (by decide)
    (by decide) (.inr (.inr rfl)) (docs := ["cat".toList, "dog".toList]) (by simp) (by
      intro d hd t ht
      simp only [List.mem_cons, List.not_mem_nil, or_false] at hd
      rcases hd with rfl | rfl
      · rw [h1] at ht; exact h3 t (by rw [List.mem_singleton.1 ht]; rfl)
      · rw [h2] at ht; exact h3 t (by rw [List.mem_singleton.1 ht]; rfl)) (by
      intro d hd
      simp only [List.mem_cons, List.not_mem_nil, or_false] at hd
      rcases hd with rfl | rfl
      · rw [h1]; exact List.nodup_singleton _
      · rw [h2]; exact List.nodup_singleton _)
  refine ⟨ds, e1, e2.trans ?_⟩
  simp only [List.map_cons, List.map_nil, h1, h2]
  rfl

/-- A document whose token occurs twice. -/
example : wordNgrams 1 1 (splitWs (· == ' ') "cat cat".toList) none = ["cat".toList, "cat".toList] := by
  decide

end PurePredict
