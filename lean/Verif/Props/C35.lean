import Verif.Props.C34
/-
C35: binary CountVectorizer output.  The values are right, but the result is a plain list of dicts
instead of a sparse matrix, so the claim is false of the code (text.py:380).
-/
namespace PurePredict
open Spec

section
variable {F : Type} [Arith F]

/-- The claim of C35: a sparse matrix of the vocabulary's width, with entry 1 for the terms
present and 0 for the others. -/
def UsableBinary (v : Dict Str Int) (features : List (List Str)) (Y : Arr F) : Prop :=
  ∃ ds dt, Y = .sparse ds (some v.length) dt ∧ ds.length = features.length ∧
    ∀ (i : Nat) (t : Str) (j : Nat), (t, (j : Int)) ∈ v → i < features.length →
      entry (ofInt 0) (ds.getD i []) j = ofInt (if t ∈ features.getD i [] then 1 else 0)

/-- The row computed for a feature list. -/
def binaryRow (v : Dict Str Int) (fs : List Str) : Dict Int F :=
  (countRow v fs : Dict Int F).mapVals fun _ => ofInt 1

/-- What `transform` returns with binary=True. -/
theorem C35_transform_partial (lib : TextLib) (v : CountVectorizer) (hb : v.binary = true)
    {an : Str → List Str} (han : buildAnalyzer lib v.opts = .ok an) {docs : List Str} (hd : docs ≠ []) :
    (v.transform lib (some docs) : Py (Arr F)) =
      .ok (.list (docs.map fun d => Row.dict (binaryRow v.vocabulary (an d)))) := by
  have h := C34_transform (F := F) lib { v with binary := false } rfl han hd
  simp only [CountVectorizer.transform] at h ⊢
  have hc : ({ v with binary := false } : CountVectorizer).countVocab lib docs =
      (v.countVocab lib docs : Py (Arr F)) := rfl
  rw [hc] at h
  simp only [Bool.false_eq_true, if_false] at h
  have h' : (v.countVocab lib docs : Py (Arr F)) = .ok (.sparse (docs.map fun d =>
      countRow v.vocabulary (an d)) (some v.vocabulary.length) v.dtype) := by
    cases hv : (v.countVocab lib docs : Py (Arr F)) with
    | error e => rw [hv] at h; cases h
    | ok x => rw [hv] at h; exact h
  simp only [h', py_ok_bind, hb, if_true, fromkeysOne, rows_sparse, asDicts_map]
  simp only [py_pure, List.map_map]
  rfl

/-- **C35**, values: the entry of a term is 1 exactly if the term is among the features. -/
theorem C35_values_partial {v : Dict Str Int} (hv : FittedVocab v) {t : Str} {j : Nat}
    (ht : (t, (j : Int)) ∈ v) (fs : List Str) :
    entry (ofInt 0) (binaryRow v fs : Dict Int F) j = ofInt (if t ∈ fs then 1 else 0) := by
  have hg : v.get? t = some (j : Int) := Dict.get?_eq_some_of_mem hv.terms ht
  rw [entry_eq_get?, binaryRow, Dict.get?_mapVals, countRow_get?, codeCount_eq_count hv hg]
  by_cases hm : t ∈ fs
  · rw [if_neg (by rw [List.count_eq_zero]; simpa using hm), if_pos hm]; rfl
  · rw [if_pos (by rw [List.count_eq_zero]; exact hm), if_neg hm]; rfl

/-- **C35 is false**, for every binary vectorizer and every non-empty list of documents. -/
theorem C35_false (lib : TextLib) (v : CountVectorizer) (hb : v.binary = true)
    {an : Str → List Str} (han : buildAnalyzer lib v.opts = .ok an) {docs : List Str} (hd : docs ≠ []) :
    ∃ Y : Arr F, v.transform lib (some docs) = .ok Y ∧ Y.issparse = false ∧
      ¬ UsableBinary v.vocabulary (docs.map an) Y := by
  refine ⟨_, C35_transform_partial lib v hb han hd, rfl, ?_⟩
  rintro ⟨ds, dt, h, _⟩
  cases h

/-- **C35**, consequence: the column count consumers see is the number of *distinct known terms of
the first document*. -/
theorem C35_width_partial (v : Dict Str Int) (fs : List Str) (rest : List (List Str)) :
    (Arr.list ((fs :: rest).map fun f => Row.dict (binaryRow v f : Dict Int F))).width =
      .ok (some (countDoc v fs).length) := by
  simp [Arr.width, Arr.shape, Arr.ndim, Arr.first, Arr.rows, Arr.len, Row.len, binaryRow, countRow,
    Dict.mapVals]

end

/-- Whitespace tokenizer settings, for concrete cases. -/
def plainOpts : VectorizerOpts :=
  { analyzer := .word, minN := 1, maxN := 1, stopWords := .none, stripAccents := .none, lowercase := false }

def plainLib : TextLib :=
  { ws := (· == ' '), lower := id, nfkd := id, combining := fun _ => false, findall := splitWs (· == ' ') }

/-- Non-vacuity: the analyser of the plain options exists. -/
theorem plain_analyzer : buildAnalyzer plainLib plainOpts =
    .ok fun doc => wordNgrams 1 1 (splitWs (· == ' ') doc) none := rfl

/-- Non-vacuity of `C35_false`: one document "dog". -/
example : ∃ Y : Arr Ex, (⟨plainOpts, catDog, true, .int⟩ : CountVectorizer).transform plainLib
    (some ["dog".toList]) = .ok Y ∧ Y.issparse = false ∧
      ¬ UsableBinary catDog [wordNgrams 1 1 (splitWs (· == ' ') "dog".toList) none] Y :=
  C35_false plainLib ⟨plainOpts, catDog, true, .int⟩ rfl plain_analyzer (by simp)

/-- Non-vacuity of `C35_values_partial`. -/
example : entry (ofInt 0) (binaryRow catDog ["cat".toList, "cat".toList] : Dict Int Ex) 0 = ofInt 1 := by
  rw [C35_values_partial catDog_fitted (t := "cat".toList) (by simp [catDog])]
  simp

end PurePredict
