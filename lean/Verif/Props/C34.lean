import Verif.Model.Text
import Verif.Lemmas.Sparse
import Verif.Lemmas.XR
/-
C34: CountVectorizer counts.
-/
namespace PurePredict
open Spec

/-- A fitted vocabulary: distinct terms, numbered 0, …, n-1 in some order. -/
structure FittedVocab (v : Dict Str Int) : Prop where
  terms : (v.map Prod.fst).Nodup
  codes : (v.map Prod.snd).Nodup
  range : ∀ p ∈ v, 0 ≤ p.2 ∧ p.2 < (v.length : Int)

/-- Number of features with code `j`. -/
def codeCount (v : Dict Str Int) (fs : List Str) (j : Int) : Nat :=
  (fs.filter fun f => decide (v.get? f = some j)).length

theorem countStep_get? (v : Dict Str Int) (c : Dict Int Int) (f : Str) (j : Int) :
    (countStep v c f).get? j =
      if v.get? f = some j then some ((c.get? j).getD 0 + 1) else c.get? j := by
  unfold countStep
  cases hv : v.get? f with
  | none => simp
  | some i =>
    simp only [Option.some.injEq]
    cases hc : c.get? i with
    | none =>
      simp only [Dict.get?_set]
      by_cases h : i = j
      · subst h; simp [hc]
      · simp [h]
    | some x =>
      simp only [Dict.get?_set]
      by_cases h : i = j
      · subst h; simp [hc]
      · simp [h]

theorem countFold_get? (v : Dict Str Int) (fs : List Str) (c : Dict Int Int) (j : Int) :
    (fs.foldl (countStep v) c).get? j =
      if codeCount v fs j = 0 then c.get? j else some ((c.get? j).getD 0 + codeCount v fs j) := by
  induction fs generalizing c with
  | nil => simp [codeCount]
  | cons f fs ih =>
    rw [List.foldl_cons, ih, countStep_get?]
    by_cases h : v.get? f = some j
    · have e : codeCount v (f :: fs) j = codeCount v fs j + 1 := by simp [codeCount, h]
      rw [if_pos h, e]
      by_cases h0 : codeCount v fs j = 0
      · simp [h0]
      · rw [if_neg h0, if_neg (by omega)]
        simp only [Option.getD_some, Option.some.injEq]
        push_cast
        omega
    · have e : codeCount v (f :: fs) j = codeCount v fs j := by simp [codeCount, h]
      rw [if_neg h, e]

theorem countDoc_get? (v : Dict Str Int) (fs : List Str) (j : Int) :
    (countDoc v fs).get? j = if codeCount v fs j = 0 then none else some (codeCount v fs j : Int) := by
  rw [countDoc, countFold_get?]
  simp

theorem countStep_nodup {v : Dict Str Int} {c : Dict Int Int} {f : Str} (h : (Dict.keys c).Nodup) :
    (Dict.keys (countStep v c f)).Nodup := by
  unfold countStep
  split
  · split <;> exact Dict.nodup_keys_set h
  · exact h

theorem countDoc_nodup (v : Dict Str Int) (fs : List Str) : (Dict.keys (countDoc v fs)).Nodup := by
  unfold countDoc
  have : ∀ c : Dict Int Int, (Dict.keys c).Nodup → (Dict.keys (fs.foldl (countStep v) c)).Nodup := by
    induction fs with
    | nil => exact fun c h => h
    | cons f fs ih => exact fun c h => ih _ (countStep_nodup h)
  exact this [] (by simp [Dict.keys])

theorem codeCount_eq_count {v : Dict Str Int} (hv : FittedVocab v) {t : Str} {j : Int}
    (ht : v.get? t = some j) (fs : List Str) : codeCount v fs j = fs.count t := by
  rw [codeCount, ← List.countP_eq_length_filter, List.count]
  apply List.countP_congr
  intro f _
  simp only [decide_eq_true_eq, beq_iff_eq]
  constructor
  · intro h
    have h1 := Dict.mem_of_get? h
    have h2 := Dict.mem_of_get? ht
    have := List.inj_on_of_nodup_map hv.codes h1 h2 rfl
    exact congrArg Prod.fst this
  · rintro rfl; exact ht

section
variable {F : Type} [Arith F]

/-- The row the code computes for a feature list. -/
def countRow (v : Dict Str Int) (fs : List Str) : Dict Int F :=
  (countDoc v fs).mapVals (fun (c : Int) => (ofInt c : F))

theorem countRow_get? (v : Dict Str Int) (fs : List Str) (j : Int) :
    (countRow v fs : Dict Int F).get? j =
      if codeCount v fs j = 0 then none else some (ofInt (codeCount v fs j : Int)) := by
  rw [countRow, Dict.get?_mapVals, countDoc_get?]
  split <;> rfl

/-- **C34**: `transform` of a non-binary vectorizer returns a sparse matrix with one column per
term and one row per document. -/
theorem C34_transform (lib : TextLib) (v : CountVectorizer) (hb : v.binary = false)
    {an : Str → List Str} (han : buildAnalyzer lib v.opts = .ok an) {docs : List Str} (hd : docs ≠ []) :
    (v.transform lib (some docs) : Py (Arr F)) =
      .ok (.sparse (docs.map fun d => countRow v.vocabulary (an d)) (some v.vocabulary.length) v.dtype) := by
  have h := sparseList_dicts (ds := docs.map fun d => (countRow v.vocabulary (an d) : Dict Int F))
    (by simpa using hd) (some v.vocabulary.length) v.dtype
  rw [List.map_map] at h
  simp only [CountVectorizer.transform, CountVectorizer.countVocab, han, py_ok_bind, hb]
  rw [show (docs.map fun d => Row.dict ((countDoc v.vocabulary (an d)).mapVals
      (fun (c : Int) => (ofInt c : F)))) =
    docs.map (Row.dict ∘ fun d => countRow v.vocabulary (an d)) from rfl, h]
  rfl

/-- **C34**: each row is a valid sparse row of the matrix's width. -/
theorem C34_valid {v : Dict Str Int} (hv : FittedVocab v) (fs : List Str) :
    ValidRow v.length (countRow v fs : Dict Int F) := by
  constructor
  · have : (Dict.keys (countRow v fs : Dict Int F)).Nodup := by
      rw [countRow, Dict.keys_mapVals]; exact countDoc_nodup v fs
    exact this
  · intro p hp
    have hk : p.1 ∈ Dict.keys (countRow v fs : Dict Int F) := List.mem_map.2 ⟨p, hp, rfl⟩
    have hne : (countRow v fs : Dict Int F).get? p.1 ≠ none := by
      rw [Ne, Dict.get?_eq_none_iff]; simpa using hk
    rw [countRow_get?] at hne
    have h0 : codeCount v fs p.1 ≠ 0 := by
      intro h; rw [if_pos h] at hne; exact hne rfl
    obtain ⟨f, hf⟩ := List.exists_mem_of_length_pos (Nat.pos_of_ne_zero h0)
    have := Dict.mem_of_get? (by simpa using (List.mem_filter.1 hf).2 : v.get? f = some p.1)
    exact hv.range _ this

/-- **C34**: the entry of a document in a term's column is the number of times the term occurs
among the document's features (0 meaning "not stored"). -/
theorem C34_count {v : Dict Str Int} (hv : FittedVocab v) {t : Str} {j : Nat} (ht : (t, (j : Int)) ∈ v)
    (fs : List Str) :
    entry (ofInt 0) (countRow v fs : Dict Int F) j = ofInt (fs.count t : Int) := by
  have hg : v.get? t = some (j : Int) := Dict.get?_eq_some_of_mem hv.terms ht
  rw [entry_eq_get?, countRow_get?, codeCount_eq_count hv hg]
  split
  · rename_i h; simp [h]
  · rfl

/-- **C34**: every column belongs to a term, so `C34_count` determines the whole matrix. -/
theorem C34_columns {v : Dict Str Int} (hv : FittedVocab v) {j : Nat} (hj : j < v.length) :
    ∃ t, (t, (j : Int)) ∈ v := by
  have hsub : v.map Prod.snd ⊆ (List.range v.length).map (fun (i : Nat) => (i : Int)) := by
    intro c hc
    obtain ⟨p, hp, rfl⟩ := List.mem_map.1 hc
    obtain ⟨h0, h1⟩ := hv.range p hp
    exact List.mem_map.2 ⟨p.2.toNat, List.mem_range.2 (by omega), by omega⟩
  have hperm := (hv.codes.subperm hsub).perm_of_length_le (by simp)
  have : (j : Int) ∈ v.map Prod.snd :=
    hperm.symm.subset (List.mem_map.2 ⟨j, List.mem_range.2 hj, rfl⟩)
  obtain ⟨p, hp, hpj⟩ := List.mem_map.1 this
  exact ⟨p.1, by rw [← hpj]; exact hp⟩

/-- **C34**: out-of-vocabulary features are ignored. -/
theorem C34_oov (v : Dict Str Int) (fs : List Str) :
    (countRow v fs : Dict Int F) = countRow v (fs.filter fun f => (v.get? f).isSome) := by
  unfold countRow countDoc
  congr 1
  generalize ([] : Dict Int Int) = c
  induction fs generalizing c with
  | nil => rfl
  | cons f fs ih =>
    cases h : v.get? f with
    | none => simp [countStep, h, ih]
    | some i => simp [h, ih]

/-- **C34**: counts do not depend on the order of the features. -/
theorem C34_order (v : Dict Str Int) {fs fs' : List Str} (h : fs.Perm fs') (j : Int) :
    (countRow v fs : Dict Int F).get? j = (countRow v fs').get? j := by
  have : codeCount v fs j = codeCount v fs' j := (h.filter _).length_eq
  rw [countRow_get?, countRow_get?, this]

/-- A bare string instead of a list of documents is rejected with ValueError. -/
theorem C34_string (lib : TextLib) (v : CountVectorizer) :
    (v.transform lib none : Py (Arr F)) = .error .valueError := rfl

/-- An empty list of documents raises IndexError. -/
theorem C34_no_documents (lib : TextLib) (v : CountVectorizer) {an : Str → List Str}
    (han : buildAnalyzer lib v.opts = .ok an) :
    (v.transform lib (some []) : Py (Arr F)) = .error .indexError := by
  simp only [CountVectorizer.transform, CountVectorizer.countVocab, han, py_ok_bind, List.map_nil,
    sparseList_dicts_nil, py_error_bind]

end

/-- A two-term vocabulary. -/
def catDog : Dict Str Int := [("dog".toList, 1), ("cat".toList, 0)]

theorem catDog_fitted : FittedVocab catDog := by
  constructor
  · decide
  · decide
  · intro p hp
    simp only [catDog, List.mem_cons, List.not_mem_nil, or_false] at hp
    rcases hp with rfl | rfl <;> decide

/-- Non-vacuity: "cat" occurs twice, "bird" is not in the vocabulary. -/
example : entry (ofInt 0) (countRow catDog ["cat".toList, "bird".toList, "cat".toList] : Dict Int Ex) 0 =
    ofInt 2 := by
  rw [C34_count catDog_fitted (t := "cat".toList) (by simp [catDog])]
  rfl

end PurePredict
