import Verif.Props.C34
import Verif.Model.Hash
/-
C40: `DictVectorizer.transform`.
-/
namespace PurePredict
open Spec

variable {F : Type} [Arith F]

namespace Spec
/-- The feature a mapping entry stands for: `name` with its value, or `name=value` with value 1. -/
def feature (sep : Str) : Str × FeatVal F → Str × F
  | (name, .num x) => (name, x)
  | (name, .str s) => (name ++ sep ++ s, ofInt 1)

/-- `r` is the row of a mapping with features `fs`, over the vocabulary `voc` with column type `dt`:
every known feature is in its column, converted; every other column is empty. -/
structure IsDictRow (voc : Dict Str Int) (dt : DType) (fs : List (Str × F)) (r : Dict Int F) : Prop where
  valid : ValidRow voc.length r
  known : ∀ f ∈ fs, ∀ j, (f.1, j) ∈ voc → ∃ y, castTo dt f.2 = .ok y ∧ (j, y) ∈ r
  only : ∀ p ∈ r, ∃ f ∈ fs, (f.1, p.1) ∈ voc ∧ castTo dt f.2 = .ok p.2
end Spec

theorem dvStep_eq (v : DictVectorizer) (row : Dict Int F) (a : Str × FeatVal F) :
    v.step row a =
      match v.vocabulary.get? (feature v.separator a).1 with
      | some j => do return row.set j (← castTo v.dtype (feature v.separator a).2)
      | none => .ok row := by
  obtain ⟨f, x | s⟩ := a <;> rfl

/-- Columns of the features of `fs`, with their converted values. -/
theorem dvFold (v : DictVectorizer) (hv : FittedVocab v.vocabulary) (x : List (Str × FeatVal F))
    (hx : ((x.map (feature v.separator)).map Prod.fst).Nodup) (row : Dict Int F)
    (hrow : ValidRow v.vocabulary.length row)
    (hfresh : ∀ a ∈ x, ∀ j, v.vocabulary.get? (feature v.separator a).1 = some j → row.get? j = none)
    {r : Dict Int F} (h : x.foldlM v.step row = .ok r) :
    ValidRow v.vocabulary.length r ∧
    (∀ a ∈ x, ∀ j, v.vocabulary.get? (feature v.separator a).1 = some j →
      ∃ y, castTo v.dtype (feature v.separator a).2 = .ok y ∧ r.get? j = some y) ∧
    (∀ j, (∀ a ∈ x, v.vocabulary.get? (feature v.separator a).1 ≠ some j) → r.get? j = row.get? j) := by
  induction x generalizing row with
  | nil =>
    cases h
    exact ⟨hrow, by simp, fun _ _ => rfl⟩
  | cons a x ih =>
    rw [List.foldlM_cons, dvStep_eq] at h
    simp only [List.map_cons, List.nodup_cons] at hx
    cases hg : v.vocabulary.get? (feature v.separator a).1 with
    | none =>
      rw [hg] at h
      obtain ⟨h1, h2, h3⟩ := ih hx.2 row hrow (fun b hb => hfresh b (by simp [hb])) h
      refine ⟨h1, ?_, ?_⟩
      · intro b hb j hj
        rcases List.mem_cons.1 hb with rfl | hb
        · rw [hg] at hj; exact absurd hj (by simp)
        · exact h2 b hb j hj
      · exact fun j hj => h3 j fun b hb => hj b (by simp [hb])
    | some k =>
      rw [hg] at h
      cases hc : castTo v.dtype (feature v.separator a).2 with
      | error e => simp [hc] at h
      | ok y =>
        simp only [hc, py_ok_bind, py_pure] at h
        have hk := Dict.mem_of_get? hg
        have hrange := hv.range _ hk
        have hother : ∀ b ∈ x, v.vocabulary.get? (feature v.separator b).1 ≠ some k := by
          intro b hb hj
          have := List.inj_on_of_nodup_map hv.codes (Dict.mem_of_get? hj) hk rfl
          exact hx.1 (List.mem_map.2 ⟨_, List.mem_map.2 ⟨b, hb, rfl⟩, (Prod.mk.inj this).1⟩)
        have hrow' : ValidRow v.vocabulary.length (row.set k y) := by
          refine ⟨Dict.nodup_keys_set hrow.1, ?_⟩
          intro p hp
          have hp' : p.1 ∈ Dict.keys (row.set k y) := List.mem_map.2 ⟨p, hp, rfl⟩
          rcases Dict.mem_keys_set.1 hp' with h' | h'
          · obtain ⟨q, hq, hqe⟩ := List.mem_map.1 h'
            rw [← hqe]; exact hrow.2 q hq
          · rw [h']; exact hrange
        obtain ⟨h1, h2, h3⟩ := ih hx.2 (row.set k y) hrow' (by
          intro b hb j hj
          rw [Dict.get?_set, if_neg]
          · exact hfresh b (by simp [hb]) j hj
          · rintro rfl; exact hother b hb hj) h
        refine ⟨h1, ?_, ?_⟩
        · intro b hb j hj
          rcases List.mem_cons.1 hb with rfl | hb
          · rw [hg] at hj; cases hj
            exact ⟨y, hc, by rw [h3 k hother, Dict.get?_set, if_pos rfl]⟩
          · exact h2 b hb j hj
        · intro j hj
          rw [h3 j fun b hb => hj b (by simp [hb]), Dict.get?_set, if_neg]
          rintro rfl; exact hj a (by simp) hg

/-- **C40**: the row computed for a mapping.  The hypothesis `hx` says the mapping does not contain
both `name: "value"` and `"name=value": …`. -/
theorem C40_row (v : DictVectorizer) (hv : FittedVocab v.vocabulary) {x : Dict Str (FeatVal F)}
    (hx : ((x.map (feature v.separator)).map Prod.fst).Nodup) {r : Dict Int F} (h : v.row x = .ok r) :
    IsDictRow v.vocabulary v.dtype (x.map (feature v.separator)) r := by
  obtain ⟨h1, h2, h3⟩ := dvFold v hv x hx [] ⟨by simp, by simp⟩ (fun _ _ _ _ => rfl) h
  refine ⟨h1, ?_, ?_⟩
  · rintro f hf j hj
    obtain ⟨a, ha, rfl⟩ := List.mem_map.1 hf
    obtain ⟨y, hy, hr⟩ := h2 a ha j (Dict.get?_eq_some_of_mem hv.terms hj)
    exact ⟨y, hy, Dict.mem_of_get? hr⟩
  · intro p hp
    have hp' : r.get? p.1 = some p.2 := Dict.get?_eq_some_of_mem h1.1 hp
    by_contra hno
    push Not at hno
    have : ∀ a ∈ x, v.vocabulary.get? (feature v.separator a).1 ≠ some p.1 := by
      intro a ha hj
      obtain ⟨y, hy, hr⟩ := h2 a ha _ hj
      rw [hp'] at hr
      cases hr
      exact hno _ (List.mem_map.2 ⟨a, ha, rfl⟩) (Dict.mem_of_get? hj) hy
    rw [h3 _ this] at hp'
    cases hp'

/-- **C40** for every mapping, colliding names included (`{"a": "b", "a=b": 3}`): a column holds the
converted value of the last feature with that column, and nothing if there is none. -/
theorem C40_last (v : DictVectorizer) (x : Dict Str (FeatVal F)) {r : Dict Int F} (h : v.row x = .ok r)
    (j : Int) :
    match ((x.map (feature v.separator)).filter fun f => decide (v.vocabulary.get? f.1 = some j)).getLast? with
    | none => r.get? j = none
    | some f => ∃ y, castTo v.dtype f.2 = .ok y ∧ r.get? j = some y := by
  have key : ∀ (x : List (Str × FeatVal F)) (row : Dict Int F), x.foldlM v.step row = .ok r →
      match ((x.map (feature v.separator)).filter fun f => decide (v.vocabulary.get? f.1 = some j)).getLast? with
      | none => r.get? j = row.get? j
      | some f => ∃ y, castTo v.dtype f.2 = .ok y ∧ r.get? j = some y := by
    intro x
    induction x with
    | nil => intro row h; cases h; rfl
    | cons a x ih =>
      intro row h
      rw [List.foldlM_cons, dvStep_eq] at h
      rw [List.map_cons, List.filter_cons]
      cases hg : v.vocabulary.get? (feature v.separator a).1 with
      | none => rw [hg] at h; simpa using ih row h
      | some k =>
        rw [hg] at h
        cases hc : castTo v.dtype (feature v.separator a).2 with
        | error e => simp [hc] at h
        | ok y =>
          simp only [hc, py_ok_bind, py_pure] at h
          have := ih _ h
          by_cases hk : k = j
          · subst hk
            simp only [decide_true, if_true, List.getLast?_cons]
            cases hl : ((x.map (feature v.separator)).filter
                fun f => decide (v.vocabulary.get? f.1 = some k)).getLast? with
            | none =>
              rw [hl] at this
              simp only [Dict.get?_set, if_true] at this
              exact ⟨y, hc, this⟩
            | some f => rw [hl] at this; exact this
          · have hne : ¬ (some k = some j) := by simpa using hk
            simp only [hne, decide_false, Bool.false_eq_true, if_false]
            cases hl : ((x.map (feature v.separator)).filter
                fun f => decide (v.vocabulary.get? f.1 = some j)).getLast? with
            | none =>
              rw [hl] at this
              simpa only [Dict.get?_set, if_neg hk] using this
            | some f => rw [hl] at this; exact this
  exact key x [] h

/-- **C40**: a row fails exactly when a known feature's value cannot be converted. -/
theorem C40_row_ok (v : DictVectorizer) (hv : FittedVocab v.vocabulary) (x : Dict Str (FeatVal F)) :
    (∃ r, v.row x = .ok r) ↔
      ∀ f ∈ x.map (feature v.separator), ∀ j, (f.1, j) ∈ v.vocabulary → ∃ y, castTo v.dtype f.2 = .ok y := by
  unfold DictVectorizer.row
  generalize ([] : Dict Int F) = row
  induction x generalizing row with
  | nil => exact ⟨fun _ => by simp, fun _ => ⟨row, rfl⟩⟩
  | cons a x ih =>
    rw [List.foldlM_cons, dvStep_eq]
    simp only [List.map_cons, List.mem_cons, forall_eq_or_imp]
    cases hg : v.vocabulary.get? (feature v.separator a).1 with
    | none =>
      simp only [py_ok_bind]
      rw [ih]
      refine ⟨fun h => ⟨fun j hj => ?_, h⟩, fun h => h.2⟩
      rw [Dict.get?_eq_some_of_mem hv.terms hj] at hg
      cases hg
    | some k =>
      cases hc : castTo v.dtype (feature v.separator a).2 with
      | error e =>
        simp only [py_error_bind]
        refine ⟨fun ⟨r, h⟩ => (by cases h), fun h => ?_⟩
        obtain ⟨y, hy⟩ := h.1 k (Dict.mem_of_get? hg)
        cases hy
      | ok y =>
        simp only [py_ok_bind, py_pure]
        rw [ih]
        exact ⟨fun h => ⟨fun _ _ => ⟨y, rfl⟩, h⟩, fun h => h.2⟩

/-- **C40**: `sparse=True` gives the sparse matrix of the rows, one column per vocabulary entry. -/
theorem C40_sparse (v : DictVectorizer) (hs : v.sparse = true) {xs : List (Dict Str (FeatVal F))}
    (hne : xs ≠ []) :
    v.transform (.many xs) = do
      return Arr.sparse (← xs.mapM v.row) (some v.vocabulary.length) v.dtype := by
  unfold DictVectorizer.transform
  simp only [hs]
  cases hm : xs.mapM v.row with
  | error e => rfl
  | ok ds =>
    have hl := mapM_length hm
    have : ds ≠ [] := by
      rintro rfl
      exact hne (List.length_eq_zero_iff.1 (by simpa using hl.symm))
    simp only [py_ok_bind]
    rw [sparseList_dicts this]
    rfl

/-- **C40**: `sparse=False` gives the dense matrix denoted by the sparse result; columns that are not
stored hold `dtype(0)`. -/
theorem C40_dense (v : DictVectorizer) (hs : v.sparse = false) {xs : List (Dict Str (FeatVal F))}
    (hne : xs ≠ []) {z : F} (hz : castTo v.dtype (ofInt 0 : F) = .ok z) :
    v.transform (.many xs) = do
      return Arr.ofMat ((← xs.mapM v.row).map (dense z v.vocabulary.length)) := by
  unfold DictVectorizer.transform
  simp only [hs]
  cases hm : xs.mapM v.row with
  | error e => rfl
  | ok ds =>
    have hl := mapM_length hm
    have : ds ≠ [] := by
      rintro rfl
      exact hne (List.length_eq_zero_iff.1 (by simpa using hl.symm))
    simp only [py_ok_bind]
    rw [sparseList_dicts this]
    simp only [py_ok_bind, Bool.not_false, if_true]
    rw [todense_sparse hz]
    rfl

/-- **C40**: a single mapping is one row. -/
theorem C40_single (v : DictVectorizer) (x : Dict Str (FeatVal F)) :
    v.transform (.one x) = v.transform (.many [x]) := rfl

/-- **C40**: an empty iterable raises `IndexError` (`sparse_list([])` looks at `X[0]`). -/
theorem C40_empty (v : DictVectorizer) : v.transform (.many ([] : List (Dict Str (FeatVal F)))) =
    .error .indexError := by
  simp only [DictVectorizer.transform, mapM_nil', py_pure, py_ok_bind, List.map_nil]
  rw [sparseList_dicts_nil]; rfl

/-- Non-vacuity: `{"city": "X", "t": 5, "u": 7}` with vocabulary `{"t": 1, "city=X": 0}`. -/
example (x y : F) :
    ∃ r, (⟨[("t".toList, 1), ("city=X".toList, 0)], true, .float, "=".toList⟩ : DictVectorizer).row
      [("city".toList, .str "X".toList), ("t".toList, .num x), ("u".toList, .num y)] = .ok r ∧
      IsDictRow [("t".toList, 1), ("city=X".toList, 0)] .float
        [("city=X".toList, ofInt 1), ("t".toList, x), ("u".toList, y)] r ∧
      dense (ofInt 0) 2 r = [ofInt 1, x] := by
  refine ⟨_, rfl, ?_, rfl⟩
  refine C40_row ⟨[("t".toList, 1), ("city=X".toList, 0)], true, .float, "=".toList⟩ ⟨?_, ?_, ?_⟩
    (x := [("city".toList, .str "X".toList), ("t".toList, .num x), ("u".toList, .num y)]) ?_ rfl
  · decide
  · decide
  · decide
  · show (["city=X".toList, "t".toList, "u".toList] : List Str).Nodup
    decide

end PurePredict
