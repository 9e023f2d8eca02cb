import Verif.Lemmas.DirectionObject
import Verif.Lemmas.Folded
import Verif.Props.C109
/-
Repeated documents: all counts are multiplied by the same number.
-/
namespace PurePredict.Dir
open Spec Gauge Trim

theorem dict_ext {α : Type} {d e : Dict Int α} (hk : Dict.keys d = Dict.keys e) (hn : (Dict.keys d).Nodup) (h : ∀ j, d.get? j = e.get? j) : d = e := by
  induction d generalizing e with
  | nil =>
    cases e with
    | nil => rfl
    | cons q e => simp [Dict.keys] at hk
  | cons p d ih =>
    cases e with
    | nil => simp [Dict.keys] at hk
    | cons q e =>
      simp only [Dict.keys, List.map_cons, List.cons.injEq] at hk
      simp only [Dict.keys, List.map_cons, List.nodup_cons] at hn
      have h1 := h p.1
      obtain ⟨i, a⟩ := p
      obtain ⟨i', b⟩ := q
      obtain ⟨rfl, hk⟩ := hk
      have ab : a = b := by simpa [Dict.get?] using h1
      rw [ab, ih hk hn.2 fun j => ?_]
      by_cases hj : j = i
      · subst hj
        have z1 : Dict.get? d j = none := Dict.get?_eq_none_iff.2 (by simpa [Dict.keys] using hn.1)
        have z2 : Dict.get? e j = none := Dict.get?_eq_none_iff.2 (by
          have : j ∉ e.map (·.1) := by rw [← hk]; exact hn.1
          simpa [Dict.keys] using this)
        rw [z1, z2]
      · have := h j
        have hj' : (j == i) = false := by simpa using hj
        simpa only [Dict.get?, List.lookup, hj'] using this

theorem fold_keys {v : Dict Str Int} {fs : List Str} {c : Dict Int Int} (h : ∀ f ∈ fs, ∀ j, v.get? f = some j → j ∈ Dict.keys c) :
    Dict.keys (fs.foldl (countStep v) c) = Dict.keys c := by
  induction fs generalizing c with
  | nil => rfl
  | cons f fs ih =>
    have hs : Dict.keys (countStep v c f) = Dict.keys c := by
      unfold countStep
      cases hv : v.get? f with
      | none => rfl
      | some i =>
        have hi := h f (by simp) i hv
        dsimp only
        split <;> rw [Dict.keys_set, if_pos hi]
    rw [List.foldl_cons, ih, hs]
    intro g hg j hj
    rw [hs]
    exact h g (by simp [hg]) j hj

theorem codeCount_append (v : Dict Str Int) (fs gs : List Str) (j : Int) : codeCount v (fs ++ gs) j = codeCount v fs j + codeCount v gs j := by
  simp [codeCount, List.filter_append]

variable {c : Char}

theorem features_repeated {lib : TextLib} {o : VectorizerOpts} {an : Str → List Str} (h : Separator lib c) (hw : WithinWords lib o c) (han : buildAnalyzer lib o = .ok an) (a : Str) (n : Nat) :
    (∀ f, f ∈ an (repeated c a n) ↔ f ∈ an a) ∧ (∀ (v : Dict Str Int) j, codeCount v (an (repeated c a n)) j = (n + 1) * codeCount v (an a) j) ∧
      ∃ gs, an (repeated c a n) = an a ++ gs ∧ ∀ f ∈ gs, f ∈ an a := by
  induction n with
  | zero => exact ⟨fun _ => Iff.rfl, fun _ _ => by simp [repeated], [], by simp [repeated], by simp⟩
  | succ n ih =>
    have e : an (repeated c a (n + 1)) = an a ++ an (repeated c a n) := C109_features h hw han a _
    refine ⟨fun f => ?_, fun v j => ?_, _, e, fun f hf => (ih.1 f).1 hf⟩
    · rw [e, List.mem_append, ih.1, or_self]
    · rw [e, codeCount_append, ih.2.1]
      ring

theorem counts_repeated {lib : TextLib} {o : VectorizerOpts} {an : Str → List Str} (h : Separator lib c) (hw : WithinWords lib o c) (han : buildAnalyzer lib o = .ok an) (v : Dict Str Int) (a : Str) (n : Nat) :
    countDoc v (an (repeated c a n)) = (countDoc v (an a)).mapVals fun (k : Int) => k * ((n + 1 : Nat) : Int) := by
  obtain ⟨_, h2, gs, e, h3⟩ := features_repeated h hw han a n
  have kn : ∀ f ∈ an a, ∀ j, v.get? f = some j → j ∈ Dict.keys (countDoc v (an a)) := by
    intro f hf j hj
    by_contra hc
    have := Dict.get?_eq_none_iff.2 hc
    rw [countDoc_get?] at this
    have h0 : codeCount v (an a) j ≠ 0 := by
      unfold codeCount
      intro h0
      have := List.length_eq_zero_iff.1 h0
      have hm : f ∈ (an a).filter fun f => decide (v.get? f = some j) := List.mem_filter.2 ⟨hf, by simpa using hj⟩
      rw [this] at hm
      cases hm
    rw [if_neg h0] at this
    cases this
  refine dict_ext ?_ (countDoc_nodup _ _) fun j => ?_
  · rw [Dict.keys_mapVals, e]
    show Dict.keys ((an a ++ gs).foldl (countStep v) []) = _
    rw [List.foldl_append]
    exact fold_keys fun f hf j hj => kn f (h3 f hf) j hj
  · rw [Dict.get?_mapVals, countDoc_get?, countDoc_get?, h2]
    by_cases h0 : codeCount v (an a) j = 0
    · simp [h0]
    · rw [if_neg (by simp [h0]), if_neg h0]
      simp only [Option.map_some, Option.some.injEq]
      push_cast
      ring

theorem ofInt_fin (i : Int) : (ofInt i : Ex) = .fin (i : ℝ) := by
  show (XR.round _ : Ex) = _
  simp [round_exact]

theorem row_repeated {lib : TextLib} {o : VectorizerOpts} {an : Str → List Str} (h : Separator lib c) (hw : WithinWords lib o c) (han : buildAnalyzer lib o = .ok an) (v : Dict Str Int) (a : Str) (n : Nat) :
    DictsOf (countRow v (an a)) (countRow v (an (repeated c a n))) := by
  refine ⟨?_, ((n + 1 : Nat) : ℝ), by positivity, ?_⟩
  · have : (Dict.keys (countRow v (an a) : Dict Int Ex)).Nodup := by
      rw [countRow, Dict.keys_mapVals]
      exact countDoc_nodup v _
    exact this
  · unfold countRow
    rw [counts_repeated h hw han]
    simp only [Dict.mapVals, List.map_map]
    refine List.map_congr_left fun p _ => ?_
    simp only [Function.comp, ofInt_fin]
    congr 1
    show _ = XR.mul _ _
    simp [XR.mul, round_exact]

theorem count_repeated {lib : TextLib} {w : CountVectorizer} (h : Separator lib c) (hw : WithinWords lib w.opts c) (hb : w.binary = false) {ds ds' : List Str}
    (hd : List.Forall₂ (fun d d' => ∃ n, d' = repeated c d n) ds ds') : Alongside StretchedArr (w.transform lib (some ds) : Py (Arr Ex)) (w.transform lib (some ds')) := by
  cases han : buildAnalyzer lib w.opts with
  | error e =>
    simp only [CountVectorizer.transform, CountVectorizer.countVocab, han]
    exact .fail
  | ok an =>
    cases hds : ds with
    | nil =>
      subst hds
      cases hd
      exact (Alongside.same _).mono fun _ _ e => by rw [e]; exact .same _
    | cons x xs =>
      rw [← hds]
      have h1 : ds ≠ [] := by simp [hds]
      have h2 : ds' ≠ [] := by
        rintro rfl
        cases hd
        exact h1 rfl
      rw [C34_transform lib w hb han h1, C34_transform lib w hb han h2]
      refine .done (pack_dicts ?_ _ _)
      clear hds h1 h2
      induction hd with
      | nil => exact .nil
      | cons h3 _ ih =>
        obtain ⟨n, rfl⟩ := h3
        exact .cons (row_repeated h hw han _ _ n) ih

variable {lib : String → TextLib} {encode : Str → List Nat}

/-- The answers do not depend on the repetitions. -/
def DirectDocs (c : Char) (f : Methods Ex) : Prop := ∀ X X', RepeatedDocs c X X' → AnswersBoth f X X'

theorem counts_stretched {s : Single Ex} (h : CountsWords lib c s) : ∃ t, (s.est lib encode).transform = some t ∧ ∀ X X', RepeatedDocs c X X' → Alongside Stretched (t X) (t X') := by
  cases h with
  | count hs hw hb =>
    refine ⟨_, rfl, ?_⟩
    rintro _ _ ⟨hd⟩
    exact (count_repeated hs hw hb hd).bind fun u v e => .done (.arr e)
  | @tfidfVec p w t hs hw hb hn =>
    refine ⟨_, rfl, ?_⟩
    rintro _ _ ⟨hd⟩
    refine Alongside.bind (R := StretchedArr) ?_ fun u v e => .done (.arr e)
    show Alongside _ (tfidfVectorizerTransform _ _ _ _) (tfidfVectorizerTransform _ _ _ _)
    unfold tfidfVectorizerTransform
    refine (count_repeated hs hw hb hd).bind fun u v e => ?_
    rcases tfidf_both t e with h | ⟨n, h1, _⟩
    · exact h.bind fun u v e => .done (e.1 hn)
    · rw [hn] at h1
      cases h1

theorem behaves_text {o : SkObj (Attrs Ex) (PVal Ex) Ex} (h : DirectedText lib c o) {f : Methods Ex} (hb : Behaves lib encode o f) : DirectDocs c f := by
  induction h generalizing f with
  | @single cl v a p w t n hl hs hw hbin h1 h2 =>
    obtain ⟨rfl, _⟩ := leaf_behaves hl hb
    rintro _ _ ⟨hd⟩
    refine ⟨fun t ht => ?_, fun t ht => (by cases ht), fun t ht => (by cases ht), fun t ht => (by cases ht)⟩
    cases ht
    refine Alongside.next ?_ _
    show Alongside _ (tfidfVectorizerTransform _ _ _ _) (tfidfVectorizerTransform _ _ _ _)
    unfold tfidfVectorizerTransform
    refine (count_repeated hs hw hbin hd).bind fun u v e => ?_
    rcases tfidf_both t e with h | ⟨n', h3, h4⟩
    · exact h.bind fun u v e => .done (e.2 n h1 h2)
    · rw [h1] at h3
      cases h3
      exact absurd h4 h2
  | @counted cl v v' n a s rest hl hc hr hd =>
    cases hb with
    | @pipeline _ _ es hv he =>
      cases he with
      | @cons _ e _ zs hs h2 =>
        obtain ⟨rfl, _⟩ := leaf_behaves hl hs
        obtain ⟨t, ht, hX⟩ := counts_stretched (lib := lib) (encode := encode) hc
        have hz : (rest.map Prod.fst).zip zs ≠ [] := by
          have := h2.length_eq
          cases rest with
          | nil => exact absurd rfl hr
          | cons p post =>
            cases zs with
            | nil => simp at this
            | cons z zs => simp
        have hdir := behaves_direct hd (.pipeline hv h2)
        rw [List.map_cons, List.zip_cons_cons, Fold.first_step n _ ht _ hz]
        intro X X' hR
        have hk := hX X X' hR
        refine ⟨fun t ht => ?_, fun t ht => ?_, fun t ht => ?_, fun t ht => ?_⟩ <;>
          obtain ⟨u, hu, rfl⟩ := Option.map_eq_some_iff.1 ht <;> refine hk.bind fun Y Y' hY => ?_
        · exact (hdir Y Y' hY).1 u hu
        · exact (hdir Y Y' hY).2.1 u hu
        · exact (hdir Y Y' hY).2.2.1 u hu
        · exact (hdir Y Y' hY).2.2.2 u hu
  | @pipeline v n o post _ ih =>
    cases hb with
    | @pipeline _ _ es hv he =>
      cases he with
      | @cons _ e _ zs hs h2 =>
        have hdir := ih hs
        rw [List.map_cons, List.zip_cons_cons]
        intro X X' hR
        have hA := hdir X X' hR
        generalize (post.map Prod.fst).zip zs = l
        rcases List.eq_nil_or_concat l with rfl | ⟨l, ⟨m, e'⟩, rfl⟩
        · rw [only_for]
          exact hA
        · have hk : Alongside Eq (Pipeline.applyAll (asSteps ((n, e) :: l)) X) (Pipeline.applyAll (asSteps ((n, e) :: l)) X') := by
            show Alongside Eq (Pipeline.applyAll ((n, some e) :: asSteps l) X) (Pipeline.applyAll ((n, some e) :: asSteps l) X')
            unfold Pipeline.applyAll
            cases ht : e.transform with
            | none => exact .fail
            | some t => exact (hA.1 t ht).next _
          rw [List.concat_eq_append, ← List.cons_append, pipe_methods]
          refine ⟨fun t ht => ?_, fun t ht => ?_, fun t ht => ?_, fun t ht => ?_⟩ <;>
            obtain ⟨u, hu, rfl⟩ := Option.map_eq_some_iff.1 ht <;> exact hk.next _
  | @union v steps ws _ ih =>
    cases hb with
    | @union _ _ _ es hv he =>
      have hp := parts (P := DirectDocs c) he fun p hp f hf => ih p hp hf
      generalize (steps.map Prod.fst).zip es = l at hp
      rintro _ _ ⟨hd⟩
      refine ⟨fun t ht => ?_, fun t ht => (by cases ht), fun t ht => (by cases ht), fun t ht => (by cases ht)⟩
      cases ht
      refine Alongside.next ?_ _
      refine Alongside.bind (R := RepeatedDocs c) ?_ fun Y Y' hY => ?_
      · cases hd with
        | nil => exact .fail
        | cons h1 h2 => exact .done ⟨.cons h1 h2⟩
      have hs : Y.shape = Y'.shape ∧ Y.len = Y'.len := by
        cases hY with
        | mk h => simp [Data.shape, Data.len, h.length_eq]
      rw [hs.1, hs.2]
      refine Alongside.next ?_ _
      have := Alongside.mapM (R := fun p q => p = q ∧ p ∈ l) (S := Eq) (l := l) (l' := l) (f := fun s => transformOne (Est.runTransform s.2) Y (weightOf ws s.1))
        (g := fun s => transformOne (Est.runTransform s.2) Y' (weightOf ws s.1)) ?_ fun p q hpq => ?_
      · exact this.mono fun _ _ e => forall₂_eq e
      · exact List.forall₂_same.2 fun p hp => ⟨rfl, hp⟩
      · obtain ⟨rfl, hm⟩ := hpq
        unfold transformOne Est.runTransform
        cases ht : p.2.transform with
        | none => exact .fail
        | some t => exact (((hp p hm Y Y' hY).1 t ht).next _).next _

end PurePredict.Dir
