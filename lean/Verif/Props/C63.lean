import Verif.Props.C02
import Verif.Props.C14
import Verif.Props.C46
import Verif.Lemmas.TransformBatch
/-
C63: sparse requests to classifiers: answered like the dense form, or refused.
(Linear classifiers, nearest neighbours and transformers are the subject of C02, C22 and C23-C29.)
-/
namespace PurePredict
open Spec
variable {F C : Type} [Arith F]

/-- The claim: on every valid `sparse_list` of width `w` the method returns what it returns on the
dense form. -/
def SparseLikeDense {β : Type} (w : Nat) (f : Arr F → Py β) : Prop :=
  ∀ (ds : List (Dict Int F)) (dt : DType) (D : Arr F), ds ≠ [] → (∀ d ∈ ds, ValidRow w d) →
    castTo dt (ofInt 0 : F) = .ok (ofInt 0) → todense (.sparse ds (some w) dt) = .ok D →
    f (.sparse ds (some w) dt) = f D

/-- What is left of the claim when refusing is allowed: an answer to a valid `sparse_list` is the
answer to its dense form. -/
def SparseSound {β : Type} (w : Nat) (f : Arr F → Py β) : Prop :=
  ∀ (ds : List (Dict Int F)) (dt : DType) (D : Arr F), ds ≠ [] → (∀ d ∈ ds, ValidRow w d) →
    castTo dt (ofInt 0 : F) = .ok (ofInt 0) → todense (.sparse ds (some w) dt) = .ok D →
    ∀ y, f (.sparse ds (some w) dt) = .ok y → f D = .ok y

theorem SparseLikeDense.sound {β : Type} {w : Nat} {f : Arr F → Py β} (h : SparseLikeDense w f) :
    SparseSound w f := fun ds dt D h1 h2 h3 h4 y hy => by rw [← h ds dt D h1 h2 h3 h4]; exact hy

theorem SparseSound.bind {β γ : Type} {w : Nat} {f : Arr F → Py β} {g : β → Py γ}
    (h : SparseSound w f) : SparseSound w fun X => f X >>= g := by
  intro ds dt D h1 h2 h3 h4 y hy
  obtain ⟨b, hb, hg⟩ := bind_ok_iff.1 hy
  exact bind_ok_iff.2 ⟨b, h ds dt D h1 h2 h3 h4 b hb, hg⟩

theorem SparseSound.of_refused {β : Type} {w : Nat} {f : Arr F → Py β} {e : PyErr}
    (h : ∀ ds n dt, f (.sparse ds n dt) = .error e) : SparseSound w f := by
  intro ds dt D _ _ _ _ y hy
  rw [h] at hy
  cases hy

/-- **C63**: trees and forests answer a sparse request like its dense form. -/
theorem C63_trees (t : Tree F C) (w : Nat) (hb : t.FeaturesBelow w) :
    SparseLikeDense w t.predict ∧ SparseLikeDense w t.predictProba ∧
    SparseLikeDense w t.predictLogProba ∧ SparseLikeDense w t.predictReg := by
  refine ⟨?_, ?_, ?_, ?_⟩ <;>
  · intro ds dt D hne _ hz hD
    obtain ⟨D', hD', h1, h2, h3, h4⟩ := C11_tree_sparse_dense_agree t w hb ds hne dt hz
    rw [hD] at hD'
    cases hD'
    first | exact h1 | exact h2 | exact h3 | exact h4

/-- **C63**, forests. -/
theorem C63_forests (trees : List (Tree F C)) (classes : List C) (w : Nat)
    (hb : ∀ t ∈ trees, t.FeaturesBelow w) :
    let b : Bagging F C := ⟨none, classes, trees.map fun t => ⟨t.predictProba⟩⟩
    SparseLikeDense w b.predict ∧ SparseLikeDense w b.predictProba := by
  intro b
  constructor <;>
  · intro ds dt D hne _ hz hD
    obtain ⟨D', hD', h1, h2⟩ := C14_forest_sparse_dense trees classes w hb ds hne dt hz
    rw [hD] at hD'
    cases hD'
    first | exact h1 | exact h2

theorem featSlice_sparse_sound {ds : List (Dict Int F)} {w : Nat} {dt : DType} {fs : List Int}
    {Y : Arr F} (hv : ∀ d ∈ ds, ValidRow w d)
    (h : featSlice (.sparse ds (some w) dt) (some fs) = .ok Y) :
    featSlice (.ofMat (ds.map (dense (ofInt 0) w))) (some fs) = .ok Y := by
  rw [← h]
  simp only [featSlice, rows_sparse, py_ok_bind, rows_ofMat] at h ⊢
  rw [List.map_map, mapM_map', mapM_map']
  rw [mapM_map'] at h
  obtain ⟨rs, hrs, -⟩ := bind_ok_iff.1 h
  congr 1
  apply mapM_congr
  intro d hd
  obtain ⟨r, -, hr⟩ : ∃ r ∈ rs, (fs.mapM fun i => (Row.dict d).getItem i) = .ok r := by
    obtain ⟨i, hi, rfl⟩ := List.getElem_of_mem hd
    have hi' : i < rs.length := by rw [mapM_length hrs]; exact hi
    exact ⟨rs[i], List.getElem_mem _, mapM_getElem hrs i hi hi'⟩
  apply mapM_congr
  intro i hi
  obtain ⟨j, hj, rfl⟩ := List.getElem_of_mem hi
  have hj' : j < r.length := by rw [mapM_length hr]; exact hj
  have hg := mapM_getElem hr j hj hj'
  simp only [Row.getItem, Dict.getItem] at hg
  cases hval : d.get? fs[j] with
  | none => rw [hval] at hg; cases hg
  | some v =>
    obtain ⟨h0, h1⟩ := (hv d hd).2 _ (Dict.mem_of_get? hval)
    have hi' : fs[j] = (((fs[j]).toNat : Nat) : Int) := by simp at h0; omega
    simp only [Function.comp, Row.getItem, Dict.getItem, hval]
    conv_lhs => rw [hi']
    rw [pyGet_ok_nat, dense_getElem? (ofInt 0) d (by simp at h0 h1; omega), entry_eq_get?, ← hi',
      hval]
    rfl

/-- **C63**, bagging: with feature subsets, whatever the members are, an answer to a sparse request
is the answer to its dense form (the alternative is a KeyError, see C14); without feature subsets
this holds when it holds of the members. -/
theorem C63_bagging_sound (b : Bagging F C) (w : Nat)
    (hm : b.features = none → ∀ e ∈ b.estimators, SparseSound w e.predictProba) :
    SparseSound w b.predictProba ∧ SparseSound w b.predict ∧ SparseSound w b.predictLogProba := by
  have hp : SparseSound w b.predictProba := by
    intro ds dt D hne hv hz hD
    have hD' := hD
    rw [todense_sparse hz] at hD'
    cases hD'
    have hmem : ∀ j P, b.memberProba (.sparse ds (some w) dt) j = .ok P →
        b.memberProba (.ofMat (ds.map (dense (ofInt 0) w))) j = .ok P := by
      intro j P h
      simp only [Bagging.memberProba, Bagging.getFeats] at h ⊢
      obtain ⟨e, he, h⟩ := bind_ok_iff.1 h
      rw [he, py_ok_bind]
      cases hf : b.features with
      | none =>
        rw [hf] at h
        simp only [featSlice, py_ok_bind] at h ⊢
        exact hm hf e (pyGet_ok_mem he) ds dt _ hne hv hz hD P h
      | some fss =>
        rw [hf] at h
        simp only at h ⊢
        obtain ⟨o, ho, h⟩ := bind_ok_iff.1 h
        obtain ⟨fs, hfs, ho⟩ := bind_ok_iff.1 ho
        cases ho
        obtain ⟨Y, hY, h⟩ := bind_ok_iff.1 h
        rw [hfs]
        simp only [py_ok_bind, py_pure, featSlice_sparse_sound hv hY]
        exact h
    have hacc : ∀ idxs P Q, b.accumulate (.sparse ds (some w) dt) idxs P = .ok Q →
        b.accumulate (.ofMat (ds.map (dense (ofInt 0) w))) idxs P = .ok Q := by
      intro idxs
      induction idxs with
      | nil => intro P Q h; exact h
      | cons j idxs ih =>
        intro P Q h
        simp only [Bagging.accumulate] at h ⊢
        obtain ⟨p, hp, h⟩ := bind_ok_iff.1 h
        obtain ⟨s, hs, h⟩ := bind_ok_iff.1 h
        rw [hmem j p hp, py_ok_bind, hs, py_ok_bind]
        exact ih s Q h
    intro y hy
    simp only [Bagging.predictProba] at hy ⊢
    obtain ⟨p0, hp0, hy⟩ := bind_ok_iff.1 hy
    obtain ⟨q, hq, hy⟩ := bind_ok_iff.1 hy
    rw [hmem 0 p0 hp0, py_ok_bind, hacc _ _ _ hq, py_ok_bind]
    exact hy
  exact ⟨hp, hp.bind, hp.bind⟩

/-- **C63**, refused: gradient boosting, XGBoost and naive Bayes raise ValueError on every
`sparse_list` (so they never answer one differently from its dense form). -/
theorem C63_refused_partial (g : GB F C) (x : Xgb F C) (jll : Arr F → Py (List (List F))) (cs : List C)
    (w : Nat) :
    SparseSound w g.predict ∧ SparseSound w g.predictProba ∧ SparseSound w x.predict ∧
    SparseSound w x.predictProba ∧ SparseSound w (nbPredict jll cs) ∧
    SparseSound w (nbPredictProba jll) := by
  refine ⟨?_, ?_, ?_, ?_, ?_, ?_⟩ <;> refine SparseSound.of_refused (e := .valueError) ?_ <;>
    intro ds n dt
  · simp [GB.predict, GB.predictProba, GB.rawPredict, GB.rawPredictInit, checkArray]
  · simp [GB.predictProba, GB.rawPredict, GB.rawPredictInit, checkArray]
  · simp [Xgb.predict, Xgb.predictProba, checkArray]
  · simp [Xgb.predictProba, checkArray]
  · simp [nbPredict, checkArray]
  · simp [nbPredictProba, nbPredictLogProba, checkArray]

/-- **C63 is false** of naive Bayes in the commonest text pipeline: counting words and classifying
the counts raises ValueError for every model and every documents, since the counts are sparse. -/
theorem C63_count_then_bayes_refused (lib : TextLib) (v : CountVectorizer) (hb : v.binary = false)
    (docs : List Str) (hd : docs ≠ []) (an : Str → List Str)
    (han : buildAnalyzer lib v.opts = .ok an) (jll : Arr F → Py (List (List F))) (cs : List C) :
    ((v.transform lib (some docs) : Py (Arr F)) >>= nbPredict jll cs) = .error .valueError ∧
    ((v.transform lib (some docs) : Py (Arr F)) >>= nbPredictProba jll) = .error .valueError := by
  have : ∃ ds n dt, (v.transform lib (some docs) : Py (Arr F)) = .ok (.sparse ds n dt) := by
    refine ⟨docs.map fun d => v.rowOf (an d), some v.vocabulary.length, v.dtype, ?_⟩
    simp only [CountVectorizer.transform, CountVectorizer.countVocab_eq lib v hd, hb,
      Bool.false_eq_true, if_false, han, py_ok_bind, py_pure]
  obtain ⟨ds, n, dt, h⟩ := this
  rw [h]
  constructor
  · simp [nbPredict, checkArray]
  · simp [nbPredictProba, nbPredictLogProba, checkArray]

/-- Non-vacuity: a tree answers a record that lacks the tested column. -/
example : stumpOnOne.predictReg (.sparse [[(1, .fin 7)], []] (some 2) .float) =
    stumpOnOne.predictReg (.ofMat [[.fin 0, .fin 7], [.fin 0, .fin 0]]) :=
  (C63_trees stumpOnOne 2 stumpOnOne_below).2.2.2 [[(1, .fin 7)], []] .float _ (by simp)
    (by intro d hd; simp at hd; rcases hd with rfl | rfl <;> simp [ValidRow]) rfl
    (by rw [todense_sparse (z := (.fin 0 : Ex)) (by simp [castTo])]; simp [dense, entry, List.range_succ])

/-- Non-vacuity: a bagging member that looks at column 1 only, on a record storing that column. -/
example : (⟨some [[1]], ["a", "b"], [⟨fun X => X.rows >>= fun rs => rs.mapM fun r => r.iter⟩]⟩ :
    Bagging Ex String).predictProba (.sparse [[(1, .fin 1)]] (some 2) .float) = .ok [[.fin 1]] ∧
    (⟨some [[1]], ["a", "b"], [⟨fun X => X.rows >>= fun rs => rs.mapM fun r => r.iter⟩]⟩ :
    Bagging Ex String).predictProba (.ofMat [[.fin 0, .fin 1]]) = .ok [[.fin 1]] := by
  have h : (⟨some [[1]], ["a", "b"], [⟨fun X => X.rows >>= fun rs => rs.mapM fun r => r.iter⟩]⟩ :
    Bagging Ex String).predictProba (.sparse [[(1, .fin 1)]] (some 2) .float) = .ok [[.fin 1]] := by
    simp [Bagging.predictProba, Bagging.memberProba, Bagging.getFeats, Bagging.accumulate, pyGet,
      featSlice, rows_sparse, Row.getItem, Dict.getItem, Row.iter, List.range_succ, apply2d_ofMat,
      XR.div_exact]
  refine ⟨h, (C63_bagging_sound _ 2 (by simp)).1 [[(1, .fin 1)]] .float _ (by simp)
    (by intro d hd; simp at hd; subst hd; simp [ValidRow]) rfl ?_ _ h⟩
  rw [todense_sparse (z := (.fin 0 : Ex)) (by simp [castTo])]; simp [dense, entry, List.range_succ]

/-- Non-vacuity: counting single characters of one document. -/
example (lib : TextLib) (jll : Arr Ex → Py (List (List Ex))) :
    (((⟨⟨.char, 1, 1, .none, .none, false⟩, [(['a'], 0)], false, .int⟩ : CountVectorizer).transform
      lib (some [['a', 'b']]) : Py (Arr Ex)) >>= nbPredict jll ["x", "y"]) = .error .valueError :=
  (C63_count_then_bayes_refused lib _ rfl _ (by simp) _ rfl jll _).1

end PurePredict
