import Verif.Props.C91
import Verif.Spec.Records
import Verif.Lemmas.Records
/-
C92: one answer per record, drawn from the labels.
-/
namespace PurePredict
open Spec
variable {F : Type} [Arith F] {lib : String → TextLib} {encode : Str → List Nat}

theorem records_arr {X : Arr F} {n : Nat} : Records (.arr X) n ↔ X.len = .ok n := by
  constructor
  · intro h
    cases h with
    | dense rs => rfl
    | sparse rs s dt => exact len_sparse rs s dt
  · intro h
    cases X with
    | list rs => cases h; exact .dense rs
    | sparse rs s dt => rw [len_sparse] at h; cases h; exact .sparse rs s dt
    | errObj => cases h
    | other => cases h

theorem records_table {X : Arr Str} {n : Nat} (h : Records (F := F) (.table X) n) : X.len = .ok n := by
  cases h with
  | table rs => rfl
  | sparseTable rs s dt => exact len_sparse rs s dt

/-- The methods answer once per record. -/
structure OnePer (f : Methods F) : Prop where
  transform : ∀ t X n Y, f.transform = some t → Records X n → n ≠ 0 → t X = .ok Y → Records Y n
  predict : ∀ p X n ls, f.predict = some p → Records X n → n ≠ 0 → p X = .ok ls → ls.length = n
  proba : ∀ p X n P, f.predictProba = some p → Records X n → n ≠ 0 → p X = .ok P → P.length = n
  logProba : ∀ p X n P, f.predictLogProba = some p → Records X n → n ≠ 0 → p X = .ok P → P.length = n

theorem onePer_transformer {g : Data F → Py (Arr F)}
    (h : ∀ X n Y, Records X n → n ≠ 0 → g X = .ok Y → Y.len = .ok n) : OnePer (transformer g) where
  transform := by
    intro t X n Y ht hX hn hY
    cases ht
    obtain ⟨Z, hZ, hY⟩ := bind_ok_iff.1 hY
    cases hY
    exact records_arr.2 (h X n Z hX hn hZ)
  predict := by intro _ _ _ _ h; cases h
  proba := by intro _ _ _ _ h; cases h
  logProba := by intro _ _ _ _ h; cases h

theorem onePer_arr {g : Arr F → Py (Arr F)} (h : KeepsLen g) : OnePer (transformer (Data.onArr g)) := by
  refine onePer_transformer fun X n Y hX hn hY => ?_
  cases X with
  | arr X => exact h X n Y hn (records_arr.1 hX) hY
  | _ => cases hY

theorem onePer_docs {g : List Str → Py (Arr F)}
    (h : ∀ ds Y, ds.length ≠ 0 → g ds = .ok Y → Y.len = .ok ds.length) : OnePer (transformer (Data.onDocs g)) := by
  refine onePer_transformer fun X n Y hX hn hY => ?_
  cases X with
  | docs ds => cases hX; exact h ds Y hn hY
  | _ => cases hY

theorem onePer_table {g : Arr Str → Py (Arr F)}
    (h : ∀ X n Y, n ≠ 0 → X.len = .ok n → g X = .ok Y → Y.len = .ok n) : OnePer (transformer (Data.onTable g)) := by
  refine onePer_transformer fun X n Y hX hn hY => ?_
  cases X with
  | table X => exact h X n Y hn (records_table hX) hY
  | _ => cases hY

theorem onPer_onArr {R : Type} {g : Arr F → Py (List R)}
    (h : ∀ X n ls, n ≠ 0 → X.len = .ok n → g X = .ok ls → ls.length = n) {X : Data F} {n : Nat} {ls : List R}
    (hX : Records X n) (hn : n ≠ 0) (hl : Data.onArr g X = .ok ls) : ls.length = n := by
  cases X with
  | arr X => exact h X n ls hn (records_arr.1 hX) hl
  | _ => cases hl

theorem onePer_predictor {p : Arr F → Py (List (PVal F))}
    (h : ∀ X n ls, n ≠ 0 → X.len = .ok n → p X = .ok ls → ls.length = n) : OnePer (predictor p) where
  transform := by intro _ _ _ _ h; cases h
  predict := by intro _ X n ls ht hX hn hY; cases ht; exact onPer_onArr h hX hn hY
  proba := by intro _ _ _ _ h; cases h
  logProba := by intro _ _ _ _ h; cases h

theorem onePer_classifier {p : Arr F → Py (List (PVal F))} {pp pl : Arr F → Py (List (List F))}
    (h : ∀ X n ls, n ≠ 0 → X.len = .ok n → p X = .ok ls → ls.length = n) (hp : ProbaLen pp) (hl : ProbaLen pl) :
    OnePer (classifier p pp pl) where
  transform := by intro _ _ _ _ h; cases h
  predict := by intro _ X n ls ht hX hn hY; cases ht; exact onPer_onArr h hX hn hY
  proba := by intro _ X n ls ht hX hn hY; cases ht; exact onPer_onArr hp hX hn hY
  logProba := by intro _ X n ls ht hX hn hY; cases ht; exact onPer_onArr hl hX hn hY

theorem onePer_probabilist {p : Arr F → Py (List (PVal F))} {pp : Arr F → Py (List (List F))}
    (h : ∀ X n ls, n ≠ 0 → X.len = .ok n → p X = .ok ls → ls.length = n) (hp : ProbaLen pp) :
    OnePer (probabilist p pp) where
  transform := by intro _ _ _ _ h; cases h
  predict := by intro _ X n ls ht hX hn hY; cases ht; exact onPer_onArr h hX hn hY
  proba := by intro _ X n ls ht hX hn hY; cases ht; exact onPer_onArr hp hX hn hY
  logProba := by intro _ _ _ _ h; cases h

theorem probaLen_log {pp : Arr F → Py (List (List F))} (h : ProbaLen pp) :
    ProbaLen (fun X => do (← pp X).mapM fun a => a.mapM safeLog) :=
  fun X n _ hn hl hL => mapM_bind_length (fun P hP => h X n P hn hl hP) hL

theorem probaLen_apply {pp : Arr F → Py (List (List F))} (h : ProbaLen pp) :
    ProbaLen (fun X => do apply2d (.ofMat (← pp X)) safeLog) :=
  fun X n _ hn hl hL => apply2d_bind_length (fun P hP => h X n P hn hl hP) hL

theorem onePer_nb {jll : Arr F → Py (List (List F))} (hj : JllLen jll) (cs : List (PVal F)) :
    OnePer (classifier (nbPredict jll cs) (nbPredictProba jll) (nbPredictLogProba jll)) :=
  onePer_classifier (fun _ _ _ hn hl h => (nb_predict_length hj hn hl h).1)
    (fun _ _ _ hn hl h => nb_proba_length hj hn hl h) (fun _ _ _ hn hl h => nb_log_length hj hn hl h)

theorem onePer_single {c : String} {e : Attrs F} {s : Single F} (h : Learned c e s)
    (hc : c = "GaussianNB" → ¬ HasLabels e []) : OnePer (s.est lib encode) := by
  cases h with
  | @linear _ k _ coef cs b mc so lo =>
    generalize Linear.ofFitted coef cs b mc so lo = m
    have h1 : ∀ X n ls, n ≠ 0 → X.len = .ok n → m.predict X = .ok ls → ls.length = n :=
      fun _ _ _ hn hl h => (linear_predict_length hn hl h).1
    cases k with
    | logistic =>
      have hp : ProbaLen m.predictProba := fun _ _ _ hn hl h => logistic_proba_length hn hl h
      exact onePer_classifier h1 hp (probaLen_log hp)
    | sgd =>
      have hp : ProbaLen m.sgdPredictProba := fun _ _ _ hn hl h => sgd_proba_length hn hl h
      simp only [Single.est, LinKind.est]
      cases m.checkProba with
      | error x => exact onePer_predictor h1
      | ok u =>
        refine onePer_classifier h1 hp fun X n P hn hl h => ?_
        obtain ⟨-, -, h⟩ := bind_ok_iff.1 h
        exact probaLen_log hp X n P hn hl h
    | plain => exact onePer_predictor h1
  | treeClassifier =>
    have hp : ProbaLen (Tree.predictProba ‹Tree F (PVal F)›) := fun _ _ _ hn hl h => tree_proba_length hn hl h
    exact onePer_classifier (fun _ _ _ hn hl h => (tree_predict_length hn hl h).1) hp (probaLen_log hp)
  | treeRegressor =>
    refine onePer_predictor fun X n ls hn hl h => ?_
    obtain ⟨ys, hy, h⟩ := bind_ok_iff.1 h
    cases h
    rw [List.length_map, tree_reg_length hn hl hy]
  | @gaussianNB _ m _ hl =>
    refine onePer_nb (gaussian_jllLen m ?_) _
    intro hm
    rw [hm] at hl
    exact hc rfl hl
  | @multinomialNB _ m => exact onePer_nb (multinomial_jllLen m) _
  | @complementNB _ m => exact onePer_nb (complement_jllLen m) _
  | @dummy _ d =>
    have hp : ProbaLen d.predictProba := fun _ _ _ _ hl h => dummy_proba_length hl h
    refine onePer_classifier (fun X n ls _ hl h => ?_) hp (probaLen_apply hp)
    obtain ⟨ys, hy, h⟩ := bind_ok_iff.1 h
    cases h
    rw [List.length_map, dummy_predict_length hl hy]
  | xgb => exact onePer_probabilist (fun _ _ _ hn hl h => (xgb_predict_length hn hl h).1) fun _ _ _ hn hl h => xgb_proba_length hn hl h
  | imputer => exact onePer_arr (imputer_len _)
  | @indicator _ m =>
    refine onePer_arr fun X n Y hn hl h => ?_
    obtain ⟨M, hM, h⟩ := bind_ok_iff.1 h
    cases h
    rw [len_ofMat, indicator_length hn hl hM]
  | standard => exact onePer_arr (standard_len _)
  | minMax => exact onePer_arr (minMax_len _)
  | maxAbs => exact onePer_arr (maxAbs_len _)
  | normalizer => exact onePer_arr (normalizer_len _)
  | tfidf => exact onePer_arr (tfidf_len _)
  | count => exact onePer_docs fun ds Y _ h => count_len h
  | tfidfVec => exact onePer_docs fun ds Y hn h => tfidfVec_len hn h
  | hashing => exact onePer_docs fun ds Y hn h => hashing_len hn h
  | dictVec =>
    refine onePer_transformer fun X n Y hX hn hY => ?_
    cases X with
    | records X =>
      cases hX with
      | mapping x => exact dictVec_len (X := .one x) (by exact hY)
      | mappings xs => exact dictVec_len (X := .many xs) (by exact hY)
    | _ => cases hY
  | ordinal =>
    refine onePer_table fun X n Y hn hl h => ?_
    obtain ⟨M, hM, h⟩ := bind_ok_iff.1 h
    cases h
    rw [len_ofMat, ordinal_length hn hl hM]
  | oneHot => exact onePer_table fun X n Y hn hl h => oneHot_len hn hl h

/-! ### Compounds -/

theorem applyAll_records {ss : List (String × Methods F)} (hs : ∀ s ∈ ss, OnePer s.2) {X Y : Data F} {n : Nat} (hX : Records X n)
    (hn : n ≠ 0) (h : Pipeline.applyAll (ss.map fun s => (s.1, some s.2)) X = .ok Y) : Records Y n := by
  induction ss generalizing X with
  | nil => cases h; exact hX
  | cons s ss ih =>
    rw [List.map_cons, Pipeline.applyAll] at h
    cases ht : s.2.transform with
    | none => rw [ht] at h; cases h
    | some t =>
      rw [ht] at h
      obtain ⟨Z, hZ, h⟩ := bind_ok_iff.1 h
      exact ih (fun s h => hs s (List.mem_cons_of_mem _ h)) ((hs s List.mem_cons_self).transform t X n Z ht hX hn hZ) h

theorem onePer_pipeline {ss : List (String × Methods F)} (hs : ∀ s ∈ ss, OnePer s.2) : OnePer (pipelineEst ss) := by
  have hfront : ∀ X Y n, Records X n → n ≠ 0 →
      Pipeline.applyAll (Pipeline.front ⟨ss.map fun s => (s.1, some s.2)⟩) X = .ok Y → Records Y n := by
    intro X Y n hX hn h
    rw [Pipeline.front, ← List.map_dropLast] at h
    exact applyAll_records (fun s h => hs s (List.dropLast_subset _ h)) hX hn h
  have hlast : ∀ (R : Type) (m : Methods F → Option (Data F → Py R)) g,
      Pipeline.delegated ⟨ss.map fun s => (s.1, some s.2)⟩ m = .ok g → ∃ s ∈ ss, m s.2 = some g := by
    intro R m g h
    unfold Pipeline.delegated Pipeline.finalEstimator at h
    rw [List.getLast?_map] at h
    cases hl : ss.getLast? with
    | none => rw [hl] at h; cases h
    | some s =>
      rw [hl] at h
      simp only [Option.map_some, py_ok_bind] at h
      cases hm : m s.2 with
      | none => rw [hm] at h; cases h
      | some f => rw [hm] at h; cases h; exact ⟨s, List.mem_of_getLast? hl, hm⟩
  constructor
  · intro t X n Y ht hX hn hY
    have : t = Pipeline.transform ⟨ss.map fun s => (s.1, some s.2)⟩ := by
      simp only [pipelineEst, Pipeline.asEst] at ht
      split at ht
      · split at ht
        · cases ht
        · cases ht; rfl
      · cases ht; rfl
      · cases ht
    subst this
    unfold Pipeline.transform at hY
    obtain ⟨e, -, hY⟩ := bind_ok_iff.1 hY
    cases e with
    | none => exact applyAll_records hs hX hn hY
    | some e =>
      simp only at hY
      split at hY
      · cases hY
      · exact applyAll_records hs hX hn hY
  · intro p X n ls hp hX hn h
    simp only [pipelineEst, Pipeline.asEst] at hp
    split at hp
    · rename_i g hg
      cases hp
      obtain ⟨s, hm, he⟩ := hlast _ _ _ hg
      rw [Pipeline.predict, hg, py_ok_bind] at h
      obtain ⟨Z, hZ, h⟩ := bind_ok_iff.1 h
      exact (hs s hm).predict g Z n ls he (hfront _ _ _ hX hn hZ) hn h
    · cases hp
  · intro p X n ls hp hX hn h
    simp only [pipelineEst, Pipeline.asEst] at hp
    split at hp
    · rename_i g hg
      cases hp
      obtain ⟨s, hm, he⟩ := hlast _ _ _ hg
      rw [Pipeline.predictProba, hg, py_ok_bind] at h
      obtain ⟨Z, hZ, h⟩ := bind_ok_iff.1 h
      exact (hs s hm).proba g Z n ls he (hfront _ _ _ hX hn hZ) hn h
    · cases hp
  · intro p X n ls hp hX hn h
    simp only [pipelineEst, Pipeline.asEst] at hp
    split at hp
    · rename_i g hg
      cases hp
      obtain ⟨s, hm, he⟩ := hlast _ _ _ hg
      rw [Pipeline.predictLogProba, hg, py_ok_bind] at h
      obtain ⟨Z, hZ, h⟩ := bind_ok_iff.1 h
      exact (hs s hm).logProba g Z n ls he (hfront _ _ _ hX hn hZ) hn h
    · cases hp

theorem onePer_union (ss : List (String × Methods F)) (ws : Option (List (String × F))) : OnePer (unionEst ss ws) := by
  refine onePer_transformer fun X n Y hX hn h => ?_
  obtain ⟨Z, hZ, h⟩ := bind_ok_iff.1 h
  obtain ⟨Xs, -, h⟩ := bind_ok_iff.1 h
  have h1 : Z.len = .ok n ∧ ∀ k w, Z.shape = .ok (.d2 k w) → k = n := by
    cases X with
    | arr X =>
      obtain ⟨X', hX', hZ⟩ := bind_ok_iff.1 hZ
      cases hZ
      cases checkArray_len hn (records_arr.1 hX) hX'
      exact ⟨records_arr.1 hX, fun k w h => shape_len (records_arr.1 hX) h⟩
    | table X =>
      obtain ⟨X', hX', hZ⟩ := bind_ok_iff.1 hZ
      cases hZ
      cases checkArray_len hn (records_table hX) hX'
      exact ⟨records_table hX, fun k w h => shape_len (records_table hX) h⟩
    | docs ds =>
      simp only [Data.check] at hZ
      split at hZ
      · cases hZ
      · cases hZ; cases hX
        exact ⟨rfl, fun k w h => by cases h⟩
    | records X =>
      cases X with
      | one x => cases hZ
      | many xs =>
        simp only [Data.check] at hZ
        split at hZ
        · cases hZ
        · cases hZ; cases hX
          refine ⟨rfl, fun k w h => ?_⟩
          cases xs with
          | nil => cases h
          | cons x xs => cases h; rfl
  exact unionOf_len h1.1 h1.2 h

theorem runProba_len {m : Methods F} (h : OnePer m) : ProbaLen m.runProba := by
  intro X n P hn hl hP
  unfold Est.runProba at hP
  cases hp : m.predictProba with
  | none => rw [hp] at hP; cases hP
  | some p => rw [hp] at hP; exact h.proba p _ n P hp (records_arr.2 hl) hn hP

/-- What behaves as a fitted object answers once per record. -/
theorem behaves_onePer {o : SkObj (Attrs F) (PVal F) F} {f : Methods F} (h : Behaves lib encode o f) (hc : SomeClasses o) :
    OnePer f := by
  induction o using SkObj.induct generalizing f with
  | _ o ih =>
    have all : ∀ {os : List (SkObj (Attrs F) (PVal F) F)} {es : List (Methods F)}, List.Forall₂ (Behaves lib encode) os es →
        (∀ p ∈ os, p ∈ parts o) → (∀ p ∈ os, SomeClasses p) → ∀ e ∈ es, OnePer e := by
      intro os es hs hp hcs
      induction hs with
      | nil => intro e he; cases he
      | cons h _ ih' =>
        intro e he
        rcases List.mem_cons.1 he with rfl | he
        · exact ih _ (hp _ List.mem_cons_self) h (hcs _ List.mem_cons_self)
        · exact ih' (fun p h => hp p (List.mem_cons_of_mem _ h)) (fun p h => hcs p (List.mem_cons_of_mem _ h)) e he
    cases h with
    | single hv hl =>
      cases hc with
      | leaf hc => exact onePer_single hl hc
    | @pipeline v steps es hv hs =>
      cases hc with
      | pipeline hc =>
        refine onePer_pipeline fun s hm => ?_
        have hm' : s.2 ∈ es := (List.of_mem_zip (show (s.1, s.2) ∈ _ from hm)).2
        refine all hs (fun p hp => by simpa [parts] using hp) (fun p hp => ?_) _ hm'
        obtain ⟨q, hq, rfl⟩ := List.mem_map.1 hp
        exact hc q hq
    | union => exact onePer_union _ _
    | @ensemble k v fs cs ms es hv hcs hs =>
      cases hc with
      | ensemble hc =>
        have hb : ∀ e ∈ (es.map fun m => (⟨m.runProba⟩ : Member F)), ProbaLen e.predictProba := by
          intro e he
          obtain ⟨m, hm, rfl⟩ := List.mem_map.1 he
          exact runProba_len (all hs (fun p hp => by simpa [parts] using hp) hc m hm)
        have hp := bagging_proba_length (b := ⟨fs, cs, es.map fun m => (⟨m.runProba⟩ : Member F)⟩) hb
        exact onePer_classifier (fun _ _ _ hn hl h => (bagging_predict_length hb hn hl h).1) hp (probaLen_apply hp)
    | @boosting v cs stages init loss lr nf l es e hv hcs hs hi hl =>
      cases hc with
      | boosting hc hci =>
        have hinit : ProbaLen e.runProba := runProba_len (ih init (by simp [parts]) hi hci)
        have hp := gb_proba_length (g := ⟨cs, es.map fun st => st.map fun m => m.runNumbers, e.runProba, lr, nf, l⟩) hinit
        exact onePer_classifier (fun X n ls hn hl h => (gb_predict_length (g := ⟨cs, es.map fun st => st.map fun m =>
          m.runNumbers, e.runProba, lr, nf, l⟩) hinit hn hl h).1) hp (probaLen_apply hp)

variable (trunc : F → Py Int)

/-- **C92**, one answer per record: on every non-empty request that the converted object answers, `transform`
returns as many records as it was given and `predict`, `predict_proba` and `predict_log_proba` as many labels
and rows. -/
theorem C92_one_per_record {o : SkObj (Attrs F) (PVal F) F} {f : Methods F} (h : Behaves lib encode o f)
    (hc : SomeClasses o) : ∃ r, convert (singles trunc initXgb) o = .ok r ∧ ∀ X n, Records X n → n ≠ 0 →
      (∀ t Y, (r.methods lib encode).transform = some t → t X = .ok Y → Records Y n) ∧
      (∀ p ls, (r.methods lib encode).predict = some p → p X = .ok ls → ls.length = n) ∧
      (∀ p P, (r.methods lib encode).predictProba = some p → p X = .ok P → P.length = n) ∧
      ∀ p P, (r.methods lib encode).predictLogProba = some p → p X = .ok P → P.length = n := by
  obtain ⟨r, hr, hm⟩ := C89_converted_behaves trunc lib encode o f h
  have h1 := behaves_onePer h hc
  refine ⟨r, hr, fun X n hX hn => ?_⟩
  rw [hm]
  exact ⟨fun t Y ht hY => h1.transform t X n Y ht hX hn hY, fun p ls hp hl => h1.predict p X n ls hp hX hn hl,
    fun p P hp hP => h1.proba p X n P hp hX hn hP, fun p P hp hP => h1.logProba p X n P hp hX hn hP⟩

/-! ### Labels -/

/-- the answers of `predict` are among `cs` -/
def Among (f : Methods F) (cs : List (PVal F)) : Prop :=
  ∀ p X n ls, f.predict = some p → Records X n → n ≠ 0 → p X = .ok ls → ∀ c ∈ ls, c ∈ cs

theorem among_onArr {p : Arr F → Py (List (PVal F))} {f : Methods F} (hf : f.predict = some (Data.onArr p)) {cs : List (PVal F)}
    (h : ∀ X n ls, n ≠ 0 → X.len = .ok n → p X = .ok ls → ∀ c ∈ ls, c ∈ cs) : Among f cs := by
  intro q X n ls hq hX hn hl
  rw [hf] at hq
  cases hq
  cases X with
  | arr X => exact h X n ls hn (records_arr.1 hX) hl
  | _ => cases hl

theorem among_single {c : String} {e : Attrs F} {s : Single F} (h : Learned c e s) {cs : List (PVal F)} (hc : c ∈ predicting)
    (hr : c ∉ regressing) (hd : c ≠ "DummyClassifier") (hl : HasLabels e cs)
    (hg : c = "GaussianNB" → ¬ HasLabels e []) : Among (s.est lib encode) cs := by
  have hlab := learned_labels h hc hd hl
  cases h with
  | @linear _ k _ coef cs' b mc so lo =>
    cases hlab
    generalize Linear.ofFitted coef cs' b mc so lo = m
    have h1 : ∀ X n ls, n ≠ 0 → X.len = .ok n → m.predict X = .ok ls → ∀ c ∈ ls, c ∈ m.classes :=
      fun _ _ _ hn hl h => (linear_predict_length hn hl h).2
    cases k with
    | logistic => exact among_onArr rfl h1
    | sgd =>
      simp only [Single.est, LinKind.est]
      cases m.checkProba with
      | error x => exact among_onArr rfl h1
      | ok u => exact among_onArr rfl h1
    | plain => exact among_onArr rfl h1
  | treeClassifier =>
    cases hlab
    exact among_onArr rfl fun _ _ _ hn hl h => (tree_predict_length hn hl h).2
  | treeRegressor hc' =>
    rcases hc' with rfl | rfl <;> exact absurd (by simp [regressing]) hr
  | @gaussianNB _ m _ hl' =>
    cases hlab
    refine among_onArr rfl fun _ _ _ hn hl h => (nb_predict_length (gaussian_jllLen m ?_) hn hl h).2
    intro hm
    rw [hm] at hl'
    exact hg rfl hl'
  | @multinomialNB _ m =>
    cases hlab
    exact among_onArr rfl fun _ _ _ hn hl h => (nb_predict_length (multinomial_jllLen m) hn hl h).2
  | @complementNB _ m =>
    cases hlab
    exact among_onArr rfl fun _ _ _ hn hl h => (nb_predict_length (complement_jllLen m) hn hl h).2
  | xgb =>
    cases hlab
    exact among_onArr rfl fun _ _ _ hn hl h => (xgb_predict_length hn hl h).2
  | dummy => exact absurd rfl hd
  | _ => simp [predicting] at hc

theorem pipelineEst_predict (ns : List String) (es : List (Methods F)) (h : ns.length = es.length) {e : Methods F}
    (he : es.getLast? = some e) {p : Data F → Py (List (PVal F))} (hp : (pipelineEst (ns.zip es)).predict = some p) :
    ∃ g, e.predict = some g ∧ (p = fun X => do
      g (← Pipeline.applyAll ((ns.zip es).map fun s => (s.1, some s.2)).dropLast X)) := by
  have hl : ((ns.zip es).map fun s => (s.1, some s.2)).getLast?.map Prod.snd = some (some e) := by
    rcases List.eq_nil_or_concat es with rfl | ⟨es, e', rfl⟩
    · cases he
    · rcases List.eq_nil_or_concat ns with rfl | ⟨ns, n, rfl⟩
      · simp at h
      · simp only [List.concat_eq_append, List.length_append, List.length_singleton, Nat.add_right_cancel_iff] at h
        simp only [List.concat_eq_append, List.getLast?_append_of_ne_nil, ne_eq, List.cons_ne_nil, not_false_eq_true,
          List.getLast?_singleton, Option.some.injEq] at he
        subst he
        simp [List.concat_eq_append, List.zip_append h]
  obtain ⟨⟨n, x⟩, h1, rfl⟩ := Option.map_eq_some_iff.1 hl
  cases hg : e.predict with
  | none =>
    have hd : (⟨(ns.zip es).map fun s => (s.1, some s.2)⟩ : Pipeline (Data F) _ (List (List F))).delegated Est.predict =
        .error .attributeError := by
      simp [Pipeline.delegated, Pipeline.finalEstimator, h1, hg]
    simp only [pipelineEst, Pipeline.asEst, hd] at hp
    cases hp
  | some g =>
    have hd : (⟨(ns.zip es).map fun s => (s.1, some s.2)⟩ : Pipeline (Data F) _ (List (List F))).delegated Est.predict = .ok g := by
      simp [Pipeline.delegated, Pipeline.finalEstimator, h1, hg]
    simp only [pipelineEst, Pipeline.asEst, hd] at hp
    cases hp
    refine ⟨g, rfl, ?_⟩
    funext X
    simp only [Pipeline.predict, hd, py_ok_bind, Pipeline.front]

theorem behaves_among {o : SkObj (Attrs F) (PVal F) F} {f : Methods F} (h : Behaves lib encode o f) (hc : SomeClasses o)
    {cs : List (PVal F)} (hl : AnswersWith o cs) : Among f cs := by
  induction hl generalizing f with
  | leaf h1 h2 h3 h4 =>
    cases h with
    | single hv h => cases hc with | leaf hc => exact among_single h h1 h2 h3 h4 hc
  | @pipeline v steps n a cs h1 h2 ih =>
    cases h with
    | @pipeline _ _ es hv hs =>
      cases hc with
      | pipeline hc =>
        have hlen : (steps.map Prod.fst).length = es.length := by rw [← hs.length_eq]; simp
        rcases forall₂_last hs with ⟨h3, -⟩ | ⟨a', b, h3, h4, h5⟩
        · rw [List.getLast?_map, h1] at h3; cases h3
        rw [List.getLast?_map, h1] at h3; cases h3
        intro p X n ls hp hX hn hls
        obtain ⟨g, hg, rfl⟩ := pipelineEst_predict _ _ hlen h4 hp
        obtain ⟨Z, hZ, hls⟩ := bind_ok_iff.1 hls
        refine ih h5 (hc _ (List.mem_of_getLast? h1)) g Z n ls hg ?_ hn hls
        rw [← List.map_dropLast] at hZ
        refine applyAll_records (fun s hm => ?_) hX hn hZ
        have hm' : s.2 ∈ es := (List.of_mem_zip (show (s.1, s.2) ∈ _ from List.dropLast_subset _ hm)).2
        obtain ⟨q, hq, hb⟩ : ∃ q ∈ steps.map Prod.snd, Behaves lib encode q s.2 := by
          clear * - hs hm'
          generalize steps.map Prod.snd = os at hs
          induction hs with
          | nil => cases hm'
          | cons h _ ih =>
            rcases List.mem_cons.1 hm' with rfl | hm'
            · exact ⟨_, List.mem_cons_self, h⟩
            · obtain ⟨q, hq, hb⟩ := ih hm'
              exact ⟨q, List.mem_cons_of_mem _ hq, hb⟩
        obtain ⟨q', hq', rfl⟩ := List.mem_map.1 hq
        exact behaves_onePer hb (hc q' hq')
  | @ensemble k v fs cs ms =>
    cases h with
    | @ensemble _ _ _ _ _ es hv hcs hs =>
      have h1 := behaves_onePer (.ensemble hv hcs hs) hc
      refine among_onArr rfl fun X n ls hn hl h => ?_
      unfold Bagging.predict at h
      obtain ⟨P, -, h⟩ := bind_ok_iff.1 h
      obtain ⟨am, -, h⟩ := bind_ok_iff.1 h
      intro c hc
      obtain ⟨x, -, hx⟩ := mapM_mem h hc
      exact pyGet_ok_mem hx
  | @boosting v cs stages init loss hyper =>
    cases h with
    | boosting hv hcs hs hi hl =>
      refine among_onArr rfl fun X n ls hn hl h => ?_
      unfold GB.predict at h
      obtain ⟨P, -, h⟩ := bind_ok_iff.1 h
      intro c hc
      obtain ⟨x, -, hx⟩ := mapM_mem h hc
      obtain ⟨i, -, hx⟩ := bind_ok_iff.1 hx
      exact pyGet_ok_mem hx

/-- **C92**, labels: every answer of `predict` is one of the labels the classifier was fitted on. -/
theorem C92_labels {o : SkObj (Attrs F) (PVal F) F} {f : Methods F} (h : Behaves lib encode o f)
    (hc : SomeClasses o) {cs : List (PVal F)} (hl : AnswersWith o cs) : ∃ r, convert (singles trunc initXgb) o = .ok r ∧
      ∀ X n, Records X n → n ≠ 0 → ∀ p ls, (r.methods lib encode).predict = some p → p X = .ok ls → ∀ c ∈ ls, c ∈ cs := by
  obtain ⟨r, hr, hm⟩ := C89_converted_behaves trunc lib encode o f h
  refine ⟨r, hr, fun X n hX hn p ls hp => ?_⟩
  rw [hm] at hp
  exact behaves_among h hc hl p X n ls hp hX hn

/-- The hypothesis on the classes is needed: a Gaussian naive Bayes classifier with no class answers every
list of records with an empty list. -/
theorem C92_no_classes (m : GaussianNB F (PVal F)) (hm : m.classes = []) (rs : List (Row F)) (hr : rs ≠ []) :
    nbPredict m.jll m.classes (.list rs) = .ok [] := by
  have h : rs.length ≠ 0 := fun h => hr (List.length_eq_zero_iff.1 h)
  simp only [nbPredict, checkArray, if_neg h, py_ok_bind, GaussianNB.jll, hm, List.length_nil, List.range_zero, mapM_nil']
  rfl

/-! ### Non-vacuity -/

example (v v' : Option (List Char)) (s : Attrs F) (a b c : F) :
    SomeClasses (.pipeline v [("scale", .leaf "StandardScaler" v' s), ("clf", .leaf "RidgeClassifier" v' (demoRidge a b c))]) ∧
    AnswersWith (.pipeline v [("scale", .leaf "StandardScaler" v' s), ("clf", .leaf "RidgeClassifier" v' (demoRidge a b c))])
      [.str "no", .str "yes"] := by
  refine ⟨.pipeline ?_, .pipeline rfl (.leaf (by simp [predicting]) (by simp [regressing]) (by decide) ⟨rfl, ?_⟩)⟩
  · intro t ht
    simp only [List.mem_cons, List.not_mem_nil, or_false] at ht
    rcases ht with rfl | rfl
    · exact .leaf fun h => by simp at h
    · exact .leaf fun h => by simp at h
  · intro c hc
    simp only [List.mem_cons, List.not_mem_nil, or_false] at hc
    rcases hc with rfl | rfl <;> exact .str _

/-- two records, dense and sparse -/
example (a b : F) : Records (.arr (.list [.list [a], .list [b]])) 2 ∧
    Records (.arr (.sparse [[(0, a)], []] (some 1) .float)) 2 :=
  ⟨.dense [.list [a], .list [b]], .sparse [[(0, a)], []] (some 1) .float⟩

end PurePredict
