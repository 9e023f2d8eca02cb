import Verif.Lemmas.KindBatch
import Verif.Lemmas.GBBatch
import Verif.Props.C73
import Verif.Props.C94
/-
Converted objects treat the records of a request independently: single estimators, pipelines, unions, ensembles.
-/
namespace PurePredict
open Spec
variable {F : Type} [Arith F] {lib : String → TextLib} {encode : Str → List Nat}

/-- The prediction methods, where present, treat the records independently. -/
structure Says (f : Methods F) (A : Form (Data F)) : Prop where
  predict : ∀ p, f.predict = some p → BatchIndependent A.Ok fun xs => p (A.emb xs)
  proba : ∀ p, f.predictProba = some p → BatchIndependent A.Ok fun xs => p (A.emb xs)
  logProba : ∀ p, f.predictLogProba = some p → BatchIndependent A.Ok fun xs => p (A.emb xs)

/-- The object transforms record by record into matrices. -/
def Gives (f : Methods F) (A : Form (Data F)) (k : Kind) : Prop :=
  ∃ t, f.transform = some t ∧ RecordByRecord A ((Req.matrix k).form F) t

/-! ### Composition -/

theorem Spec.RecordByRecord.comp {D E G : Type} {A : Form D} {B : Form E} {C : Form G} {f : D → Py E} {g : E → Py G}
    (hf : RecordByRecord A B f) (hg : RecordByRecord B C g) : RecordByRecord A C fun X => f X >>= g := by
  obtain ⟨g1, b1, r1⟩ := hf
  obtain ⟨g2, b2, r2⟩ := hg
  have hB : ∀ xs, A.Batch xs → ∀ c, g1 xs = .ok c → B.Batch c := by
    intro xs hxs c hc
    refine ⟨?_, (r1 xs hxs).2 c hc⟩
    rintro rfl
    have := b1.length hxs.1 hxs.2 hc
    exact hxs.1 (List.length_eq_zero_iff.1 this.symm)
  refine ⟨fun xs => g1 xs >>= g2, b1.comp (fun xs h h' => (r1 xs ⟨h, h'⟩).2) b2, fun xs hxs => ⟨fun y => ?_, fun c hc => ?_⟩⟩
  · rw [bind_ok_iff]
    constructor
    · rintro ⟨z, hz, hy⟩
      obtain ⟨c, hc, rfl⟩ := ((r1 xs hxs).1 z).1 hz
      obtain ⟨d, hd, rfl⟩ := ((r2 c (hB xs hxs c hc)).1 y).1 hy
      exact ⟨d, bind_ok_iff.2 ⟨c, hc, hd⟩, rfl⟩
    · rintro ⟨d, hd, rfl⟩
      obtain ⟨c, hc, hd⟩ := bind_ok_iff.1 hd
      exact ⟨_, ((r1 xs hxs).1 _).2 ⟨c, hc, rfl⟩, ((r2 c (hB xs hxs c hc)).1 _).2 ⟨d, hd, rfl⟩⟩
  · obtain ⟨c', hc', hd⟩ := bind_ok_iff.1 hc
    exact (r2 c' (hB xs hxs c' hc')).2 c hd

theorem Spec.RecordByRecord.arr {D : Type} {A : Form D} {k : Kind} {f : D → Py (Arr F)} (h : RecordByRecord A (k.form F) f) :
    RecordByRecord A ((Req.matrix k).form F) (fun X => do return .arr (← f X)) := by
  obtain ⟨g, b, r⟩ := h
  refine ⟨g, b, fun xs hxs => ⟨fun y => ?_, (r xs hxs).2⟩⟩
  show (f (A.emb xs) >>= fun Y => .ok (Data.arr Y)) = .ok y ↔ _
  rw [bind_ok_iff]
  constructor
  · rintro ⟨z, hz, hy⟩
    cases hy
    obtain ⟨c, hc, rfl⟩ := ((r xs hxs).1 z).1 hz
    exact ⟨c, hc, rfl⟩
  · rintro ⟨c, hc, rfl⟩
    exact ⟨_, ((r xs hxs).1 _).2 ⟨c, hc, rfl⟩, rfl⟩

theorem Spec.RecordByRecord.asArr {D : Type} {A : Form D} {k : Kind} {f : D → Py (Data F)}
    (h : RecordByRecord A ((Req.matrix k).form F) f) : RecordByRecord A (k.form F) (fun X => do (← f X).asArr) := by
  obtain ⟨g, b, r⟩ := h
  refine ⟨g, b, fun xs hxs => ⟨fun y => ?_, (r xs hxs).2⟩⟩
  show (f (A.emb xs) >>= Data.asArr) = .ok y ↔ _
  rw [bind_ok_iff]
  constructor
  · rintro ⟨z, hz, hy⟩
    obtain ⟨c, hc, rfl⟩ := ((r xs hxs).1 z).1 hz
    cases hy
    exact ⟨c, hc, rfl⟩
  · rintro ⟨c, hc, rfl⟩
    exact ⟨_, ((r xs hxs).1 _).2 ⟨c, hc, rfl⟩, rfl⟩

theorem gives_transformer {A : Form (Data F)} {k : Kind} {f : Data F → Py (Arr F)} (h : RecordByRecord A (k.form F) f) :
    Gives (transformer f) A k := ⟨_, rfl, h.arr⟩

theorem gives_arr {k k' : Kind} {f : Arr F → Py (Arr F)} (h : RecordByRecord (k.form F) (k'.form F) f) :
    Gives (transformer (Data.onArr f)) ((Req.matrix k).form F) k' := gives_transformer h

theorem gives_docs {k : Kind} {f : List Str → Py (Arr F)} (h : RecordByRecord .texts (k.form F) f) :
    Gives (transformer (Data.onDocs f)) (Req.docs.form F) k := gives_transformer h

theorem gives_records {k : Kind} {f : DictInput F → Py (Arr F)} (h : RecordByRecord (.mappings F) (k.form F) f) :
    Gives (transformer (Data.onRecords f)) (Req.records.form F) k := gives_transformer h

theorem gives_table {w : Nat} {k : Kind} {f : Arr Str → Py (Arr F)} (h : RecordByRecord (.tableOf w) (k.form F) f) :
    Gives (transformer (Data.onTable f)) ((Req.table w).form F) k := gives_transformer h

theorem Gives.runTransform {f : Methods F} {A : Form (Data F)} {k : Kind} (h : Gives f A k) :
    RecordByRecord A (k.form F) f.runTransform := by
  obtain ⟨t, ht, h⟩ := h
  have : f.runTransform = fun X => (t X >>= fun Y => Y.asArr) := by
    funext X
    unfold Est.runTransform
    rw [ht]
  rw [this]
  exact h.asArr

theorem says_classifier {k : Kind} {p : Arr F → Py (List (PVal F))} {pp pl : Arr F → Py (List (List F))}
    (hp : BatchIndependent (k.form F).Ok fun A => p ((k.form F).emb A))
    (hpp : BatchIndependent (k.form F).Ok fun A => pp ((k.form F).emb A))
    (hpl : BatchIndependent (k.form F).Ok fun A => pl ((k.form F).emb A)) :
    Says (classifier p pp pl) ((Req.matrix k).form F) where
  predict := by intro _ h; cases h; exact hp
  proba := by intro _ h; cases h; exact hpp
  logProba := by intro _ h; cases h; exact hpl

theorem says_predictor {k : Kind} {p : Arr F → Py (List (PVal F))}
    (hp : BatchIndependent (k.form F).Ok fun A => p ((k.form F).emb A)) :
    Says (predictor p) ((Req.matrix k).form F) where
  predict := by intro _ h; cases h; exact hp
  proba := by intro _ h; cases h
  logProba := by intro _ h; cases h

theorem says_probabilist {k : Kind} {p : Arr F → Py (List (PVal F))} {pp : Arr F → Py (List (List F))}
    (hp : BatchIndependent (k.form F).Ok fun A => p ((k.form F).emb A))
    (hpp : BatchIndependent (k.form F).Ok fun A => pp ((k.form F).emb A)) :
    Says (probabilist p pp) ((Req.matrix k).form F) where
  predict := by intro _ h; cases h; exact hp
  proba := by intro _ h; cases h; exact hpp
  logProba := by intro _ h; cases h

/-! ### Single estimators -/

theorem gives_single {s : Single F} {A : Req} {k : Kind} (h : Spec.Step s A k) : Gives (s.est lib encode) (A.form F) k := by
  cases h with
  | @standardDense s w h1 h2 => exact gives_arr (k := .dense w) (k' := .dense w) (s.record_dense ⟨h1, h2⟩)
  | @standardSparse s w dt => exact gives_arr (k := .sparse w dt) (k' := .sparse w dt) (s.record_sparse w dt)
  | @minMax s w w' h => exact gives_arr (k := .dense w') (k' := .dense w) (s.record_dense h)
  | @maxAbsDense s w w' h => exact gives_arr (k := .dense w') (k' := .dense w) (s.record_dense h)
  | @maxAbsSparse s w dt => exact gives_arr (k := .sparse w dt) (k' := .sparse w dt) (s.record_sparse w dt)
  | @normalizer n k =>
    cases k with
    | dense w => exact gives_arr (k := .dense w) (k' := .dense w) (normalizer_record_dense n w)
    | sparse w dt => exact gives_arr (k := .sparse w dt) (k' := .sparse w dt) (normalizer_record_sparse n w dt)
  | @tfidf t w dt => exact gives_arr (k := .sparse w dt) (k' := .sparse w dt) (t.record w dt)
  | imputer h1 h2 => exact gives_arr (k := .dense _) (k' := .dense _) (SimpleImputer.record _ h1 h2)
  | imputerFlags h1 h2 h3 h4 h5 h6 =>
    exact gives_arr (k := .dense _) (k' := .dense _) (SimpleImputer.record_flags _ h1 h2 h3 h4 h5 h6)
  | indicator h1 h2 => exact gives_arr (k := .dense _) (k' := .dense _) (MissingIndicator.record _ h1 h2)
  | @count p v h => exact gives_docs (k := .sparse _ _) (v.record (lib p) h)
  | @tfidfVec p v t h => exact gives_docs (k := .sparse _ _) (tfidfVectorizer_record (lib p) v t h)
  | @hashing p v h => exact gives_docs (k := .sparse _ _) (v.record (lib p) encode h)
  | dictSparse h => exact gives_records (k := .sparse _ _) (DictVectorizer.record_sparse _ h)
  | dictDense h => exact gives_records (k := .dense _) (DictVectorizer.record_dense _ h)
  | ordinal h => exact gives_table (k := .dense _) (Encoder.ordinal_record _ h)
  | oneHotSparse h h2 => exact gives_table (k := .sparse _ _) (Encoder.oneHot_sparse _ h h2)
  | oneHotDense h h2 => exact gives_table (k := .dense _) (Encoder.oneHot_dense _ h h2)

theorem map_batch {ρ β γ : Type} {P : ρ → Prop} {f : List ρ → Py (List β)} (h : BatchIndependent P f) (g : β → γ) :
    BatchIndependent P fun A => (do return (← f A).map g : Py (List γ)) :=
  h.bind_mapM (g := fun b => .ok (g b)) fun _ _ _ _ _ => OkEq.of_eq (mapM_ok_map fun _ _ => rfl).symm

theorem says_single {s : Single F} {k : Kind} (h : Fits s k) : Says (s.est lib encode) ((Req.matrix k).form F) := by
  cases h with
  | @linear kind m k h1 h2 =>
    have hb := m.kind k h1 h2
    cases kind with
    | logistic => exact says_classifier hb.predict hb.proba hb.logProba
    | sgd =>
      simp only [Single.est, LinKind.est]
      cases m.checkProba with
      | error x => exact says_predictor hb.predict
      | ok u => exact says_classifier hb.predict hb.sgdProba hb.sgdLogProba
    | plain => exact says_predictor hb.predict
  | @treeClassifier t k => exact says_classifier (t.predict_kind k) (t.predictProba_kind k) (t.predictLogProba_kind k)
  | @treeRegressor t k => exact says_predictor (map_batch (t.predictReg_kind k) _)
  | @gaussianNB m k h =>
    obtain ⟨h1, h2, h3⟩ := nb_kind (m.jll_batch h) m.classes k
    exact says_classifier h1 h2 h3
  | @multinomialNB m k =>
    obtain ⟨h1, h2, h3⟩ := nb_kind m.multinomial_batch m.classes k
    exact says_classifier h1 h2 h3
  | @complementNB m k =>
    obtain ⟨h1, h2, h3⟩ := nb_kind m.complement_batch m.classes k
    exact says_classifier h1 h2 h3
  | @dummy d k => exact says_classifier (map_batch (d.predict_kind k) _) (d.predictProba_kind k) (d.predictLogProba_kind k)
  | @xgb m k => exact says_probabilist (m.kind k).1 (m.kind k).2

/-! ### Pipelines -/

theorem pipeline_single (n : String) (e : Methods F) : pipelineEst [(n, e)] = e := by
  obtain ⟨t, p, pp, pl⟩ := e
  unfold pipelineEst Pipeline.asEst
  congr 1
  · cases t with
    | none => rfl
    | some t =>
      show some _ = some t
      congr 1
      funext X
      show (t X >>= fun Y => .ok Y) = t X
      cases t X <;> rfl
  · cases p <;> rfl
  · cases pp <;> rfl
  · cases pl <;> rfl

theorem pipeline_delegated {R : Type} (a s : String × Option (Methods F)) (ss : List (String × Option (Methods F)))
    (m : Methods F → Option (Data F → Py R)) :
    Pipeline.delegated ⟨a :: s :: ss⟩ m = Pipeline.delegated ⟨s :: ss⟩ m := by
  unfold Pipeline.delegated Pipeline.finalEstimator
  simp only [List.getLast?_cons_cons]

theorem pipeline_cons (n : String) {e : Methods F} {t : Data F → Py (Data F)} (ht : e.transform = some t)
    (s : String × Methods F) (ss : List (String × Methods F)) :
    (pipelineEst ((n, e) :: s :: ss)).transform = (pipelineEst (s :: ss)).transform.map (fun u X => t X >>= u) ∧
    (pipelineEst ((n, e) :: s :: ss)).predict = (pipelineEst (s :: ss)).predict.map (fun u X => t X >>= u) ∧
    (pipelineEst ((n, e) :: s :: ss)).predictProba = (pipelineEst (s :: ss)).predictProba.map (fun u X => t X >>= u) ∧
    (pipelineEst ((n, e) :: s :: ss)).predictLogProba =
      (pipelineEst (s :: ss)).predictLogProba.map (fun u X => t X >>= u) := by
  have hall : ∀ (l : List (String × Option (Methods F))) X,
      Pipeline.applyAll ((n, some e) :: l) X = t X >>= Pipeline.applyAll l := by
    intro l X
    simp only [Pipeline.applyAll, ht]
  simp only [pipelineEst, Pipeline.asEst, List.map_cons]
  refine ⟨?_, ?_, ?_, ?_⟩
  · have hf : Pipeline.finalEstimator ⟨(n, some e) :: (s.1, some s.2) :: ss.map fun s => (s.1, some s.2)⟩ =
        Pipeline.finalEstimator ⟨(s.1, some s.2) :: ss.map fun s => (s.1, some s.2)⟩ := by
      unfold Pipeline.finalEstimator
      simp only [List.getLast?_cons_cons]
    rw [hf]
    cases h : Pipeline.finalEstimator ⟨(s.1, some s.2) :: ss.map fun s => (s.1, some s.2)⟩ with
    | error x => rfl
    | ok q =>
      cases q with
      | none =>
        simp only [Option.map_some]
        congr 1
        funext X
        unfold Pipeline.transform
        rw [hf, h]
        exact hall _ X
      | some q =>
        simp only
        cases hq : q.transform.isNone with
        | true => rfl
        | false =>
          simp only [Bool.false_eq_true, if_false, Option.map_some]
          congr 1
          funext X
          unfold Pipeline.transform
          rw [hf, h]
          simp only [py_ok_bind, hq, Bool.false_eq_true, if_false]
          exact hall _ X
  all_goals
    rw [pipeline_delegated]
    split
    · rename_i f hf
      simp only [Option.map_some]
      congr 1
      funext X
      first | unfold Pipeline.predict | unfold Pipeline.predictProba | unfold Pipeline.predictLogProba
      rw [pipeline_delegated, hf]
      simp only [py_ok_bind, Pipeline.front, List.dropLast_cons₂, hall, bind_assoc]
    · rfl

theorem says_pipeline (n : String) {e : Methods F} {A : Form (Data F)} {k : Kind} (he : Gives e A k)
    {s : String × Methods F} {ss : List (String × Methods F)} (hs : Says (pipelineEst (s :: ss)) ((Req.matrix k).form F)) :
    Says (pipelineEst ((n, e) :: s :: ss)) A := by
  obtain ⟨t, ht, hr⟩ := he
  obtain ⟨-, h1, h2, h3⟩ := pipeline_cons n ht s ss
  constructor
  · intro p hp
    rw [h1] at hp
    obtain ⟨q, hq, rfl⟩ := Option.map_eq_some_iff.1 hp
    exact hr.then (hs.predict q hq)
  · intro p hp
    rw [h2] at hp
    obtain ⟨q, hq, rfl⟩ := Option.map_eq_some_iff.1 hp
    exact hr.then (hs.proba q hq)
  · intro p hp
    rw [h3] at hp
    obtain ⟨q, hq, rfl⟩ := Option.map_eq_some_iff.1 hp
    exact hr.then (hs.logProba q hq)

theorem gives_pipeline (n : String) {e : Methods F} {A : Form (Data F)} {k k' : Kind} (he : Gives e A k)
    {s : String × Methods F} {ss : List (String × Methods F)} (hs : Gives (pipelineEst (s :: ss)) ((Req.matrix k).form F) k') :
    Gives (pipelineEst ((n, e) :: s :: ss)) A k' := by
  obtain ⟨t, ht, hr⟩ := he
  obtain ⟨u, hu, hs⟩ := hs
  obtain ⟨h0, -⟩ := pipeline_cons n ht s ss
  rw [hu] at h0
  exact ⟨_, h0, hr.comp hs⟩

/-! ### Feature unions -/

theorem req_check (A : Req) {xs : List (A.form F).Rec} (h : xs ≠ []) :
    ((A.form F).emb xs).check = .ok ((A.form F).emb xs) ∧ ((A.form F).emb xs).len = .ok xs.length := by
  cases A with
  | matrix k =>
    refine ⟨?_, kind_len k xs⟩
    show (checkArray ((k.form F).emb xs) .allow >>= fun Y => .ok (Data.arr Y)) = _
    rw [kind_check k h]; rfl
  | docs =>
    refine ⟨?_, rfl⟩
    cases xs with
    | nil => exact absurd rfl h
    | cons => rfl
  | records =>
    refine ⟨?_, rfl⟩
    cases xs with
    | nil => exact absurd rfl h
    | cons => rfl
  | table w =>
    refine ⟨?_, len_ofMat (M := (show List (List Str) from xs))⟩
    show (checkArray (Arr.ofMat (show List (List Str) from xs)) .allow >>= fun Y => .ok (Data.table Y)) = _
    rw [checkArray_ofMat (M := (show List (List Str) from xs)) h .allow]; rfl

theorem union_sideBySide {A : Req} {k : Kind} {steps : List (String × Methods F)} {ws : Option (List (String × F))}
    (h : RecordByRecord (A.form F) (k.form F) (sideBySide Data.len Data.shape
      (steps.map fun s X => transformOne s.2.runTransform X (weightOf ws s.1)))) :
    Gives (unionEst steps ws) (A.form F) k := by
  apply gives_transformer
  obtain ⟨g, b, r⟩ := h
  refine ⟨g, b, fun xs hxs => ⟨fun y => ?_, (r xs hxs).2⟩⟩
  rw [← (r xs hxs).1 y]
  unfold sideBySide
  show (((A.form F).emb xs).check >>= _) = _ ↔ _
  rw [(req_check A hxs.1).1, py_ok_bind, mapM_map']

theorem gives_unionDense {A : Req} {ks : List Nat} {steps : List (String × Methods F)} (hne : steps ≠ [])
    (h : List.Forall₂ (fun s k => Gives s.2 (A.form F) (.dense k)) steps ks) (ws : Option (List (String × F))) :
    Gives (unionEst steps ws) (A.form F) (.dense ks.sum) := by
  refine union_sideBySide (k := .dense ks.sum) (sideBySide_dense (fun xs hxs => (req_check A hxs.1).2) ?_ ?_)
  · simpa using hne
  · rw [List.forall₂_map_left_iff]
    exact h.imp fun s k hs => transformOne_record (k := .dense k) hs.runTransform _

theorem gives_unionSparse {A : Req} {ks : List Kind} {steps : List (String × Methods F)}
    (hsp : ∃ k ∈ ks, k.isSparse = true) (hpos : ∀ w, Kind.dense w ∈ ks → 0 < w)
    (h : List.Forall₂ (fun s k => Gives s.2 (A.form F) k) steps ks) (ws : Option (List (String × F))) :
    Gives (unionEst steps ws) (A.form F) (.sparse (ks.map Kind.width).sum .float) := by
  refine union_sideBySide (k := .sparse _ _) (sideBySide_sparse (fun xs hxs => (req_check A hxs.1).2) hsp hpos ?_)
  rw [List.forall₂_map_left_iff]
  exact h.imp fun s k hs => transformOne_record hs.runTransform _

/-! ### Ensembles -/

theorem Says.runProba {m : Methods F} {k : Kind} (h : Says m ((Req.matrix k).form F)) :
    BatchIndependent (k.form F).Ok fun A => m.runProba ((k.form F).emb A) := by
  unfold Est.runProba
  cases hp : m.predictProba with
  | none => exact BatchIndependent.of_error fun _ _ _ => ⟨_, rfl⟩
  | some p => exact h.proba p hp

theorem Says.runNumbers {m : Methods F} {k : Kind} (h : Says m ((Req.matrix k).form F)) :
    BatchIndependent (k.form F).Ok fun A => m.runNumbers ((k.form F).emb A) := by
  unfold Est.runNumbers
  cases hp : m.predict with
  | none => exact BatchIndependent.of_error fun _ _ _ => ⟨_, rfl⟩
  | some p => exact (h.predict p hp).bind_mapM fun _ _ _ _ _ => OkEq.refl _

theorem bagging_says {b : Bagging F (PVal F)} {k : Kind} {c : Nat}
    (hm : ∀ idx, BatchIndependent (k.form F).Ok fun A => b.memberProba ((k.form F).emb A) idx)
    (hw : ∀ e ∈ b.estimators, WideAs e.predictProba c) :
    Says (classifier b.predict b.predictProba b.predictLogProba) ((Req.matrix k).form F) := by
  have hp := Bagging.predictProba_on (k := c) hm (by
    intro idx A Q hQ
    obtain ⟨e, he, hQ⟩ := bind_ok_iff.1 hQ
    obtain ⟨feats, -, hQ⟩ := bind_ok_iff.1 hQ
    obtain ⟨X, -, hQ⟩ := bind_ok_iff.1 hQ
    exact hw e (pyGet_ok_mem he) X Q hQ)
  exact says_classifier (Bagging.predict_on hp) hp (Bagging.predictLogProba_on hp)

theorem says_ensemble {cs : List (PVal F)} {ms : List (Methods F)} {k : Kind} {c : Nat} (hw : ∀ m ∈ ms, Wide m c)
    (hs : ∀ m ∈ ms, Says m ((Req.matrix k).form F)) : Says (ensembleEst none cs ms) ((Req.matrix k).form F) := by
  refine bagging_says (c := c) (fun idx => ?_) fun e he => ?_
  · unfold Bagging.memberProba
    refine Spec.BatchIndependent.of_const _ fun e he => ?_
    obtain ⟨m, hm, rfl⟩ := List.mem_map.1 (pyGet_ok_mem he)
    exact (hs m hm).runProba
  · obtain ⟨m, hm, rfl⟩ := List.mem_map.1 he
    exact wide_runProba (hw m hm)

theorem says_subspaces {fs : List (List Int)} {cs : List (PVal F)} {ms : List (Methods F)} {w c : Nat}
    (hw : ∀ m ∈ ms, Wide m c) (hs : ∀ p ∈ ms.zip fs, Says p.1 ((Req.matrix (.dense p.2.length)).form F)) :
    Says (ensembleEst (some fs) cs ms) ((Req.matrix (.dense w)).form F) := by
  refine bagging_says (c := c) (fun idx => ?_) fun e he => ?_
  · unfold Bagging.memberProba
    refine Spec.BatchIndependent.of_const _ fun e he => ?_
    refine Spec.BatchIndependent.of_const _ fun feats hf => ?_
    obtain ⟨fl, hfl, hf⟩ := bind_ok_iff.1 hf
    cases hf
    have hi1 : idx < ms.length := by
      by_contra hc
      rw [pyGet_ge (by simpa using hc)] at he
      cases he
    have hi2 : idx < fs.length := by
      by_contra hc
      rw [pyGet_ge (by simpa using hc)] at hfl
      cases hfl
    rw [pyGet_lt (by simpa using hi1)] at he
    rw [pyGet_lt hi2] at hfl
    cases he
    cases hfl
    have hb := (hs (ms[idx], fs[idx]) (by
      rw [List.mem_iff_getElem]
      exact ⟨idx, by simp [hi1, hi2], by simp⟩)).runProba
    have := Spec.BatchIndependent.comap (P := fun r : List F => r.length = w) hb
      (h := fun r : List F => fs[idx].mapM fun i => (Row.list r).getItem i) fun r _ s h => mapM_length h
    refine this.congr fun A _ _ => OkEq.of_eq ?_
    have hr : ((Kind.dense w).form F).emb A = Arr.ofMat A := rfl
    rw [List.getElem_map]
    simp only [featSlice, hr, rows_ofMat, py_ok_bind]
    rw [mapM_map']
    show _ = ((A.mapM fun r : List F => fs[idx].mapM fun i => (Row.list r).getItem i : Py (List (List F))) >>=
      fun M => ms[idx].runProba (.ofMat M))
    cases (List.mapM (fun r : List F => fs[idx].mapM fun i => (Row.list r).getItem i) A) <;> rfl
  · obtain ⟨m, hm, rfl⟩ := List.mem_map.1 he
    exact wide_runProba (hw m hm)

theorem says_boosting {cs : List (PVal F)} {stages : List (List (Methods F))} {init : Methods F} {l : Loss} {lr : F} {nf : Nat}
    (hl : ∀ n, l = .multinomial n → n = cs.length) (hcs : cs ≠ []) (hw : Wide init cs.length)
    (hi : Says init ((Req.matrix (.dense nf)).form F))
    (hne : stages ≠ []) (hst : ∀ st ∈ stages, st.length = stageSize l)
    (hs : ∀ st ∈ stages, ∀ m ∈ st, Says m ((Req.matrix (.dense nf)).form F)) :
    Says (boostingEst cs stages init l lr nf) ((Req.matrix (.dense nf)).form F) := by
  have hp : (⟨cs, stages.map fun st => st.map fun m => m.runNumbers, init.runProba, lr, nf, l⟩ : GB F (PVal F)).Parts
      fun r => r.length = nf := by
    constructor
    · exact hi.runProba
    · intro st hst f hf
      obtain ⟨st, hst', rfl⟩ := List.mem_map.1 hst
      obtain ⟨m, hm, rfl⟩ := List.mem_map.1 hf
      exact (hs st hst' m hm).runNumbers
    · intro st h
      obtain ⟨st, hst', rfl⟩ := List.mem_map.1 h
      rw [List.length_map, hst st hst']
      cases l <;> rfl
    · show 0 < l.cols
      cases l with
      | multinomial n =>
        have := hl n rfl
        subst this
        exact List.length_pos_iff.2 hcs
      | _ => exact Nat.one_pos
    · simpa using hne
    · intro n hn A Q hQ q hq
      rw [hl n hn]
      exact wide_runProba hw _ _ hQ q hq
  exact says_classifier (k := .dense nf) (GB.predict_batch hp fun _ h => h) (GB.predictProba_batch hp fun _ h => h)
    (GB.predictLogProba_batch hp fun _ h => h)

end PurePredict
