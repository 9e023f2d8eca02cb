import Verif.Lemmas.GB
/-
Gradient boosting treats the records of a batch independently.
-/
namespace PurePredict
open Spec
variable {F C : Type} [Arith F]

namespace GB

/-- What gradient boosting needs of its parts: the init estimator and the stage trees treat records
independently, there is at least one stage, every stage has one tree per raw score column, and the
init estimator returns one probability per class. -/
structure Parts (g : GB F C) (P : List F → Prop) : Prop where
  init : BatchIndependent P fun A => g.initProba (.ofMat A)
  stage : ∀ st ∈ g.estimators, ∀ f ∈ st, BatchIndependent P fun A => f (.ofMat A)
  width : ∀ st ∈ g.estimators, st.length = g.loss.cols
  cols : 0 < g.loss.cols
  nonempty : g.estimators ≠ []
  classes : ∀ n, g.loss = .multinomial n → ∀ A Q, g.initProba (.ofMat A) = .ok Q →
    ∀ q ∈ Q, q.length = n

/-- Values of the parts on a batch. -/
def Data (g : GB F C) (A : List (List F)) (I : Nat → Nat → F) (T : Nat → List (Nat → F)) : Prop :=
  (g.initProba (.ofMat A) >>= g.loss.initRaw) = .ok (mat A.length g.loss.cols I) ∧
  ∀ c < g.loss.cols, List.Forall₂ (StageReturns (.ofMat A) A.length c) g.estimators (T c)

variable {g : GB F C}

theorem initRaw_batch {P : List F → Prop} (h : g.Parts P) :
    BatchIndependent P fun A => g.initProba (.ofMat A) >>= g.loss.initRaw :=
  Spec.BatchIndependent.bind_mapM h.init fun _ _ _ _ _ => OkEq.of_eq (Loss.initRaw_eq _ _)

theorem data_of_ok {P : List F → Prop} (h : g.Parts P) {A : List (List F)} (hA : A ≠ [])
    (hP : ∀ r ∈ A, P r) (hw : Rect g.nFeatures A) {R : List (List F)}
    (hR : g.rawPredict (.ofMat A) = .ok R) : ∃ I T, g.Data A I T := by
  simp only [rawPredict, rawPredictInit_eq hA hw] at hR
  obtain ⟨I, hI, hR⟩ := bind_ok_iff.1 hR
  obtain ⟨st0, h0, hR⟩ := bind_ok_iff.1 hR
  obtain ⟨out, hout, -⟩ := bind_ok_iff.1 hR
  have hst0 : st0.length = g.loss.cols := h.width st0 (pyGet_ok_mem h0)
  have hrect : Rect g.loss.cols I := by
    obtain ⟨Q, hQ, hQI⟩ := bind_ok_iff.1 hI
    rw [Loss.initRaw_eq] at hQI
    intro r hr
    obtain ⟨q, hq, hqr⟩ := mapM_mem hQI hr
    exact Loss.initRow_length (fun n hn => h.classes n hn A Q hQ q hq) hqr
  have hIlen : I.length = A.length :=
    ((((initRaw_batch h).2 A hA hP I).1 hI).length_eq).symm
  have hst : ∀ c < g.loss.cols, ∀ st ∈ g.estimators,
      ∃ t, StageReturns (.ofMat A) A.length c st t := by
    intro c hc st hst
    have hc' : c < st0.length := by rw [hst0]; exact hc
    have := mapM_getElem hout c (by simpa using hc') (by rw [mapM_length hout]; simpa using hc')
    simp only [len_ofMat, py_ok_bind, List.getElem_range] at this
    obtain ⟨f, p, hf, hp⟩ := rawColumn_ok this st hst
    have hlen : p.length = A.length :=
      ((((h.stage st hst f (List.mem_of_getElem? hf)).2 A hA hP p).1 hp).length_eq).symm
    refine ⟨fun i => p.getD i (ofInt 0), f, hf, ?_⟩
    rw [hp, ← hlen]
    congr 1
    apply List.ext_getElem
    · simp
    · intro i h1 h2
      simp [List.getD_eq_getElem?_getD, h1]
  have : Nonempty (Nat → F) := ⟨fun _ => ofInt 0⟩
  choose! t ht using hst
  refine ⟨fun i j => (I.getD i []).getD j (ofInt 0), fun c => g.estimators.map (t c), ?_, ?_⟩
  · rw [hI, ← hIlen]
    congr 1
    exact eq_mat hrect (ofInt 0)
  · intro c hc
    rw [List.forall₂_map_right_iff, List.forall₂_same]
    exact fun st hst => ht c hc st hst

theorem data_single {P : List F → Prop} (h : g.Parts P) {A : List (List F)} (hA : A ≠ [])
    (hP : ∀ r ∈ A, P r) {I : Nat → Nat → F} {T : Nat → List (Nat → F)} (hD : g.Data A I T)
    {i : Nat} (hi : i < A.length) :
    g.Data [A[i]] (fun _ c => I i c) fun c => (T c).map fun t _ => t i := by
  refine ⟨?_, ?_⟩
  · have := ((initRaw_batch h).ok_range_iff hA hP rfl).1 hD.1 i hi
    simpa [mat] using this
  · intro c hc
    rw [List.forall₂_map_right_iff]
    have hF := hD.2 c hc
    rw [List.forall₂_iff_get] at hF ⊢
    refine ⟨hF.1, ?_⟩
    intro s h1 h2
    obtain ⟨f, hf, hfA⟩ := hF.2 s h1 h2
    refine ⟨f, hf, ?_⟩
    have := ((h.stage _ (List.get_mem _ _) f (List.mem_of_getElem? hf)).ok_range_iff hA hP
      rfl).1 hfA i hi
    simpa using this

theorem data_of_singles {P : List F → Prop} (h : g.Parts P) {A : List (List F)} (hA : A ≠ [])
    (hP : ∀ r ∈ A, P r) (hD : ∀ i (hi : i < A.length), ∃ I T, g.Data [A[i]] I T) :
    ∃ I T, g.Data A I T := by
  have hD' : ∀ i, ∃ I T, ∀ hi : i < A.length, g.Data [A[i]] I T := by
    intro i
    by_cases hi : i < A.length
    · obtain ⟨I, T, h⟩ := hD i hi
      exact ⟨I, T, fun _ => h⟩
    · exact ⟨fun _ _ => ofInt 0, fun _ => [], fun hi' => absurd hi' hi⟩
  choose I T hIT using hD'
  refine ⟨fun i c => I i 0 c, fun c => (List.range g.estimators.length).map fun s i =>
    (((T i c)[s]?).getD fun _ => ofInt 0) 0, ?_, ?_⟩
  · rw [mat, (initRaw_batch h).ok_range_iff hA hP rfl]
    intro i hi
    have := (hIT i hi).1
    simpa [mat] using this
  · intro c hc
    rw [List.forall₂_iff_get]
    refine ⟨by simp, ?_⟩
    intro s h1 h2
    have hc' : c < (g.estimators[s]).length := by
      rw [h.width _ (List.getElem_mem h1)]; exact hc
    refine ⟨(g.estimators[s])[c], by simp [hc'], ?_⟩
    rw [(h.stage _ (List.getElem_mem h1) _ (List.getElem_mem hc')).ok_range_iff hA hP rfl]
    intro i hi
    have hF := (hIT i hi).2 c hc
    rw [List.forall₂_iff_get] at hF
    have hs : s < (T i c).length := by rw [← hF.1]; exact h1
    obtain ⟨f, hf, hfA⟩ := hF.2 s h1 hs
    have : f = (g.estimators[s])[c] := by
      rw [List.getElem?_eq_getElem (by simpa using hc')] at hf
      simpa using hf.symm
    subst this
    simpa [hs] using hfA

/-- Raw scores are batch independent. -/
theorem rawPredict_batch {P : List F → Prop} (h : g.Parts P)
    (hw : ∀ r, P r → r.length = g.nFeatures) :
    BatchIndependent P fun A => g.rawPredict (.ofMat A) := by
  apply BatchIndependent.of_rowwise (g := fun r => single (g.rawPredict (.ofMat [r])))
  intro A hA hP R
  have hrect : Rect g.nFeatures A := fun r hr => hw r (hP r hr)
  have hsing : ∀ r ∈ A, Rect g.nFeatures [r] := by
    intro r hr x hx
    simp at hx; subst hx
    exact hrect _ hr
  have key : ∀ I T, g.Data A I T → ∃ R, g.rawPredict (.ofMat A) = .ok R ∧
      A.mapM (fun r => single (g.rawPredict (.ofMat [r]))) = .ok R := by
    intro I T hD
    refine ⟨_, rawPredict_eq hA hrect h.cols h.nonempty h.width hD.1 hD.2, ?_⟩
    rw [mapM_ok_iff, List.forall₂_iff_get]
    refine ⟨by simp, ?_⟩
    intro i h1 h2
    rw [single_ok]
    have hDi := data_single h hA hP hD h1
    have := rawPredict_eq (g := g) (M := [A[i]]) (by simp) (hsing _ (List.getElem_mem h1)) h.cols
      h.nonempty h.width hDi.1 hDi.2
    simpa [mat, List.foldl_map] using this
  constructor
  · intro hR
    obtain ⟨I, T, hD⟩ := data_of_ok h hA hP hrect hR
    obtain ⟨R', h1, h2⟩ := key I T hD
    rw [hR] at h1
    cases h1
    exact h2
  · intro hR
    obtain ⟨I, T, hD⟩ := data_of_singles h hA hP (by
      intro i hi
      obtain ⟨hl, hg⟩ := List.forall₂_iff_get.1 (mapM_ok_iff.1 hR)
      have := single_ok.1 (hg i hi (by rw [← hl]; exact hi))
      exact data_of_ok h (by simp) (by
        intro r hr
        simp at hr; subst hr
        exact hP _ (List.getElem_mem hi)) (hsing _ (List.getElem_mem hi)) this)
    obtain ⟨R', h1, h2⟩ := key I T hD
    rw [hR] at h2
    cases h2
    exact h1

theorem rawPredict_rect {P : List F → Prop} (h : g.Parts P) {A : List (List F)} (hA : A ≠ [])
    (hP : ∀ r ∈ A, P r) (hrect : Rect g.nFeatures A) {R : List (List F)}
    (hR : g.rawPredict (.ofMat A) = .ok R) : Rect g.loss.cols R ∧ R ≠ [] := by
  obtain ⟨I, T, hD⟩ := data_of_ok h hA hP hrect hR
  have := rawPredict_eq hA hrect h.cols h.nonempty h.width hD.1 hD.2
  rw [hR] at this
  cases this
  exact ⟨mat_rect _ _ _, mat_ne_nil (List.length_pos_of_ne_nil hA)⟩

theorem predictProba_batch {P : List F → Prop} (h : g.Parts P)
    (hw : ∀ r, P r → r.length = g.nFeatures) :
    BatchIndependent P fun A => g.predictProba (.ofMat A) := by
  apply Spec.BatchIndependent.bind_mapM (rawPredict_batch h hw) (g := g.loss.probaRow)
  intro A hA hP R hR
  obtain ⟨h1, h2⟩ := rawPredict_rect h hA hP (fun r hr => hw r (hP r hr)) hR
  exact Loss.rawToProba_rowwise g.loss h2 h1

theorem predict_batch {P : List F → Prop} (h : g.Parts P)
    (hw : ∀ r, P r → r.length = g.nFeatures) :
    BatchIndependent P fun A => g.predict (.ofMat A) := by
  apply Spec.BatchIndependent.bind_mapM (predictProba_batch h hw)
  intro A hA hP R hR
  exact OkEq.refl _

theorem predictLogProba_batch {P : List F → Prop} (h : g.Parts P)
    (hw : ∀ r, P r → r.length = g.nFeatures) :
    BatchIndependent P fun A => g.predictLogProba (.ofMat A) := by
  apply Spec.BatchIndependent.bind_mapM (predictProba_batch h hw) (g := fun a => a.mapM safeLog)
  intro A hA hP R hR
  exact OkEq.of_eq (apply2d_ofMat _ _)

end GB
end PurePredict
