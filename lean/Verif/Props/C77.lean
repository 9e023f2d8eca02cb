import Verif.Props.C21
import Verif.Props.C62
import Verif.Props.C65
/-
C77: conversion of gradient boosting classifiers end to end.
-/
namespace PurePredict
open Spec
variable {C : Type}

/-! ### Specification -/

/-- The value of a fitted regression tree at a record (0 if the record is too short). -/
noncomputable def Spec.SkTree.valueAt (s : SkTree Ex) (x : List ℝ) : ℝ :=
  match s.reach (fun f => (x[f]?).map XR.fin) with
  | some [[.fin y]] => y
  | _ => 0

/-- The raw score of class `c` of a fitted gradient boosting model: initial score from the prior plus
learning rate times the values of the trees of that class. -/
noncomputable def Spec.gbScore (loss : GBLoss) (prior : List ℝ) (lr : ℝ) (stages : List (List (SkTree Ex)))
    (x : List ℝ) (c : Nat) : ℝ :=
  boosted (initScore loss (fun j => prior.getD j 0) c) lr stages.length fun s =>
    ((stages.getD s []).getD c (.leaf [])).valueAt x

/-- A fitted model: at least one stage, `cols` trees per stage, one number at every node, features
below the fitted width. -/
structure Spec.FittedStages (stages : List (List (SkTree Ex))) (cols nf : Nat) : Prop where
  nonempty : stages ≠ []
  width : ∀ st ∈ stages, st.length = cols
  values : ∀ st ∈ stages, ∀ s ∈ st, ∀ v ∈ s.values, ∃ a : ℝ, v = [[.fin a]]
  features : ∀ st ∈ stages, ∀ s ∈ st, ∀ f ∈ s.features, f < nf

/-! ### The conversion -/

/-- The arrays of a fitted tree. -/
def Spec.SkTree.arrays {F : Type} [Arith F] (s : SkTree F) : SkArrays F :=
  ⟨(s.layout 0).map SkNode.left, (s.layout 0).map SkNode.right, (s.layout 0).map SkNode.feature,
    (s.layout 0).map SkNode.threshold, (s.layout 0).map SkNode.value⟩

theorem SkTree.valueAt_spec (s : SkTree Ex) (hv : ∀ v ∈ s.values, ∃ a : ℝ, v = [[.fin a]]) (x : List ℝ)
    (hf : ∀ f ∈ s.features, f < x.length) :
    s.reach (fun f => (x[f]?).map XR.fin) = some [[.fin (s.valueAt x)]] := by
  obtain ⟨v, hmem, hr⟩ := SkTree.reach_total s (fun f => (x[f]?).map XR.fin) fun f h =>
    ⟨.fin (x[f]'(hf f h)), by simp [hf f h]⟩
  obtain ⟨a, rfl⟩ := hv v hmem
  rw [hr, Spec.SkTree.valueAt, hr]

/-- A converted stage tree predicts the value of the fitted tree at every record. -/
theorem stage_convert (s : SkTree Ex) (hv : ∀ v ∈ s.values, ∃ a : ℝ, v = [[.fin a]]) (nf : Nat)
    (hf : ∀ f ∈ s.features, f < nf) :
    ∃ t : Tree Ex C, Tree.ofSklearn s.arrays.left s.arrays.right s.arrays.feature s.arrays.threshold
        s.arrays.value none [] = .ok t ∧
      ∀ M : List (List ℝ), M ≠ [] → Rect nf M →
        t.predictReg (.ofMat (M.map fins)) = .ok (M.map fun x => .fin (s.valueAt x)) := by
  have hs : ∀ v ∈ s.values, v ≠ [] := fun v h => by obtain ⟨a, rfl⟩ := hv v h; simp
  obtain ⟨t, ht, hall⟩ := C65_tree s hs ([] : List C)
  refine ⟨t, ht, fun M hM hw => ?_⟩
  have h1 := (hall (M.map fins) (by simpa using hM) (fun x => [[.fin (s.valueAt (x.map XR.toReal))]]) ?_).2.2
  · rw [h1, mapM_map']
    apply mapM_ok_map
    intro x _
    have : (fins x).map XR.toReal = x := map_toReal_fins x
    simp [this, pyGet]
  · intro y hy
    obtain ⟨x, hx, rfl⟩ := List.mem_map.1 hy
    have e : (fun (f : Nat) => (fins x)[f]?) = fun f => (x[f]?).map XR.fin := by
      funext f; simp [fins]
    rw [e, map_toReal_fins]
    exact SkTree.valueAt_spec s hv x fun f h => by rw [hw x hx]; exact hf f h

theorem softmax_congr {k : Nat} {s t : Nat → ℝ} {c : Nat} (hc : c < k) (h : ∀ j < k, s j = t j) :
    softmax k s c = softmax k t c := by
  unfold softmax
  rw [h c hc, Finset.sum_congr rfl fun j hj => by rw [h j (Finset.mem_range.1 hj)]]

theorem forall₂_map {α β : Type} {f : α → β} {as : List α} {bs : List β}
    (h : List.Forall₂ (fun a b => b = f a) as bs) : bs = as.map f := by
  induction h with
  | nil => rfl
  | cons h _ ih => rw [h, ih]; rfl

section
variable {stages : List (List (SkTree Ex))} {cols nf : Nat} (hst : FittedStages stages cols nf)
  (classes : List C) (prior : List ℝ) (loss : String) (lr : ℝ)

/-- Conversion of a fitted model (default init estimator). -/
noncomputable def convertGB : Py (GB Ex C) :=
  GB.ofFitted classes (stages.map fun st => st.map SkTree.arrays) (.dummy "prior" (fins prior)) loss (.fin lr) nf

include hst in
theorem convertGB_ok {l : Loss} (hl : mkLoss loss classes.length = .ok l) (hc : l.cols = cols) (h0 : 0 < cols)
    (hp : prior.length = classes.length) (h2 : 2 ≤ classes.length)
    (hk : ∀ n, l = .multinomial n → n = classes.length) :
    ∃ g, convertGB (stages := stages) (nf := nf) classes prior loss lr = .ok g ∧ g.classes = classes ∧
      g.loss = l ∧
      ∀ M : List (List ℝ), M ≠ [] → Rect nf M →
        g.rawPredict (.ofMat (M.map fins)) = .ok ((M.map fun x =>
          (List.range l.cols).map (gbScore l.kind prior lr stages x)).map fins) := by
  have hstage : ∀ st ∈ stages, ∀ s ∈ st, ∃ f : Arr Ex → Py (List Ex),
      (do let t : Tree Ex C ← Tree.ofSklearn s.arrays.left s.arrays.right s.arrays.feature
            s.arrays.threshold s.arrays.value none []
          return t.predictReg) = .ok f ∧
      ∀ M : List (List ℝ), M ≠ [] → Rect nf M →
        f (.ofMat (M.map fins)) = .ok (M.map fun x => .fin (s.valueAt x)) := by
    intro st hst' s hs
    obtain ⟨t, ht, h⟩ := stage_convert (C := C) s (hst.values st hst' s hs) nf (hst.features st hst' s hs)
    exact ⟨t.predictReg, by rw [ht]; rfl, h⟩
  have : Nonempty (Arr Ex → Py (List Ex)) := ⟨fun _ => .ok []⟩
  choose! f hf hpred using hstage
  have hconv : ((stages.map fun st => st.map SkTree.arrays).mapM fun st =>
      st.mapM fun (a : SkArrays Ex) => do
        let t : Tree Ex C ← Tree.ofSklearn a.left a.right a.feature a.threshold a.value none []
        return t.predictReg) = .ok (stages.map fun st => st.map (f st)) := by
    rw [mapM_map']
    apply mapM_ok_map
    intro st h
    rw [mapM_map']
    exact mapM_ok_map fun s hs => hf st h s hs
  refine ⟨⟨classes, stages.map fun st => st.map (f st), (⟨fins prior⟩ : Dummy Ex).predictProba, .fin lr, nf, l⟩,
    ?_, rfl, rfl, ?_⟩
  · unfold convertGB GB.ofFitted
    rw [hconv, py_ok_bind]
    simp only [Dummy.ofFitted, bne_self_eq_false, Bool.false_eq_true, if_false, py_ok_bind, hl, py_pure]
  · intro M hM hw
    rw [C15_raw_scores_additive _ M hM hw lr rfl classes.length ?_ (fun _ j => prior.getD j 0)
      (fun s c i => ((stages.getD s []).getD c (.leaf [])).valueAt (M.getD i [])) (by simpa using hst.nonempty)
      ⟨?_, ?_, ?_⟩]
    · unfold mat
      congr 1
      apply List.ext_getElem
      · simp
      · intro i h1 h2
        simp at h1
        simp [gbScore, fins, h1]
    · cases l with
      | multinomial n =>
        have := hk n rfl
        exact ⟨this.symm, by omega⟩
      | binomial => exact h2
      | exponential => exact h2
    · show (⟨fins prior⟩ : Dummy Ex).predictProba _ = _
      rw [C21_proba_is_prior _ _ M.length (by rw [len_ofMat, List.length_map])]
      unfold mat
      congr 1
      apply List.ext_getElem
      · simp
      · intro i h1 h2
        simp only [List.getElem_replicate, List.getElem_map, fins]
        apply List.ext_getElem
        · simp [hp]
        · intro j h3 h4
          simp at h3
          simp [h3]
    · intro st h
      obtain ⟨st', h', rfl⟩ := List.mem_map.1 h
      rw [List.length_map, hst.width st' h', ← hc]
    · intro s hs c hc'
      simp at hs
      simp at hc'
      have e : ((stages.map fun st => st.map (f st))[s]'(by simpa using hs))[c]'(by simpa using hc') =
          f stages[s] stages[s][c] := by simp
      refine (congrFun e _).trans ((hpred _ (List.getElem_mem hs) _ (List.getElem_mem hc') M hM hw).trans ?_)
      congr 1
      apply List.ext_getElem
      · simp
      · intro i h1 h2
        simp at h1
        simp [h1, hs, hc']

include hst

/-- **C77**, deviance, several classes: for every fitted model and every request, the converted
model returns the softmax of the raw scores of the fitted model and the label of the first largest
score. -/
theorem C77_multinomial (hk : 2 < classes.length) (hc : cols = classes.length)
    (hp : prior.length = classes.length) :
    ∃ g, convertGB (stages := stages) (nf := nf) classes prior "deviance" lr = .ok g ∧
      ∀ M : List (List ℝ), M ≠ [] → Rect nf M →
        g.predictProba (.ofMat (M.map fins)) = .ok (M.map fun x => fins ((List.range classes.length).map
          (softmax classes.length (gbScore .multinomial prior lr stages x)))) ∧
        ∃ labels, g.predict (.ofMat (M.map fins)) = .ok labels ∧
          List.Forall₂ (fun x l => ∃ i,
            IsFirstMax ((List.range classes.length).map (gbScore .multinomial prior lr stages x)) i ∧
            classes[i]? = some l) M labels := by
  obtain ⟨g, h1, h2, h3, h4⟩ := convertGB_ok hst classes prior "deviance" lr
    (l := .multinomial classes.length) (by simp [mkLoss, hk]) hc.symm (by omega) hp (by omega)
    (by intro n h; cases h; rfl)
  refine ⟨g, h1, fun M hM hw => ?_⟩
  have hr := h4 M hM hw
  have hrect : Rect g.loss.cols (M.map fun x => (List.range (Loss.multinomial classes.length).cols).map
      (gbScore .multinomial prior lr stages x)) := by
    intro r hr
    obtain ⟨x, _, rfl⟩ := List.mem_map.1 hr
    rw [h3]; simp
  constructor
  · rw [proba_of_raw g (by rw [h3]; show 0 < classes.length; omega) (by simpa using hM) hrect hr, h3]
    simp only [List.map_map]
    congr 1
    apply List.map_congr_left
    intro x _
    simp only [Function.comp_apply, Loss.probaReal]
    congr 1
    apply List.map_congr_left
    intro c hcm
    apply softmax_congr (List.mem_range.1 hcm)
    intro j hj
    simp [Loss.cols, Loss.kind, hj]
  · obtain ⟨ls, e1, e2⟩ := C62_deviance_partial g classes.length (.inl h3) (by omega) (by rw [h2])
      _ _ (by simpa using hM) hrect hr
    refine ⟨ls, e1, ?_⟩
    rw [List.forall₂_map_left_iff, h2, h3] at e2
    exact e2

/-- **C77**, deviance, two classes: the logistic function of the raw score. -/
theorem C77_binomial (c0 c1 : C) (hcl : classes = [c0, c1]) (hc : cols = 1) (hp : prior.length = 2) :
    ∃ g, convertGB (stages := stages) (nf := nf) classes prior "deviance" lr = .ok g ∧
      ∀ M : List (List ℝ), M ≠ [] → Rect nf M →
        g.predictProba (.ofMat (M.map fins)) = .ok (M.map fun x =>
          fins [1 - sigmoid (gbScore .binomial prior lr stages x 0),
            sigmoid (gbScore .binomial prior lr stages x 0)]) ∧
        g.predict (.ofMat (M.map fins)) = .ok (M.map fun x =>
          if 0 < gbScore .binomial prior lr stages x 0 then c1 else c0) := by
  subst hcl
  obtain ⟨g, h1, h2, h3, h4⟩ := convertGB_ok hst [c0, c1] prior "deviance" lr
    (l := .binomial) (by simp [mkLoss]) hc.symm (by omega) hp (by simp) (by simp)
  refine ⟨g, h1, fun M hM hw => ?_⟩
  have hr := h4 M hM hw
  have hrect : Rect g.loss.cols (M.map fun x => (List.range Loss.binomial.cols).map
      (gbScore .binomial prior lr stages x)) := by
    intro r hr
    obtain ⟨x, _, rfl⟩ := List.mem_map.1 hr
    rw [h3]; simp
  constructor
  · rw [proba_of_raw g (by rw [h3]; exact Nat.one_pos) (by simpa using hM) hrect hr, h3]
    simp [Loss.probaReal, Loss.cols, List.range_succ, Function.comp_def, Loss.kind]
  · obtain ⟨ls, e1, e2⟩ := C62_deviance_partial g 2 (.inr ⟨h3, rfl⟩) (by omega) (by rw [h2]; rfl)
      _ _ (by simpa using hM) hrect hr
    rw [e1]
    congr 1
    rw [List.forall₂_map_left_iff, h2, h3] at e2
    refine forall₂_map (e2.imp ?_)
    rintro x l ⟨i, hi, hl⟩
    have hi' : i = if 0 < gbScore .binomial prior lr stages x 0 then 1 else 0 := by
      simpa [Decides, Loss.kind, Loss.cols] using hi
    rw [hi'] at hl
    split at hl <;> rename_i h0 <;> simp [h0] at hl ⊢ <;> exact hl.symm

/-- **C77**, exponential loss: the model converts, its scores are those of the fitted model, but the
probabilities are those of C16 (not a distribution for positive scores). -/
theorem C77_exponential_partial (c0 c1 : C) (hcl : classes = [c0, c1]) (hc : cols = 1) (hp : prior.length = 2) :
    ∃ g, convertGB (stages := stages) (nf := nf) classes prior "exponential" lr = .ok g ∧
      ∀ M : List (List ℝ), M ≠ [] → Rect nf M →
        g.rawPredict (.ofMat (M.map fins)) = .ok (M.map fun x =>
          fins [gbScore .exponential prior lr stages x 0]) ∧
        g.predict (.ofMat (M.map fins)) = .ok (M.map fun x =>
          if - Real.log 3 < gbScore .exponential prior lr stages x 0 then c1 else c0) := by
  subst hcl
  obtain ⟨g, h1, h2, h3, h4⟩ := convertGB_ok hst [c0, c1] prior "exponential" lr
    (l := .exponential) (by simp [mkLoss]) hc.symm (by omega) hp (by simp) (by simp)
  refine ⟨g, h1, fun M hM hw => ?_⟩
  have hr := h4 M hM hw
  have hr' : g.rawPredict (.ofMat (M.map fins)) =
      .ok ((M.map fun x => gbScore .exponential prior lr stages x 0).map fun y => [.fin y]) := by
    rw [hr]
    simp [Loss.cols, List.range_succ, Function.comp_def, Loss.kind]
  constructor
  · rw [hr']; simp [Function.comp_def]
  · rw [C62_exponential_predicts g h3 c0 c1 h2 _ _ (by simpa using hM) hr', List.map_map]
    rfl
end

/-- **C77**, refusals: a model with init "zero", with a prior estimator of another strategy, or with
another loss does not convert. -/
theorem C77_refused {F : Type} [Arith F] (classes : List C) (stages : List (List (SkArrays F)))
    (init : GBInit F) (loss : String) (lr : F) (nf : Nat)
    (h : init = .zero ∨ (∃ s p, init = .dummy s p ∧ s ≠ "prior") ∨ (loss ≠ "deviance" ∧ loss ≠ "exponential") ∨
      classes.length < 2 ∨ (loss = "exponential" ∧ classes.length ≠ 2)) :
    ∃ e, GB.ofFitted classes stages init loss lr nf = .error e := by
  unfold GB.ofFitted
  cases (stages.mapM fun st => st.mapM fun (a : SkArrays F) => do
    let t : Tree F C ← Tree.ofSklearn a.left a.right a.feature a.threshold a.value none []
    return t.predictReg) with
  | error e => exact ⟨e, rfl⟩
  | ok sts =>
    rw [py_ok_bind]
    cases init with
    | zero => exact ⟨_, rfl⟩
    | dummy s p =>
      by_cases hs : s = "prior"
      · subst hs
        have hl : mkLoss loss classes.length = .error .valueError := by
          rcases h with h | ⟨s, p', h, hn⟩ | ⟨h1, h2⟩ | h | ⟨rfl, h⟩
          · cases h
          · cases h; exact absurd rfl hn
          · simp [mkLoss, h1, h2]
          · have : ¬ 2 < classes.length := by omega
            have h' : classes.length ≠ 2 := by omega
            simp [mkLoss, this, h']
          · simp [mkLoss, h]
        simp [Dummy.ofFitted, hl]
      · simp [Dummy.ofFitted, hs]

/-! ### Non-vacuity -/

/-- One stage, one stump on feature 0. -/
noncomputable def gbStump : SkTree Ex :=
  .split [[.fin 0]] 0 (.fin 5) (.leaf [[.fin (-1)]]) (.leaf [[.fin 1]])

theorem gbStump_fitted : FittedStages [[gbStump]] 1 1 where
  nonempty := by simp
  width := by simp
  values := by
    intro st hst s hs v hv
    simp at hst; subst hst
    simp at hs; subst hs
    simp [gbStump, SkTree.values] at hv
    rcases hv with rfl | rfl | rfl
    · exact ⟨0, rfl⟩
    · exact ⟨-1, rfl⟩
    · exact ⟨1, rfl⟩
  features := by
    intro st hst s hs v hv
    simp at hst; subst hst
    simp at hs; subst hs
    simp [gbStump, SkTree.features] at hv
    omega

theorem gbStump_score : gbScore .binomial [1 / 2, 1 / 2] 2 [[gbStump]] [7] 0 = 2 := by
  have hv : gbStump.valueAt [7] = 1 := by
    have : ¬ (7 : ℝ) ≤ 5 := by norm_num
    simp [Spec.SkTree.valueAt, gbStump, SkTree.reach, this]
  have hcl : clampP (1 / 2) = 1 / 2 := by
    unfold clampP eps
    norm_num
  simp only [gbScore, boosted, List.length_singleton, Finset.sum_range_one, List.getD_cons_zero, hv,
    initScore, List.getD_cons_succ, hcl, logit]
  norm_num

/-- Learning rate 2, record 7: raw score 2, label "b". -/
example : ∃ g : GB Ex String, convertGB (stages := [[gbStump]]) (nf := 1) ["a", "b"] [1 / 2, 1 / 2]
    "deviance" 2 = .ok g ∧ g.predict (.ofMat [fins [7]]) = .ok ["b"] := by
  obtain ⟨g, h1, h2⟩ := C77_binomial gbStump_fitted ["a", "b"] [1 / 2, 1 / 2] 2 "a" "b" rfl rfl rfl
  refine ⟨g, h1, ?_⟩
  have := (h2 [[7]] (by simp) (by simp [Rect])).2
  rw [List.map_cons, List.map_nil] at this
  rw [this, List.map_cons, List.map_nil, gbStump_score]
  norm_num

end PurePredict
