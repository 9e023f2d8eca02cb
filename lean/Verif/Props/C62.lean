import Verif.Props.C16
import Mathlib.Analysis.Complex.ExponentialBounds
/-
C62: what gradient boosting predicts, against the decision rule of its loss.
-/
namespace PurePredict
open Spec
variable {C : Type}

/-- The decision of a loss on the raw scores of one record: the first largest score (multi-class
deviance), a positive score (binary deviance), a non-negative score (exponential). -/
def Spec.Decides : GBLoss → List ℝ → Nat → Prop
  | .multinomial, r, i => IsFirstMax r i
  | .binomial, r, i => i = if 0 < r.getD 0 0 then 1 else 0
  | .exponential, r, i => i = if 0 ≤ r.getD 0 0 then 1 else 0

/-- The claim: on raw scores of the right shape `predict` returns, for every record, the label the
loss decides for. -/
def GB.PredictsDecision (g : GB Ex C) : Prop :=
  ∀ (X : Arr Ex) (raw : List (List ℝ)), raw ≠ [] → Rect g.loss.cols raw →
    g.rawPredict X = .ok (raw.map fins) →
    ∃ labels, g.predict X = .ok labels ∧
      List.Forall₂ (fun r l => ∃ i, Decides g.loss.kind r i ∧ g.classes[i]? = some l) raw labels

/-- **C62** (part: deviance loss): `predict` follows the loss's decision rule. -/
theorem C62_deviance_partial (g : GB Ex C) (k : Nat)
    (hl : g.loss = .multinomial k ∨ (g.loss = .binomial ∧ k = 2)) (hk : 0 < k)
    (hcls : g.classes.length = k) : g.PredictsDecision := by
  intro X raw hne hw h
  obtain ⟨labels, h1, h2⟩ := C16_deviance_predict g k hl hk hcls X raw hne hw h
  refine ⟨labels, h1, h2.imp fun r l => ?_⟩
  rintro ⟨i, -, hi, hm, hb⟩
  refine ⟨i, ?_, hi⟩
  rcases hl with h | ⟨h, -⟩ <;> rw [h]
  · exact hm h
  · exact hb h

/-- What the exponential loss returns: the second label exactly when the raw score exceeds
`-ln 3`. -/
theorem C62_exponential_predicts (g : GB Ex C) (hl : g.loss = .exponential) (a b : C)
    (hc : g.classes = [a, b]) (X : Arr Ex) (raw : List ℝ) (hne : raw ≠ [])
    (h : g.rawPredict X = .ok (raw.map fun x => [.fin x])) :
    g.predict X = .ok (raw.map fun x => if - Real.log 3 < x then b else a) := by
  have hp := (C16_exponential_distribution_iff g hl X raw hne h).1
  simp only [GB.predict, hp, py_ok_bind]
  rw [mapM_map']
  apply mapM_ok_map
  intro x _
  rw [argmax_fins.2 (C16_exponential_decision x), py_ok_bind, hc]
  split <;> simp [pyGet]

/-- **C62**, exponential loss: `predict` follows the decision rule on a request exactly when no
record's raw score lies strictly between `-ln 3` and 0. -/
theorem C62_exponential_iff_partial (g : GB Ex C) (hl : g.loss = .exponential) (a b : C) (hab : a ≠ b)
    (hc : g.classes = [a, b]) (X : Arr Ex) (raw : List ℝ) (hne : raw ≠ [])
    (h : g.rawPredict X = .ok (raw.map fun x => [.fin x])) :
    (∃ labels, g.predict X = .ok labels ∧ List.Forall₂ (fun x l => ∃ i,
      Decides .exponential [x] i ∧ g.classes[i]? = some l) raw labels) ↔
    ∀ x ∈ raw, ¬ (- Real.log 3 < x ∧ x < 0) := by
  have hlog : 0 < Real.log 3 := Real.log_pos (by norm_num)
  rw [C62_exponential_predicts g hl a b hc X raw hne h]
  simp only [Except.ok.injEq, exists_eq_left', List.forall₂_map_right_iff, List.forall₂_same, hc,
    Decides, List.getD_cons_zero, exists_eq_left]
  apply forall₂_congr
  intro x _
  by_cases h0 : 0 ≤ x
  · have : - Real.log 3 < x := by linarith
    simp [h0, this]
  · by_cases h1 : - Real.log 3 < x
    · simp [h0, h1, hab, not_le.1 h0]
    · simp [h0, h1]

/-- The loss object's own `_raw_prediction_to_decision` does follow the rule; `predict` does not
call it. -/
theorem C62_raw_to_decision_exponential (raw : List ℝ) (hne : raw ≠ []) :
    Loss.exponential.rawToDecision (raw.map fun x => [(.fin x : Ex)]) =
      .ok (raw.map fun x => if 0 ≤ x then 1 else 0) := by
  have hw : Rect 1 (raw.map fun x => [(.fin x : Ex)]) := by
    intro r hr
    obtain ⟨x, _, rfl⟩ := List.mem_map.1 hr
    rfl
  obtain ⟨l, hl, hr⟩ := Loss.ravel_col (by simpa using hne) hw
  have : l = raw.map fun x => (.fin x : Ex) := by
    have h2 := congrArg (List.map fun r : List Ex => r.headD .nan) hl
    simp only [List.map_map] at h2
    have h3 : l.map ((fun r : List Ex => r.headD .nan) ∘ fun x => [x]) = l :=
      (List.map_congr_left fun _ _ => rfl).trans (List.map_id l)
    rw [h3] at h2
    rw [← h2]
    rfl
  subst this
  simp only [Loss.rawToDecision, width_ofMat (by simpa using hne) hw, py_ok_bind, hr, py_pure]
  simp [XR.ofInt_exact]

/-- In any arithmetic, for deviance, `predict` is exactly the loss's `_raw_prediction_to_decision`
followed by the lookup in `classes_`. -/
theorem C62_deviance_decision {F : Type} [Arith F] (g : GB F C) (hl : g.loss ≠ .exponential)
    (X : Arr F) : OkEq (g.predict X)
      (g.rawPredict X >>= g.loss.rawToDecision >>= fun ds =>
        ds.mapM fun (d : Nat) => pyGet g.classes (d : Int)) := by
  have : ∀ raw : List (List F), g.loss.rawToDecision raw = g.loss.rawToProba raw >>= fun P => P.mapM argmax := by
    intro raw
    revert hl
    cases g.loss <;> simp [Loss.rawToDecision]
  unfold GB.predict GB.predictProba
  intro c
  simp only [this, bind_ok_iff]
  constructor
  · rintro ⟨P, ⟨raw, h1, h2⟩, h3⟩
    obtain ⟨ds, h4, h5⟩ := bind_ok_iff.1 ((OkEq.mapM_comp _ _ P c).2 h3)
    exact ⟨ds, ⟨raw, h1, P, h2, h4⟩, h5⟩
  · rintro ⟨ds, ⟨raw, h1, P, h2, h4⟩, h5⟩
    exact ⟨P, ⟨raw, h1, h2⟩, (OkEq.mapM_comp _ _ P c).1 (bind_ok_iff.2 ⟨ds, h4, h5⟩)⟩

/-- **C62 is false** for the exponential loss: a fitted model and a record with raw score -1 that
is given the second label. -/
theorem C62_false : ∃ g : GB Ex String, g.loss = .exponential ∧ g.classes = ["a", "b"] ∧
    g.predict (.ofMat ([[5]].map fins)) = .ok ["b"] ∧
    g.rawPredict (.ofMat ([[5]].map fins)) = .ok ([[-1]].map fins) ∧ ¬ g.PredictsDecision := by
  let g : GB Ex String := ⟨["a", "b"], [[fun _ => .ok [.fin (-1)]]],
    fun _ => .ok [[.fin (1 / 2), .fin (1 / 2)]], .fin 1, 1, .exponential⟩
  have hret := C15_raw_scores_additive g [[5]]
    (by simp) (by intro r hr; simp at hr; subst hr; rfl) 1 rfl 2 (by simp [g])
    (fun _ _ => 1 / 2) (fun _ _ _ => -1) (by simp [g]) ⟨by simp [g, mat, List.range_succ], by
      intro st hst; simp [g] at hst; subst hst; rfl, by
      intro s hs c hc
      match s, hs, c, hc with
      | 0, _, 0, _ => simp [g, List.range_succ]⟩
  have hclamp : clampP (1 / 2) = 1 / 2 := by
    unfold clampP eps
    norm_num
  have hscore : boosted (initScore .exponential (fun _ => 1 / 2) 0) 1 1 (fun _ => -1) = -1 := by
    simp only [boosted, initScore, hclamp, logit]
    norm_num
  have hraw : g.rawPredict (.ofMat ([[5]].map fins)) = .ok ([[-1]].map fins) := by
    rw [hret]
    show Except.ok [[XR.fin (boosted (initScore .exponential (fun _ => 1 / 2) 0) 1 1
      (fun _ => -1))]] = _
    rw [hscore]
    rfl
  have hlog : (1 : ℝ) < Real.log 3 := by
    rw [Real.lt_log_iff_exp_lt (by norm_num)]
    exact lt_trans Real.exp_one_lt_d9 (by norm_num)
  have hp : g.predict (.ofMat ([[5]].map fins)) = .ok ["b"] := by
    rw [C62_exponential_predicts g rfl "a" "b" rfl _ [-1] (by simp) hraw]
    simp [hlog]
  refine ⟨g, rfl, rfl, hp, hraw, fun hD => ?_⟩
  obtain ⟨labels, h1, h2⟩ := hD _ [[-1]] (by simp) (by intro r hr; simp at hr; subst hr; rfl) hraw
  rw [hp] at h1
  cases h1
  obtain ⟨i, hi, h3⟩ := (List.forall₂_cons.1 h2).1
  have : i = 0 := by
    have : i = if (0 : ℝ) ≤ -1 then 1 else 0 := hi
    rw [this]; norm_num
  subst this
  simp [g] at h3

/-- Non-vacuity of the deviance theorem. -/
example : (⟨["a", "b", "c"], [], fun _ => .error .typeError, .fin 1, 1, .multinomial 3⟩ :
    GB Ex String).PredictsDecision :=
  C62_deviance_partial _ 3 (.inl rfl) (by norm_num) rfl

end PurePredict
