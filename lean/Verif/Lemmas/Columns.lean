import Verif.Lemmas.Records
import Verif.Lemmas.Mat
/-
The number of entries in every row of probabilities.
-/
namespace PurePredict
variable {F C : Type} [Arith F]

/-- every row that `p` returns has `k` entries -/
def WideAs (p : Arr F → Py (List (List F))) (k : Nat) : Prop := ∀ X P, p X = .ok P → Rect k P

theorem rect_mapM {α : Type} {l : List α} {g : α → Py (List F)} {P : List (List F)} {k : Nat} (h : l.mapM g = .ok P)
    (hg : ∀ a ∈ l, ∀ r, g a = .ok r → r.length = k) : Rect k P := by
  intro r hr
  obtain ⟨a, ha, h⟩ := mapM_mem h hr
  exact hg a ha r h

theorem rect_mapM_mapM {l : List (List F)} {g : List F → F → Py F} {P : List (List F)} {k : Nat} (hl : Rect k l)
    (h : l.mapM (fun a => a.mapM (g a)) = .ok P) : Rect k P :=
  rect_mapM h fun a ha r hr => by rw [mapM_length hr, hl a ha]

theorem rect_apply2d {l P : List (List F)} {g : F → Py F} {k : Nat} (hl : Rect k l)
    (h : apply2d (.ofMat l) g = .ok P) : Rect k P := by
  unfold apply2d at h
  simp only [issparse_ofMat, Bool.false_eq_true, if_false, rows_ofMat, py_ok_bind] at h
  rw [mapM_map'] at h
  exact rect_mapM_mapM (g := fun _ => g) hl h

theorem wide_log {p : Arr F → Py (List (List F))} {k : Nat} (h : WideAs p k) :
    WideAs (fun X => do (← p X).mapM fun a => a.mapM safeLog) k := by
  intro X P hP
  obtain ⟨Q, hQ, hP⟩ := bind_ok_iff.1 hP
  exact rect_mapM_mapM (g := fun _ => safeLog) (h X Q hQ) hP

theorem wide_apply {p : Arr F → Py (List (List F))} {k : Nat} (h : WideAs p k) :
    WideAs (fun X => do apply2d (.ofMat (← p X)) safeLog) k := by
  intro X P hP
  obtain ⟨Q, hQ, hP⟩ := bind_ok_iff.1 hP
  exact rect_apply2d (h X Q hQ) hP

/-! ### Linear models -/

theorem linear_scores {m : Linear F C} {b : List F} (hb : m.intercept = some b) {X : Arr F} {s : Scores F}
    (h : m.decisionFunction X = .ok s) :
    (∃ l, s = .flat l ∧ min m.coef.length b.length = 1) ∨
    ∃ M, s = .mat M ∧ Rect (min m.coef.length b.length) M ∧ min m.coef.length b.length ≠ 1 := by
  unfold Linear.decisionFunction at h
  obtain ⟨Y, -, h⟩ := bind_ok_iff.1 h
  obtain ⟨-, -, h⟩ := bind_ok_iff.1 h
  obtain ⟨rs, -, h⟩ := bind_ok_iff.1 h
  obtain ⟨M, hM, h⟩ := bind_ok_iff.1 h
  have hR : Rect (min m.coef.length b.length) M := rect_mapM hM fun a _ r hr => by
    unfold Linear.rowScores at hr
    obtain ⟨d, hd, hr⟩ := bind_ok_iff.1 hr
    rw [hb] at hr
    cases hr
    rw [List.length_zipWith, mapM_length hd]
  obtain ⟨w, hw, h⟩ := bind_ok_iff.1 h
  have hw' : w = some (min m.coef.length b.length) := by
    cases M with
    | nil => cases hw
    | cons r M => rw [width_ofMat (by simp) hR] at hw; cases hw; rfl
  subst hw'
  by_cases h1 : min m.coef.length b.length = 1
  · rw [h1] at h
    obtain ⟨l, -, h⟩ := bind_ok_iff.1 h
    cases h
    exact .inl ⟨l, rfl, h1⟩
  · refine .inr ⟨M, ?_, hR, h1⟩
    split at h
    · rename_i e; simp only [Option.some.injEq] at e; exact absurd e h1
    · cases h; rfl

theorem wide_lr {m : Linear F C} {b : List F} (hb : m.intercept = some b) :
    WideAs m.predictProbaLr (if min m.coef.length b.length = 1 then 2 else min m.coef.length b.length) := by
  intro X P h
  unfold Linear.predictProbaLr at h
  obtain ⟨s, hs, h⟩ := bind_ok_iff.1 h
  rcases linear_scores hb hs with ⟨l, rfl, h1⟩ | ⟨M, rfl, hR, h1⟩
  · rw [if_pos h1]
    refine rect_mapM h fun a _ r hr => ?_
    obtain ⟨x, -, hr⟩ := bind_ok_iff.1 hr
    cases hr; rfl
  · rw [if_neg h1]
    obtain ⟨Q, hQ, h⟩ := bind_ok_iff.1 h
    exact rect_mapM_mapM (g := fun a b => if !(pySum a ==ₚ ofInt 0) then b /ₚ pySum a else .ok Arith.nan)
      (rect_mapM_mapM (g := fun _ => expit) hR hQ) h

theorem sfmax_length {a r : List F} (h : sfmax a = .ok r) : r.length = a.length := by
  unfold sfmax at h
  obtain ⟨e, he, h⟩ := bind_ok_iff.1 h
  rw [mapM_length h, mapM_length he]

theorem wide_softprob {m : Xgb F C} (h : m.objective = .multiSoftprob) : WideAs m.predictProba m.nClasses := by
  intro X P hP
  unfold Xgb.predictProba at hP
  obtain ⟨Y, -, hP⟩ := bind_ok_iff.1 hP
  rw [h] at hP
  obtain ⟨preds, -, hP⟩ := bind_ok_iff.1 hP
  obtain ⟨n, -, hP⟩ := bind_ok_iff.1 hP
  refine rect_mapM hP fun i _ r hr => ?_
  obtain ⟨v, hv, hr⟩ := bind_ok_iff.1 hr
  rw [sfmax_length hr, mapM_length hv, List.length_range]

theorem wide_booster {m : Xgb F C} (h : m.objective = .binaryLogistic) : WideAs m.predictProba 2 := by
  intro X P hP
  unfold Xgb.predictProba at hP
  obtain ⟨Y, -, hP⟩ := bind_ok_iff.1 hP
  rw [h] at hP
  obtain ⟨preds, -, hP⟩ := bind_ok_iff.1 hP
  obtain ⟨out, -, hP⟩ := bind_ok_iff.1 hP
  cases hP
  intro r hr
  obtain ⟨x, -, rfl⟩ := List.mem_map.1 hr
  rfl

theorem wide_logistic {m : Linear F C} {b : List F} (hb : m.intercept = some b) :
    WideAs m.predictProba (if min m.coef.length b.length = 1 then 2 else min m.coef.length b.length) := by
  intro X P h
  unfold Linear.predictProba at h
  obtain ⟨o, -, h⟩ := bind_ok_iff.1 h
  cases o with
  | true => exact wide_lr hb X P h
  | false =>
    obtain ⟨s, hs, h⟩ := bind_ok_iff.1 h
    rcases linear_scores hb hs with ⟨l, rfl, h1⟩ | ⟨M, rfl, hR, h1⟩
    · rw [if_pos h1]
      exact rect_mapM h fun a _ r hr => by rw [sfmax_length hr]; rfl
    · rw [if_neg h1]
      exact rect_mapM h fun a ha r hr => by rw [sfmax_length hr, hR a ha]

theorem wide_sgd {m : Linear F C} {b : List F} (hb : m.intercept = some b) :
    WideAs m.sgdPredictProba (if min m.coef.length b.length = 1 then 2 else min m.coef.length b.length) := by
  intro X P h
  unfold Linear.sgdPredictProba Linear.sgdPredictProba_ at h
  obtain ⟨-, -, h⟩ := bind_ok_iff.1 h
  obtain ⟨l, -, h⟩ := bind_ok_iff.1 h
  split at h
  · exact wide_lr hb X P h
  · cases h

/-! ### The other single classifiers -/

theorem wide_tree {t : Tree F C} {k : Nat} (ht : ∀ v ∈ t.value, v.length = k) : WideAs t.predictProba k := by
  intro X P h
  obtain ⟨Y, -, h⟩ := bind_ok_iff.1 h
  obtain ⟨rs, -, h⟩ := bind_ok_iff.1 h
  obtain ⟨ls, -, h⟩ := bind_ok_iff.1 h
  refine rect_mapM h fun a _ r hr => ?_
  obtain ⟨v, hv, hr⟩ := bind_ok_iff.1 hr
  rw [mapM_length hr, ht v (pyGet_ok_mem hv)]

theorem wide_gaussian (m : GaussianNB F C) : WideAs m.jll m.classes.length := by
  intro X P h
  obtain ⟨cols, hc, h⟩ := bind_ok_iff.1 h
  rw [transpose_ofMat] at h
  cases h
  have : cols.length = m.classes.length := by rw [mapM_length hc]; simp
  rw [← this]
  exact zipStar_rect cols

theorem wide_multinomial (m : DiscreteNB F C) : WideAs m.jllMultinomial m.classes.length := by
  intro X P h
  obtain ⟨rs, -, h⟩ := bind_ok_iff.1 h
  refine rect_mapM h fun a _ r hr => ?_
  obtain ⟨d, -, hr⟩ := bind_ok_iff.1 hr
  rw [mapM_length hr, List.length_range]

theorem wide_complement (m : DiscreteNB F C) (hm : m.featureLogProb.length = m.classes.length) :
    WideAs m.jllComplement m.classes.length := by
  intro X P h
  obtain ⟨rs, -, h⟩ := bind_ok_iff.1 h
  obtain ⟨J, hJ, h⟩ := bind_ok_iff.1 h
  split at h
  · rename_i h1
    rw [beq_iff_eq] at h1
    refine rect_mapM h fun a _ r hr => ?_
    obtain ⟨x, -, hr⟩ := bind_ok_iff.1 hr
    obtain ⟨y, -, hr⟩ := bind_ok_iff.1 hr
    cases hr
    rw [h1]; rfl
  · cases h
    exact rect_mapM hJ fun a _ r hr => by rw [mapM_length hr, hm]

theorem wide_nb {jll : Arr F → Py (List (List F))} {k : Nat} (h : WideAs jll k) :
    WideAs (nbPredictLogProba jll) k ∧ WideAs (nbPredictProba jll) k := by
  have hl : WideAs (nbPredictLogProba jll) k := by
    intro X P hP
    obtain ⟨Y, -, hP⟩ := bind_ok_iff.1 hP
    obtain ⟨J, hJ, hP⟩ := bind_ok_iff.1 hP
    refine rect_mapM hP fun a ha r hr => ?_
    unfold logNormalize at hr
    obtain ⟨x, -, hr⟩ := bind_ok_iff.1 hr
    obtain ⟨y, -, hr⟩ := bind_ok_iff.1 hr
    cases hr
    rw [List.length_map, h Y J hJ a ha]
  refine ⟨hl, fun X P hP => ?_⟩
  obtain ⟨L, hL, hP⟩ := bind_ok_iff.1 hP
  exact rect_mapM_mapM (g := fun _ => safeExp) (hl X L hL) hP

theorem wide_dummy (d : Dummy F) : WideAs d.predictProba d.classPrior.length := by
  intro X P h
  obtain ⟨n, -, h⟩ := bind_ok_iff.1 h
  cases h
  intro r hr
  rw [List.eq_of_mem_replicate hr]

/-! ### Ensembles and boosting -/

theorem rect_operate2d {A B R : List (List F)} {f : F → F → F} {k : Nat} (hA : Rect k A) (hB : Rect k B)
    (h : operate2d (.ofMat A) (.ofMat B) f = .ok R) : Rect k R := by
  unfold operate2d at h
  simp only [issparse_ofMat, Bool.or_self, Bool.false_eq_true, if_false] at h
  obtain ⟨sa, ha, h⟩ := bind_ok_iff.1 h
  obtain ⟨sb, hb, h⟩ := bind_ok_iff.1 h
  split at h
  · cases h
  simp only [rows_ofMat, py_ok_bind] at h
  refine rect_mapM h fun p hp r hr => ?_
  have h1 := (List.of_mem_zip (show (p.1, p.2) ∈ _ from hp))
  obtain ⟨a, ha', h1a⟩ := List.mem_map.1 h1.1
  obtain ⟨b, hb', h1b⟩ := List.mem_map.1 h1.2
  rw [← h1a, ← h1b] at hr
  cases hr
  rw [List.length_zipWith, hA a ha', hB b hb', Nat.min_self]

theorem rect_accumulate {b : Bagging F C} {k : Nat} {X : Arr F} (hm : ∀ i P, b.memberProba X i = .ok P → Rect k P)
    {is : List Nat} {p0 Q : List (List F)} (hQ : b.accumulate X is p0 = .ok Q) (hp0 : Rect k p0) : Rect k Q := by
  induction is generalizing p0 with
  | nil => cases hQ; exact hp0
  | cons i is ih =>
    rw [Bagging.accumulate] at hQ
    obtain ⟨p, hp, hQ⟩ := bind_ok_iff.1 hQ
    obtain ⟨s, hs, hQ⟩ := bind_ok_iff.1 hQ
    exact ih hQ (rect_operate2d hp0 (hm i p hp) hs)

theorem wide_bagging {b : Bagging F C} {k : Nat} (hb : ∀ e ∈ b.estimators, WideAs e.predictProba k) :
    WideAs b.predictProba k := by
  have hm : ∀ X i P, b.memberProba X i = .ok P → Rect k P := by
    intro X i P h
    obtain ⟨e, he, h⟩ := bind_ok_iff.1 h
    obtain ⟨fs, -, h⟩ := bind_ok_iff.1 h
    obtain ⟨Y, -, h⟩ := bind_ok_iff.1 h
    exact hb e (pyGet_ok_mem he) Y P h
  intro X P h
  obtain ⟨p0, h0, h⟩ := bind_ok_iff.1 h
  obtain ⟨Q, hQ, h⟩ := bind_ok_iff.1 h
  exact rect_apply2d (rect_accumulate (hm X) hQ (hm X 0 p0 h0)) h

/-- number of classes of a loss -/
def Loss.outputs : Loss → Nat
  | .multinomial n => n
  | _ => 2

theorem rect_rawToProba {l : Loss} {raw P : List (List F)} (h : l.rawToProba raw = .ok P) : Rect l.outputs P := by
  cases l with
  | multinomial n =>
    obtain ⟨s, -, h⟩ := bind_ok_iff.1 h
    obtain ⟨-, -, h⟩ := bind_ok_iff.1 h
    obtain ⟨lse, -, h⟩ := bind_ok_iff.1 h
    obtain ⟨lse', -, h⟩ := bind_ok_iff.1 h
    refine rect_mapM h fun p _ r hr => ?_
    rw [mapM_length hr, List.length_range]; rfl
  | binomial =>
    obtain ⟨w, -, h⟩ := bind_ok_iff.1 h
    split at h
    · obtain ⟨x, -, h⟩ := bind_ok_iff.1 h
      obtain ⟨y, -, h⟩ := bind_ok_iff.1 h
      rw [transpose_ofMat] at h
      cases h
      exact zipStar_rect _
    · cases h
  | exponential =>
    obtain ⟨w, -, h⟩ := bind_ok_iff.1 h
    split at h
    · obtain ⟨x, -, h⟩ := bind_ok_iff.1 h
      obtain ⟨y, -, h⟩ := bind_ok_iff.1 h
      rw [transpose_ofMat] at h
      cases h
      exact zipStar_rect _
    · cases h

theorem wide_gb (g : GB F C) : WideAs g.predictProba g.loss.outputs := by
  intro X P h
  obtain ⟨R, -, h⟩ := bind_ok_iff.1 h
  exact rect_rawToProba h

end PurePredict
