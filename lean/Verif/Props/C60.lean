import Verif.Lemmas.LinearError
import Verif.Props.C04
/-
C60: accuracy of linear scores in floating point.
-/
namespace PurePredict
open Spec Linear
variable {C : Type} {fp : FP} {u η : ℝ}

/-- **C60**, any accurate arithmetic, multi-class: whatever the representation of the request, every
finite score is within `scoreErr` of the exact inner product plus intercept. -/
theorem C60_scores (hs : fp.Sound) (ha : fp.Accurate u η) (m : Linear (XR fp) C) (w k : Nat)
    (W : List (List ℝ)) (b : List ℝ) (h : m.IsReal w k W b) (hk : k ≠ 1) (X : Arr (XR fp))
    (R : List (List ℝ)) (hX : Denotes (.fin 0) X w (R.map fun x => x.map XR.fin))
    (S : Scores (XR fp)) (hS : m.decisionFunction X = .ok S) :
    ∃ M, S = .mat M ∧ List.Forall₂ (fun x s => s.length = k ∧ ∀ c < k, ∀ v, s[c]? = some (.fin v) →
      |v - linScore w W b x c| ≤ scoreErr u η w W b x c) R M := by
  obtain ⟨rs, hacc, hrs⟩ := Denotes.accepts h hX
  rw [decision_eq hacc h.intercept] at hS
  obtain ⟨sc, hsc, hS'⟩ := bind_ok_iff.1 hS
  clear hS
  have hmin : min m.coef.length (b.map (XR.fin (fp := fp))).length = k := by
    rw [h.coef]; simp [h.rows, h.len]
  rw [hmin, if_neg hk] at hS'
  refine ⟨sc, (Except.ok.inj hS').symm, ?_⟩
  have hF := mapM_ok_iff.1 hsc
  clear hsc hS' hacc hX
  induction hrs generalizing sc with
  | nil => cases hF; exact .nil
  | cons h1 _ ih =>
    cases hF with
    | cons h2 h3 => exact .cons (rowScores_error hs ha h h1 h2) (ih _ h3)

/-- **C60**, any accurate arithmetic, binary. -/
theorem C60_scores_binary (hs : fp.Sound) (ha : fp.Accurate u η) (m : Linear (XR fp) C) (w : Nat)
    (W : List (List ℝ)) (b : List ℝ) (h : m.IsReal w 1 W b) (X : Arr (XR fp))
    (R : List (List ℝ)) (hX : Denotes (.fin 0) X w (R.map fun x => x.map XR.fin))
    (S : Scores (XR fp)) (hS : m.decisionFunction X = .ok S) :
    ∃ l, S = .flat l ∧ List.Forall₂ (fun x s => ∀ v, s = .fin v →
      |v - linScore w W b x 0| ≤ scoreErr u η w W b x 0) R l := by
  obtain ⟨rs, hacc, hrs⟩ := Denotes.accepts h hX
  rw [decision_eq hacc h.intercept] at hS
  obtain ⟨sc, hsc, hS'⟩ := bind_ok_iff.1 hS
  clear hS
  have hmin : min m.coef.length (b.map (XR.fin (fp := fp))).length = 1 := by
    rw [h.coef]; simp [h.rows, h.len]
  rw [hmin, if_pos rfl] at hS'
  refine ⟨_, (Except.ok.inj hS').symm, ?_⟩
  have hF := mapM_ok_iff.1 hsc
  clear hsc hS' hacc hX
  induction hrs generalizing sc with
  | nil => cases hF; exact .nil
  | cons h1 _ ih =>
    cases hF with
    | @cons _ s _ _ h2 h3 =>
      obtain ⟨hl, he⟩ := rowScores_error hs ha h h1 h2
      match s, hl with
      | [y], _ =>
        refine .cons ?_ (ih _ h3)
        intro v hv
        exact he 0 (by norm_num) v (by simp [hv])

/-- **C60**, IEEE double precision, multi-class. -/
theorem C60_double (m : Linear (XR FP.binary64) C) (w k : Nat) (hw : w + 1 ≤ 2 ^ 52)
    (W : List (List ℝ)) (b : List ℝ) (h : m.IsReal w k W b) (hk : k ≠ 1) (X : Arr (XR FP.binary64))
    (R : List (List ℝ)) (hX : Denotes (.fin 0) X w (R.map fun x => x.map XR.fin))
    (S : Scores (XR FP.binary64)) (hS : m.decisionFunction X = .ok S) :
    ∃ M, S = .mat M ∧ List.Forall₂ (fun x s => s.length = k ∧ ∀ c < k, ∀ v, s[c]? = some (.fin v) →
      |v - linScore w W b x c| ≤ scoreErr64 w W b x c) R M := by
  obtain ⟨M, hM, hF⟩ := C60_scores FP.binary64_sound FP.binary64_accurate m w k W b h hk X R hX S hS
  exact ⟨M, hM, hF.imp fun x s hh =>
    ⟨hh.1, fun c hc v hv => (hh.2 c hc v hv).trans (scoreErr_le_64 hw W b x c)⟩⟩

/-- **C60**, IEEE double precision, binary. -/
theorem C60_double_binary (m : Linear (XR FP.binary64) C) (w : Nat) (hw : w + 1 ≤ 2 ^ 52)
    (W : List (List ℝ)) (b : List ℝ) (h : m.IsReal w 1 W b) (X : Arr (XR FP.binary64))
    (R : List (List ℝ)) (hX : Denotes (.fin 0) X w (R.map fun x => x.map XR.fin))
    (S : Scores (XR FP.binary64)) (hS : m.decisionFunction X = .ok S) :
    ∃ l, S = .flat l ∧ List.Forall₂ (fun x s => ∀ v, s = .fin v →
      |v - linScore w W b x 0| ≤ scoreErr64 w W b x 0) R l := by
  obtain ⟨M, hM, hF⟩ := C60_scores_binary FP.binary64_sound FP.binary64_accurate m w W b h X R hX S hS
  exact ⟨M, hM, hF.imp fun x s hh v hv => (hh v hv).trans (scoreErr_le_64 hw W b x 0)⟩

/-- **C60**, IEEE double precision: when the exact score of class `c` exceeds that of every other
class by more than the two error bounds and the computed scores are finite, `predict` returns class
`c`. -/
theorem C60_label (m : Linear (XR FP.binary64) C) (w k : Nat) (hw : w + 1 ≤ 2 ^ 52)
    (W : List (List ℝ)) (b : List ℝ) (h : m.IsReal w k W b) (hk : k ≠ 1) (X : Arr (XR FP.binary64))
    (R : List (List ℝ)) (hX : Denotes (.fin 0) X w (R.map fun x => x.map XR.fin))
    (V : List (List ℝ)) (hS : m.decisionFunction X = .ok (.mat (V.map fun r => r.map XR.fin)))
    (ls : List C) (hp : m.predict X = .ok ls) :
    List.Forall₂ (fun x l => ∀ c < k, (∀ j < k, j ≠ c →
        linScore w W b x j + scoreErr64 w W b x j < linScore w W b x c - scoreErr64 w W b x c) →
      m.classes[c]? = some l) R ls := by
  obtain ⟨M, hM, hF⟩ := C60_double m w k hw W b h hk X R hX _ hS
  have hM := Scores.mat.inj hM
  subst hM
  have hP := (C04_multiclass_rounded _ m X _ hS (by
    intro s hs hn
    obtain ⟨r, _, rfl⟩ := List.mem_map.1 hs
    simp at hn) ls).1 hp
  rw [List.forall₂_map_right_iff] at hF
  rw [List.forall₂_map_left_iff] at hP
  clear hS hp hX hM
  induction hF generalizing ls with
  | nil => cases hP; exact .nil
  | @cons x v R V h1 _ ih =>
    cases hP with
    | cons h2 h3 =>
      refine .cons ?_ (ih _ h3)
      intro c hc hmar
      obtain ⟨i, hi, hl⟩ := h2
      obtain ⟨hlen, herr⟩ := h1
      rw [List.length_map] at hlen
      have hbound : ∀ j (hj : j < k),
          |v[j]'(hlen ▸ hj) - linScore w W b x j| ≤ scoreErr64 w W b x j := by
        intro j hj
        refine herr j hj _ ?_
        simp [List.getElem?_eq_getElem (hlen ▸ hj : j < v.length)]
      obtain ⟨hik', hmax, -⟩ := hi
      have hik : i < v.length := by simpa using hik'
      by_cases hic : i = c
      · rw [← hic]; exact hl
      · exfalso
        have hcl : c < v.length := by omega
        have h4 := hmax c (by simpa using hcl)
        simp only [List.getElem_map, XR.toE, EReal.coe_le_coe_iff] at h4
        have h5 := abs_le.1 (hbound i (by omega))
        have h6 := abs_le.1 (hbound c hc)
        have h7 := hmar i (by omega) hic
        linarith [h5.2, h6.1]

/-- **C60**, IEEE double precision, binary: an exact score further from zero than the error bound
decides the label. -/
theorem C60_label_binary (m : Linear (XR FP.binary64) C) (w : Nat) (hw : w + 1 ≤ 2 ^ 52)
    (W : List (List ℝ)) (b : List ℝ) (h : m.IsReal w 1 W b) (c0 c1 : C) (hc : m.classes = [c0, c1])
    (X : Arr (XR FP.binary64)) (R : List (List ℝ))
    (hX : Denotes (.fin 0) X w (R.map fun x => x.map XR.fin))
    (V : List ℝ) (hS : m.decisionFunction X = .ok (.flat (V.map XR.fin)))
    (ls : List C) (hp : m.predict X = .ok ls) :
    List.Forall₂ (fun x l =>
      (scoreErr64 w W b x 0 < linScore w W b x 0 → l = c1) ∧
      (linScore w W b x 0 < -scoreErr64 w W b x 0 → l = c0)) R ls := by
  obtain ⟨M, hM, hF⟩ := C60_double_binary m w hw W b h X R hX _ hS
  have hM := Scores.flat.inj hM
  subst hM
  simp only [Linear.predict, hS, py_ok_bind, mapM_map'] at hp
  have hP := mapM_ok_iff.1 hp
  rw [List.forall₂_map_right_iff] at hF
  clear hS hp hX hM
  induction hF generalizing ls with
  | nil => cases hP; exact .nil
  | @cons x v R V h1 _ ih =>
    cases hP with
    | cons h2 h3 =>
      refine .cons ?_ (ih _ h3)
      have h5 := abs_le.1 (h1 v rfl)
      rw [hc] at h2
      constructor
      · intro hpos
        have : (0 : ℝ) < v := by linarith [h5.1]
        simpa [XR.ofInt_zero FP.binary64_sound, this, pyGet] using h2.symm
      · intro hneg
        have : ¬ (0 : ℝ) < v := by linarith [h5.2]
        simpa [XR.ofInt_zero FP.binary64_sound, this, pyGet] using h2.symm

/-- **C60**, IEEE double precision, multi-class, with no condition on computed values: a request
whose terms stay below `2¹⁰⁰⁰` is answered, the scores are finite and within the bound, and a class
whose exact score leads by more than the bounds is the one returned. -/
theorem C60_total (m : Linear (XR FP.binary64) C) (w k : Nat) (hw : w + 1 ≤ 2 ^ 52)
    (W : List (List ℝ)) (b : List ℝ) (h : m.IsReal w k W b) (hk : k ≠ 1) (hc : m.classes.length = k)
    (X : Arr (XR FP.binary64)) (R : List (List ℝ))
    (hX : Denotes (.fin 0) X w (R.map fun x => x.map XR.fin)) (hmod : Moderate w k W b R) :
    ∃ V ls, m.decisionFunction X = .ok (.mat (V.map fun r => r.map XR.fin)) ∧
      List.Forall₂ (fun (x v : List ℝ) => v.length = k ∧ ∀ c < k,
        |v.getD c 0 - linScore w W b x c| ≤ scoreErr64 w W b x c) R V ∧
      m.predict X = .ok ls ∧
      List.Forall₂ (fun x l => ∀ c < k, (∀ j < k, j ≠ c →
          linScore w W b x j + scoreErr64 w W b x j < linScore w W b x c - scoreErr64 w W b x c) →
        m.classes[c]? = some l) R ls := by
  obtain ⟨rs, hacc, hrs⟩ := Denotes.accepts h hX
  obtain ⟨V, hV⟩ := scores_finite hw h hmod hrs
  have hmin : min m.coef.length (b.map (XR.fin (fp := FP.binary64))).length = k := by
    rw [h.coef]; simp [h.rows, h.len]
  have hS : m.decisionFunction X = .ok (.mat (V.map fun r => r.map XR.fin)) := by
    rw [decision_eq hacc h.intercept, hV, py_ok_bind, hmin, if_neg hk]
  obtain ⟨M, hM, hF⟩ := C60_double m w k hw W b h hk X R hX _ hS
  have hM := Scores.mat.inj hM
  subst hM
  rw [List.forall₂_map_right_iff] at hF
  have hlen : ∀ v ∈ V, v.length = k := by
    intro v hv
    clear hS hV hM hX hmod hrs
    induction hF with
    | nil => simp at hv
    | cons h1 _ ih =>
      rcases List.mem_cons.1 hv with rfl | hv
      · simpa using h1.1
      · exact ih hv
  have hp : ∃ ls, m.predict X = .ok ls := by
    simp only [Linear.predict, hS, py_ok_bind]
    apply mapM_total
    intro s hs
    obtain ⟨v, hv, rfl⟩ := List.mem_map.1 hs
    have hpos := h.pos
    have hvl := hlen v hv
    obtain ⟨i, hi⟩ := argmax_total (l := v.map (XR.fin (fp := FP.binary64))) (by
      intro e
      rw [List.map_eq_nil_iff] at e
      rw [e] at hvl
      simp at hvl
      omega)
    have hlt := argmax_lt hi
    rw [List.length_map] at hlt
    exact ⟨_, by rw [hi, py_ok_bind]; exact pyGet_lt (by omega)⟩
  obtain ⟨ls, hls⟩ := hp
  refine ⟨V, ls, hS, ?_, hls, C60_label m w k hw W b h hk X R hX V hS ls hls⟩
  refine hF.imp ?_
  intro x v hv
  have hvk : v.length = k := by simpa using hv.1
  refine ⟨hvk, fun c hcc => hv.2 c hcc _ ?_⟩
  simp [List.getElem?_eq_getElem (show c < v.length by omega)]

/-- **C60**, IEEE double precision, binary, with no condition on computed values. -/
theorem C60_total_binary (m : Linear (XR FP.binary64) C) (w : Nat) (hw : w + 1 ≤ 2 ^ 52)
    (W : List (List ℝ)) (b : List ℝ) (h : m.IsReal w 1 W b) (c0 c1 : C) (hc : m.classes = [c0, c1])
    (X : Arr (XR FP.binary64)) (R : List (List ℝ))
    (hX : Denotes (.fin 0) X w (R.map fun x => x.map XR.fin)) (hmod : Moderate w 1 W b R) :
    ∃ V ls, m.decisionFunction X = .ok (.flat (V.map XR.fin)) ∧
      List.Forall₂ (fun (x : List ℝ) (v : ℝ) =>
        |v - linScore w W b x 0| ≤ scoreErr64 w W b x 0) R V ∧
      m.predict X = .ok ls ∧
      List.Forall₂ (fun x l =>
        (scoreErr64 w W b x 0 < linScore w W b x 0 → l = c1) ∧
        (linScore w W b x 0 < -scoreErr64 w W b x 0 → l = c0)) R ls := by
  obtain ⟨rs, hacc, hrs⟩ := Denotes.accepts h hX
  obtain ⟨V0, hV⟩ := scores_finite hw h hmod hrs
  have hmin : min m.coef.length (b.map (XR.fin (fp := FP.binary64))).length = 1 := by
    rw [h.coef]; simp [h.rows, h.len]
  obtain ⟨V, hVV⟩ : ∃ V : List ℝ, (V0.map fun r => r.map (XR.fin (fp := FP.binary64))).filterMap
      (fun r => r[0]?) = V.map XR.fin := by
    refine ⟨V0.filterMap fun r => r[0]?, ?_⟩
    rw [List.filterMap_map, List.map_filterMap]
    congr 1
    funext r
    simp
  have hS : m.decisionFunction X = .ok (.flat (V.map XR.fin)) := by
    rw [decision_eq hacc h.intercept, hV, py_ok_bind, hmin, if_pos rfl, hVV]
  obtain ⟨M, hM, hF⟩ := C60_double_binary m w hw W b h X R hX _ hS
  have hM := Scores.flat.inj hM
  subst hM
  rw [List.forall₂_map_right_iff] at hF
  have hp : ∃ ls, m.predict X = .ok ls := by
    simp only [Linear.predict, hS, py_ok_bind]
    apply mapM_total
    intro s hs
    rw [hc]
    by_cases hpos : (ofInt 0 : XR FP.binary64) <ₚ s
    · exact ⟨c1, by rw [if_pos hpos]; rfl⟩
    · exact ⟨c0, by rw [if_neg hpos]; rfl⟩
  obtain ⟨ls, hls⟩ := hp
  exact ⟨V, ls, hS, hF.imp fun x v hv => hv v rfl, hls,
    C60_label_binary m w hw W b h c0 c1 hc X R hX V hS ls hls⟩

/-- Non-vacuity: a two-feature, two-column model on a sparse request; the class with the larger
exact score is predicted in double precision. -/
example : ∃ (V : List (List ℝ)) (ls : List String), (⟨[[.fin 1, .fin 0], [.fin 0, .fin 1]], ["a", "b"], some [.fin 0, .fin 0],
      none, none, none⟩ : Linear (XR FP.binary64) String).decisionFunction
        (.sparse [[(1, .fin 1)]] (some 2) .float) = .ok (.mat (V.map fun r => r.map XR.fin)) ∧
    (⟨[[.fin 1, .fin 0], [.fin 0, .fin 1]], ["a", "b"], some [.fin 0, .fin 0],
      none, none, none⟩ : Linear (XR FP.binary64) String).predict
        (.sparse [[(1, .fin 1)]] (some 2) .float) = .ok ls ∧ ls = ["b"] := by
  have hreal : (⟨[[.fin 1, .fin 0], [.fin 0, .fin 1]], ["a", "b"], some [.fin 0, .fin 0],
      none, none, none⟩ : Linear (XR FP.binary64) String).IsReal 2 2 [[1, 0], [0, 1]] [0, 0] :=
    ⟨rfl, by intro r hr; simp at hr; rcases hr with rfl | rfl <;> rfl, rfl, rfl, rfl, by norm_num,
      by intro y hy; simp at hy; subst hy; exact FP.binary64_sound.zero⟩
  have hden : Denotes (.fin 0) (.sparse [[(1, .fin 1)]] (some 2) .float : Arr (XR FP.binary64)) 2
      ([[0, 1]].map fun x => x.map XR.fin) := by
    have := Denotes.sparse (z := (.fin 0 : XR FP.binary64)) (ds := [[(1, .fin 1)]]) (w := 2)
      (dt := .float) (by simp) (by
        intro d hd
        simp at hd
        subst hd
        exact ⟨by simp, by intro p hp; simp at hp; subst hp; norm_num⟩)
    have e : [[((1 : Int), (.fin 1 : XR FP.binary64))]].map (Spec.dense (.fin 0) 2) =
        [[0, 1]].map fun x => x.map XR.fin := by
      simp [Spec.dense, Spec.entry, List.range_succ]
    rwa [e] at this
  obtain ⟨V, ls, h1, -, h3, h4⟩ := C60_total _ 2 2 (by norm_num) _ _ hreal (by norm_num) rfl _ _ hden
    (by
      intro x hx c hc
      simp at hx
      subst hx
      have e5 : (1 : ℝ) ≤ 2 ^ (1000 : ℤ) := by
        have : (2 : ℝ) ^ (0 : ℤ) ≤ 2 ^ (1000 : ℤ) := B64.pow_mono (by norm_num)
        simpa using this
      generalize (2 : ℝ) ^ (1000 : ℤ) = p at *
      rcases (show c = 0 ∨ c = 1 by omega) with rfl | rfl <;> simp [Finset.sum_range_succ] <;> linarith)
  refine ⟨V, ls, h1, h3, ?_⟩
  cases h4 with
  | cons ha hb =>
    cases hb
    have := ha 1 (by norm_num) (by
      intro j hj hne
      have : j = 0 := by omega
      subst this
      have e : (2 : ℝ) ^ (-1074 : ℤ) ≤ 2 ^ (-52 : ℤ) := B64.pow_mono (by norm_num)
      have e' : (2 : ℝ) ^ (-52 : ℤ) ≤ 2 ^ (-4 : ℤ) := B64.pow_mono (by norm_num)
      rw [show (2 : ℝ) ^ (-4 : ℤ) = 1 / 16 by norm_num] at e'
      simp only [linScore, scoreErr64, Finset.sum_range_succ, Finset.sum_range_zero]
      simp only [List.getD_cons_zero, List.getD_cons_succ, abs_zero]
      generalize (2 : ℝ) ^ (-1074 : ℤ) = p at *
      generalize (2 : ℝ) ^ (-52 : ℤ) = q at *
      norm_num
      linarith)
    simpa using this.symm

end PurePredict
