import Verif.Model.FastText
import Verif.Lemmas.RoundedLinks
import Verif.Lemmas.Links
/-
C50: the fastText softmax.
-/
namespace PurePredict
open Spec

/-- **C50**, safety: in every sound floating point arithmetic, for every non-empty list of finite
scores, the softmax raises nothing and returns as many numbers in [0, 1] — also when differences
overflow to `-inf` or exponentials underflow. -/
theorem C50_safe_rounded (fp : FP) (hs : fp.Sound) (l : List ℝ) (hl : l ≠ []) :
    ∃ p, FT.sfmax (l.map XR.fin : List (XR fp)) = .ok p ∧ p.length = l.length ∧ ∀ v ∈ p, XR.Unit v := by
  set s : List (XR fp) := l.map XR.fin with hsdef
  have hnan : XR.nan ∉ s := by simp [hsdef]
  obtain ⟨m, hm, hmax, hle⟩ := pyMax_spec XR.toE (XR.ordOn_toE hnan) (by simpa [hsdef] using hl)
  obtain ⟨M, hM, rfl⟩ := List.mem_map.1 hm
  -- each exponential
  have hexp : ∀ x ∈ l, ∃ v : ℝ, Arith.exp ((XR.fin x : XR fp) -ₚ XR.fin M) = .ok (.fin v) ∧ 0 ≤ v ∧
      fp.rnd v = (v : EReal) ∧ (x = M → v = 1) := by
    intro x hx
    have hxM : x ≤ M := by
      have : (x : EReal) ≤ (M : EReal) := hle (.fin x) (List.mem_map.2 ⟨x, hx, rfl⟩)
      exact_mod_cast this
    have hsub : (XR.fin x : XR fp) -ₚ XR.fin M = XR.round (x + -M) := rfl
    have h0 : fp.rnd (x + -M) ≤ 0 := by
      have := hs.mono (show x + -M ≤ (0 : ℝ) by linarith)
      rwa [hs.zero] at this
    rw [hsub]
    cases hr : (XR.round (x + -M) : XR fp) with
    | nan => exact absurd hr (XR.round_ne_nan _)
    | pinf =>
      have := XR.toE_round (fp := fp) (x + -M)
      rw [hr] at this
      rw [← this] at h0
      simp [XR.toE] at h0
    | ninf =>
      refine ⟨0, rfl, le_rfl, hs.zero, ?_⟩
      intro he
      exfalso
      have := XR.toE_round (fp := fp) (x + -M)
      rw [hr, he, add_neg_cancel, hs.zero] at this
      simp [XR.toE] at this
    | fin r =>
      have hrE := XR.toE_round (fp := fp) (x + -M)
      rw [hr] at hrE
      have hr0 : r ≤ 0 := by
        rw [← hrE] at h0
        have : ((r : ℝ) : EReal) ≤ ((0 : ℝ) : EReal) := h0
        exact_mod_cast this
      obtain ⟨v, hv, hv1⟩ := hs.exp_nonpos r hr0
      obtain ⟨h1, h2⟩ := hs.exp_rep r v hv
      refine ⟨v, ?_, h1, h2, ?_⟩
      · show XR.exp (.fin r) = _
        simp [XR.exp, hv]
      · intro he
        rw [he, add_neg_cancel, hs.zero] at hrE
        have : r = 0 := by
          have : ((r : ℝ) : EReal) = ((0 : ℝ) : EReal) := hrE
          exact_mod_cast this
        rw [this, hs.exp_zero] at hv
        exact (Option.some.inj hv).symm
  choose! g hg using hexp
  have hE : s.mapM (fun x => do Arith.exp (x -ₚ (← pyMax s))) = .ok (l.map fun x => XR.fin (g x)) := by
    rw [hmax]
    simp only [py_ok_bind]
    rw [hsdef, mapM_map']
    exact mapM_ok_map fun x hx => (hg x hx).1
  set E : List (XR fp) := l.map fun x => XR.fin (g x) with hEdef
  have hNN : ∀ v ∈ E, XR.NN v := by
    intro v hv
    obtain ⟨x, hx, rfl⟩ := List.mem_map.1 hv
    exact XR.NN.fin (hg x hx).2.1 (hg x hx).2.2.1
  obtain ⟨hS, hSle⟩ := XR.pySum_NN hs hNN
  have hone : (1 : EReal) ≤ XR.toE (pySum E) := by
    have := hSle (.fin (g M)) (List.mem_map.2 ⟨M, hM, rfl⟩)
    rw [(hg M hM).2.2.2 rfl] at this
    exact this
  have hdiv : ∀ x ∈ l, ∃ q, (XR.fin (g x) : XR fp) /ₚ pySum E = .ok q ∧ XR.Unit q := by
    intro x hx
    rcases hS.cases with h | ⟨S, h, hS0, hSr⟩
    · rw [h]; exact ⟨.fin 0, rfl, 0, rfl, le_rfl, zero_le_one⟩
    · have h1 := hSle (.fin (g x)) (List.mem_map.2 ⟨x, hx, rfl⟩)
      rw [h] at hone h1 ⊢
      have hS1 : (1 : ℝ) ≤ S := by
        have h' : ((1 : ℝ) : EReal) ≤ (S : EReal) := hone
        exact_mod_cast h'
      have hgS : g x ≤ S := by
        have h' : ((g x : ℝ) : EReal) ≤ (S : EReal) := h1
        exact_mod_cast h'
      obtain ⟨q, h2, h3, -⟩ := XR.div_unit hs (hg x hx).2.1 (by linarith : 0 < S) hgS
      exact ⟨q, h2, h3⟩
  have : Nonempty (XR fp) := ⟨.nan⟩
  choose! q hq using hdiv
  refine ⟨l.map q, ?_, by simp, ?_⟩
  · have : FT.sfmax s = .ok E >>= fun expons => expons.mapM fun x => x /ₚ pySum expons := by
      rw [← hE]; rfl
    rw [this, py_ok_bind]
    conv_lhs => rw [hEdef]
    rw [mapM_map']
    exact mapM_ok_map fun x hx => (hq x hx).1
  · intro v hv
    obtain ⟨x, hx, rfl⟩ := List.mem_map.1 hv
    exact (hq x hx).2

/-- The softmax of real numbers. -/
noncomputable def softmaxR (l : List ℝ) : List ℝ := l.map fun x => Real.exp x / (l.map Real.exp).sum

theorem softmaxR_shift (l : List ℝ) (c : ℝ) : softmaxR (l.map fun x => x + c) = softmaxR l := by
  unfold softmaxR
  have h : ((l.map fun x => x + c).map Real.exp).sum = (l.map Real.exp).sum * Real.exp c := by
    rw [List.map_map, ← List.sum_map_mul_right]
    congr 1
    apply List.map_congr_left
    intro x _
    simp [Real.exp_add]
  rw [h, List.map_map]
  apply List.map_congr_left
  intro x _
  simp only [Function.comp, Real.exp_add]
  exact mul_div_mul_right _ _ (Real.exp_ne_zero c)

/-- **C50**, exact arithmetic: subtracting the maximum does not change the value — the result is the
softmax. -/
theorem C50_exact (l : List ℝ) (hl : l ≠ []) : FT.sfmax (fins l) = .ok (fins (softmaxR l)) := by
  obtain ⟨m, hm, hmax, -⟩ := pyMax_spec XR.toReal (ordOn_fins l) (by simpa [fins_def] using hl)
  obtain ⟨M, hM, rfl⟩ := List.mem_map.1 hm
  unfold FT.sfmax
  rw [hmax]
  simp only [py_ok_bind]
  rw [mapM_fins (g := fun x => Real.exp (x + -M)) fun x _ => by simp [sub_eq_add_neg]]
  have hne : (l.map fun x => x + -M) ≠ [] := by simpa using hl
  have hpos := exp_sum_pos hne
  rw [List.map_map] at hpos
  rw [py_ok_bind, pySum_fins, mapM_fins (g := fun x => x / (l.map (Real.exp ∘ fun x => x + -M)).sum)]
  · rw [← softmaxR_shift l (-M), softmaxR, List.map_map, List.map_map]
    congr 2
    rw [List.map_map]
    rfl
  · intro x _
    exact XR.div_exact _ hpos.ne'

/-- **C50**: the result is a probability distribution (non-negative, summing to 1). -/
theorem C50_distribution (l : List ℝ) (hl : l ≠ []) : IsDist l.length (softmaxR l) := by
  have h := isDist_div (l := l.map Real.exp) (by
    intro x hx; obtain ⟨a, _, rfl⟩ := List.mem_map.1 hx; exact (Real.exp_pos a).le) (exp_sum_pos hl)
  rw [List.length_map, List.map_map] at h
  exact h

/-- **C50**: adding a constant to all scores changes nothing. -/
theorem C50_shift (l : List ℝ) (hl : l ≠ []) (c : ℝ) :
    FT.sfmax (fins (l.map fun x => x + c)) = FT.sfmax (fins l) := by
  rw [C50_exact l hl, C50_exact _ (by simpa using hl), softmaxR_shift]

/-- **C50**: a larger score gets a larger probability. -/
theorem C50_monotone (l : List ℝ) (i j : Nat) (hi : i < l.length) (hj : j < l.length) (h : l[i] < l[j]) :
    (softmaxR l)[i]'(by simpa [softmaxR] using hi) < (softmaxR l)[j]'(by simpa [softmaxR] using hj) := by
  have hl : l ≠ [] := by rintro rfl; simp at hi
  simp only [softmaxR, List.getElem_map]
  exact div_lt_div_of_pos_right (Real.exp_lt_exp.2 h) (exp_sum_pos hl)

/-- On an empty score list the result is empty (`max` is never called). -/
theorem C50_empty {F : Type} [Arith F] : FT.sfmax ([] : List F) = .ok [] := rfl

/-- Non-vacuity: two equal scores. -/
example : FT.sfmax (fins [7, 7]) = .ok (fins [1/2, 1/2]) := by
  rw [C50_exact _ (by simp)]
  have : Real.exp 7 / (Real.exp 7 + Real.exp 7) = 1/2 := by
    have := Real.exp_ne_zero 7
    field_simp; norm_num
  simp [softmaxR, this]

end PurePredict
