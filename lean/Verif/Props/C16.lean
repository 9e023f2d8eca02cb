import Verif.Lemmas.GB
import Verif.Lemmas.RoundedLinks
import Verif.Props.C06
import Verif.Props.C15
/-
C16: gradient boosting probabilities.  True for deviance, false for the exponential loss, whose
class 1 "probability" is `2 * sigmoid x`.
-/
namespace PurePredict
open Spec
variable {C : Type}

/-- The claim: for all raw scores of the right shape, `predict_proba` succeeds and every row is a
distribution. -/
def GB.ProbaIsDistribution (g : GB Ex C) (k : Nat) : Prop :=
  ∀ (X : Arr Ex) (raw : List (List ℝ)), raw ≠ [] → Rect g.loss.cols raw →
    g.rawPredict X = .ok (raw.map fins) →
    ∃ P : List (List ℝ), g.predictProba X = .ok (P.map fins) ∧ P.length = raw.length ∧
      ∀ p ∈ P, IsDist k p

/-- Probability rows of the code from the raw scores of one record. -/
noncomputable def Loss.probaReal : Loss → List ℝ → List ℝ
  | .multinomial n, r => (List.range n).map (softmax n fun c => r.getD c 0)
  | .binomial, r => [1 - sigmoid (r.getD 0 0), sigmoid (r.getD 0 0)]
  | .exponential, r => [1 - sigmoid (r.getD 0 0) * 2, sigmoid (r.getD 0 0) * 2]

theorem exp_sub_log {x S : ℝ} (hS : 0 < S) : Real.exp (x - Real.log S) = Real.exp x / S := by
  rw [Real.exp_sub, Real.exp_log hS]

theorem sum_exp_getD (r : List ℝ) :
    (r.map Real.exp).sum = ∑ j ∈ Finset.range r.length, Real.exp (r.getD j 0) := by
  rw [← list_sum_range]
  congr 1
  apply List.ext_getElem
  · simp
  · intro i h1 h2
    simp at h1
    simp [List.getD_eq_getElem?_getD, h1]

theorem probaRow_exact (l : Loss) (hc : 0 < l.cols) {r : List ℝ} (hr : r.length = l.cols) :
    l.probaRow (fins r) = .ok (fins (l.probaReal r)) := by
  cases l with
  | multinomial n =>
    have hn : r.length = n := hr
    have hne : r ≠ [] := by
      rintro rfl
      rw [← hr] at hc
      exact absurd hc (by simp)
    have hS := exp_sum_pos hne
    simp only [Loss.probaRow, mapM_fins (f := safeExp) (g := Real.exp) fun x _ => safeExp_exact x,
      py_ok_bind, pySum_fins, safeLog_exact hS]
    rw [range_mapM (g := fun i => .fin (softmax n (fun c => r.getD c 0) i))]
    · simp [Loss.probaReal, fins, Function.comp_def]
    · intro i hi
      rw [pyGet_lt (by rw [fins_length, hn]; exact hi)]
      have h2 : i < r.length := by rw [hn]; exact hi
      simp only [py_ok_bind, fins_def, List.getElem_map, XR.sub_exact, safeExp_exact, softmax]
      rw [exp_sub_log hS, sum_exp_getD]
      subst hn
      simp [List.getD_eq_getElem?_getD, h2]
  | binomial =>
    obtain ⟨x, rfl⟩ : ∃ x, r = [x] := List.length_eq_one_iff.1 hr
    simp [Loss.probaRow, expit_exact, Loss.probaReal]
  | exponential =>
    obtain ⟨x, rfl⟩ : ∃ x, r = [x] := List.length_eq_one_iff.1 hr
    simp [Loss.probaRow, expit_exact, Loss.probaReal]

/-- Probabilities from raw scores, exactly. -/
theorem proba_of_raw (g : GB Ex C) (hc : 0 < g.loss.cols) {X : Arr Ex} {raw : List (List ℝ)}
    (hne : raw ≠ []) (hw : Rect g.loss.cols raw) (h : g.rawPredict X = .ok (raw.map fins)) :
    g.predictProba X = .ok ((raw.map g.loss.probaReal).map fins) := by
  simp only [GB.predictProba, h, py_ok_bind]
  rw [Loss.rawToProba_rowwise g.loss (by simpa using hne) (by
    intro r hr
    obtain ⟨x, hx, rfl⟩ := List.mem_map.1 hr
    rw [fins_length]; exact hw x hx), mapM_map', List.map_map]
  exact mapM_ok_map fun r hr => probaRow_exact g.loss hc (hw r hr)

/-- **C16**, deviance loss with `n` classes or two classes: `predict_proba` is the softmax
(multi-class) or sigmoid (binary) of the raw scores; every row is a distribution, and `predict`
picks the label of its first maximum. -/
theorem C16_deviance_distribution_partial (g : GB Ex C) (k : Nat)
    (hl : g.loss = .multinomial k ∨ (g.loss = .binomial ∧ k = 2)) (hk : 0 < k) :
    g.ProbaIsDistribution k := by
  intro X raw hne hw h
  have hc : 0 < g.loss.cols := by
    rcases hl with h | ⟨h, _⟩ <;> rw [h]
    · exact hk
    · exact Nat.one_pos
  refine ⟨raw.map g.loss.probaReal, proba_of_raw g hc hne hw h, by simp, ?_⟩
  intro p hp
  obtain ⟨r, _, rfl⟩ := List.mem_map.1 hp
  rcases hl with h | ⟨h, rfl⟩
  · rw [h]; exact softmax_isDist hk _
  · rw [h]; exact pair_isDist _

/-- **C16**, decision of deviance: `predict` is the label of the first largest raw score
(multi-class), respectively class 1 exactly when the raw score is positive (binary). -/
theorem C16_deviance_predict (g : GB Ex C) (k : Nat)
    (hl : g.loss = .multinomial k ∨ (g.loss = .binomial ∧ k = 2)) (hk : 0 < k)
    (hcls : g.classes.length = k) (X : Arr Ex) (raw : List (List ℝ)) (hne : raw ≠ [])
    (hw : Rect g.loss.cols raw) (h : g.rawPredict X = .ok (raw.map fins)) :
    ∃ labels, g.predict X = .ok labels ∧
      List.Forall₂ (fun r l => ∃ i, IsFirstMax (g.loss.probaReal r) i ∧ g.classes[i]? = some l ∧
        (g.loss = .multinomial k → IsFirstMax r i) ∧
        (g.loss = .binomial → i = if 0 < r.getD 0 0 then 1 else 0)) raw labels := by
  have hc : 0 < g.loss.cols := by
    rcases hl with h | ⟨h, _⟩ <;> rw [h]
    · exact hk
    · exact Nat.one_pos
  have hrow : ∀ r ∈ raw, ∃ l i, argmax (fins (g.loss.probaReal r)) = .ok i ∧
      g.classes[i]? = some l := by
    intro r _
    have hlen : (g.loss.probaReal r).length = k := by
      rcases hl with h | ⟨h, rfl⟩ <;> rw [h] <;> simp [Loss.probaReal]
    obtain ⟨i, hi⟩ := argmax_total (l := fins (g.loss.probaReal r)) (by
      intro e; have := congrArg List.length e; simp [hlen] at this; omega)
    have : i < g.classes.length := by rw [hcls, ← hlen]; simpa using argmax_lt hi
    exact ⟨g.classes[i], i, hi, by simp [this]⟩
  have hC : Nonempty C := by
    obtain ⟨r, hr⟩ := List.exists_mem_of_ne_nil raw hne
    obtain ⟨l, _⟩ := hrow r hr
    exact ⟨l⟩
  choose! l i h1 h2 using hrow
  refine ⟨raw.map l, ?_, ?_⟩
  · simp only [GB.predict, proba_of_raw g hc hne hw h, py_ok_bind]
    rw [mapM_map', mapM_map']
    apply mapM_ok_map
    intro r hr
    simp only [h1 r hr, py_ok_bind]
    exact pyGet_ok_nat.2 (h2 r hr)
  · rw [List.forall₂_map_right_iff, List.forall₂_same]
    intro r hr
    refine ⟨i r, argmax_fins.1 (h1 r hr), h2 r hr, ?_, ?_⟩
    · intro hm
      have := argmax_fins.1 (h1 r hr)
      rw [hm] at this
      have h3 := (isFirstMax_softmax hk _).1 this
      have hlen : r.length = k := by rw [hw r hr, hm]; rfl
      have : (List.range k).map (fun c => r.getD c 0) = r := by
        apply List.ext_getElem
        · simp [hlen]
        · intro j h4 h5
          simp [List.getD_eq_getElem?_getD, h5]
      rwa [this] at h3
    · intro hb
      have := argmax_fins.1 (h1 r hr)
      rw [hb] at this
      refine IsFirstMax.unique this ?_
      have hiff : 1 - sigmoid (r.getD 0 0) < sigmoid (r.getD 0 0) ↔ 0 < r.getD 0 0 := by
        rw [← half_lt_sigmoid]
        constructor <;> intro h <;> linarith
      have h4 := isFirstMax_pair (a := 1 - sigmoid (r.getD 0 0)) (b := sigmoid (r.getD 0 0))
      simp only [hiff] at h4
      exact h4

/-- **C16 is false** for the exponential loss, in general: class 1 gets `2 * sigmoid x`, and the
row is a distribution exactly when the raw score is not positive. -/
theorem C16_exponential_distribution_iff (g : GB Ex C) (hl : g.loss = .exponential) (X : Arr Ex)
    (raw : List ℝ) (hne : raw ≠ []) (h : g.rawPredict X = .ok (raw.map fun x => [.fin x])) :
    g.predictProba X = .ok (raw.map fun x => fins [1 - 2 * sigmoid x, 2 * sigmoid x]) ∧
    ∀ x : ℝ, IsDist 2 [1 - 2 * sigmoid x, 2 * sigmoid x] ↔ x ≤ 0 := by
  constructor
  · have hc : 0 < g.loss.cols := by rw [hl]; exact Nat.one_pos
    have := proba_of_raw g hc (raw := raw.map fun x => [x]) (by simpa using hne) (by
      intro r hr
      obtain ⟨x, _, rfl⟩ := List.mem_map.1 hr
      rw [hl]; rfl) (X := X) (by rw [h]; simp)
    rw [this, hl]
    simp [Loss.probaReal, mul_comm]
  · intro x
    constructor
    · rintro ⟨_, h0, _⟩
      have := h0 (1 - 2 * sigmoid x) (by simp)
      by_contra hx
      have := half_lt_sigmoid.2 (not_le.1 hx)
      linarith
    · intro hx
      refine ⟨rfl, ?_, by simp⟩
      have h1 : ¬ 1 / 2 < sigmoid x := fun h => absurd (half_lt_sigmoid.1 h) (not_lt.2 hx)
      have h2 := sigmoid_pos x
      intro y hy
      simp at hy
      rcases hy with rfl | rfl <;> linarith

/-- **C16 is false** for the exponential loss, witness: raw score 1 gives class 0 a negative and
class 1 a "probability" above 1. -/
theorem C16_exponential_false :
    ∃ g : GB Ex String, g.loss = .exponential ∧ ¬ g.ProbaIsDistribution 2 := by
  refine ⟨⟨["a", "b"], [[fun _ => .ok [.fin 1]]], fun _ => .ok [[.fin (1 / 2), .fin (1 / 2)]],
    .fin 1, 1, .exponential⟩, rfl, ?_⟩
  intro hD
  have hret := C15_raw_scores_additive (⟨["a", "b"], [[fun _ => .ok [.fin 1]]],
    fun _ => .ok [[.fin (1 / 2), .fin (1 / 2)]], .fin 1, 1, .exponential⟩ : GB Ex String) [[5]]
    (by simp) (by intro r hr; simp at hr; subst hr; rfl) 1 rfl 2 (by simp)
    (fun _ _ => 1 / 2) (fun _ _ _ => 1) (by simp) ⟨by simp [mat, List.range_succ], by
      intro st hst; simp at hst; subst hst; rfl, by
      intro s hs c hc
      match s, hs, c, hc with
      | 0, _, 0, _ => simp [List.range_succ]⟩
  have hclamp : clampP (1 / 2) = 1 / 2 := by
    unfold clampP eps
    norm_num
  have hscore : boosted (initScore .exponential (fun _ => 1 / 2) 0) 1 1 (fun _ => 1) = 1 := by
    simp only [boosted, initScore, hclamp, logit]
    norm_num
  have hraw : (⟨["a", "b"], [[fun _ => .ok [.fin 1]]], fun _ => .ok [[.fin (1 / 2), .fin (1 / 2)]],
      .fin 1, 1, .exponential⟩ : GB Ex String).rawPredict (.ofMat ([[5]].map fins)) =
      .ok ([[1]].map fins) := by
    rw [hret]
    show Except.ok [[XR.fin (boosted (initScore .exponential (fun _ => 1 / 2) 0) 1 1
      (fun _ => 1))]] = _
    rw [hscore]
    rfl
  obtain ⟨P, hP, _, hdist⟩ := hD _ [[1]] (by simp) (by intro r hr; simp at hr; subst hr; rfl) hraw
  obtain ⟨h1, h2⟩ := C16_exponential_distribution_iff _ rfl _ [1] (by simp) hraw
  rw [h1] at hP
  have hP' : P.map fins = [fins [1 - 2 * sigmoid 1, 2 * sigmoid 1]] := by
    simpa using (Except.ok.inj hP).symm
  obtain ⟨p, rfl⟩ : ∃ p, P = [p] := List.length_eq_one_iff.1 (by
    have := congrArg List.length hP'
    simpa using this)
  have hp : p = [1 - 2 * sigmoid 1, 2 * sigmoid 1] := by
    have : fins p = fins [1 - 2 * sigmoid 1, 2 * sigmoid 1] := by simpa using hP'
    exact List.map_injective_iff.2 (fun a b h => XR.fin_inj.1 h) this
  have := (h2 1).1 (hp ▸ hdist p (by simp))
  norm_num at this

/-- What the exponential loss decides: class 1 exactly when `x > -ln 3` (it should be `x > 0`). -/
theorem C16_exponential_decision (x : ℝ) :
    IsFirstMax [1 - 2 * sigmoid x, 2 * sigmoid x] (if - Real.log 3 < x then 1 else 0) := by
  have hiff : 1 - 2 * sigmoid x < 2 * sigmoid x ↔ - Real.log 3 < x := by
    have h0 : sigmoid (- Real.log 3) = 1 / 4 := by
      rw [sigmoid, neg_neg, Real.exp_log (by norm_num)]
      norm_num
    rw [← sigmoid_strictMono.lt_iff_lt (a := - Real.log 3), h0]
    constructor <;> intro h <;> linarith
  have := isFirstMax_pair (a := 1 - 2 * sigmoid x) (b := 2 * sigmoid x)
  simpa only [hiff] using this

/-- **C16**, floating point, binary deviance: in every sound arithmetic both probabilities of every
record lie in [0,1], whatever the raw scores (infinite ones included). -/
theorem C16_binomial_unit_rounded (fp : FP) (hs : fp.Sound) (g : GB (XR fp) C)
    (hl : g.loss = .binomial) (X : Arr (XR fp)) (raw : List (XR fp)) (hne : raw ≠ [])
    (hnan : ∀ x ∈ raw, x ≠ .nan) (h : g.rawPredict X = .ok (raw.map fun x => [x])) :
    ∃ P, g.predictProba X = .ok P ∧ P.length = raw.length ∧
      ∀ p ∈ P, p.length = 2 ∧ ∀ q ∈ p, XR.Unit q := by
  have hrow : ∀ x ∈ raw, ∃ p, g.loss.probaRow [x] = .ok p ∧ p.length = 2 ∧ ∀ q ∈ p, XR.Unit q := by
    intro x hx
    obtain ⟨p, hp, hu, -⟩ := XR.expit_unit hs (hnan x hx)
    refine ⟨[ofInt 1 -ₚ p, p], by simp [hl, Loss.probaRow, hp], rfl, ?_⟩
    intro q hq
    simp at hq
    rcases hq with rfl | rfl
    · exact XR.one_sub_unit hs hu
    · exact hu
  choose! p h1 h2 h3 using hrow
  refine ⟨raw.map p, ?_, by simp, ?_⟩
  · simp only [GB.predictProba, h, py_ok_bind]
    rw [Loss.rawToProba_rowwise g.loss (by simpa using hne) (by
      intro r hr
      obtain ⟨x, hx, rfl⟩ := List.mem_map.1 hr
      rw [hl]; rfl), mapM_map']
    exact mapM_ok_map h1
  · intro q hq
    obtain ⟨x, hx, rfl⟩ := List.mem_map.1 hq
    exact ⟨h2 x hx, h3 x hx⟩

/-- Non-vacuity of the deviance theorems: a three-class model with raw scores (0, 1, 2). -/
example : (⟨["a", "b", "c"], [], fun _ => .error .typeError, .fin 1, 1, .multinomial 3⟩ :
    GB Ex String).ProbaIsDistribution 3 :=
  C16_deviance_distribution_partial _ 3 (.inl rfl) (by norm_num)

end PurePredict
