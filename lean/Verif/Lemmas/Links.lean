import Verif.Model.Base
import Verif.Lemmas.XR
import Verif.Lemmas.Dot
import Verif.Lemmas.Argmax
import Verif.Spec.Linear
import Mathlib.Tactic.Positivity
import Mathlib.Tactic.FieldSimp
/-
`expit` and `sfmax` in exact arithmetic, and properties of the specification functions.
-/
namespace PurePredict
open Spec

theorem safeExp_exact (x : ℝ) : safeExp (.fin x : Ex) = .ok (.fin (Real.exp x)) := rfl

theorem expit_exact (x : ℝ) : expit (.fin x : Ex) = .ok (.fin (sigmoid x)) := by
  have : (1 : ℝ) + Real.exp (-x) ≠ 0 := by positivity
  simp only [expit, XR.neg_fin, safeExp_exact, py_ok_bind, XR.ofInt_exact, XR.add_exact]
  rw [Int.cast_one, XR.div_exact _ this]
  rfl

theorem exp_sum_pos {l : List ℝ} (h : l ≠ []) : 0 < (l.map Real.exp).sum := by
  cases l with
  | nil => exact absurd rfl h
  | cons a l =>
    rw [List.map_cons, List.sum_cons]
    have : 0 ≤ (l.map Real.exp).sum :=
      List.sum_nonneg (by intro x hx; obtain ⟨y, _, rfl⟩ := List.mem_map.1 hx; positivity)
    have := Real.exp_pos a
    linarith

theorem sfmax_exact {l : List ℝ} (h : l ≠ []) :
    sfmax (fins l) = .ok (fins (l.map fun x => Real.exp x / (l.map Real.exp).sum)) := by
  unfold sfmax
  rw [mapM_fins (g := Real.exp) fun x _ => safeExp_exact x]
  simp only [py_ok_bind, pySum_fins]
  rw [mapM_fins (g := fun x => x / (l.map Real.exp).sum)
    fun x _ => XR.div_exact x (exp_sum_pos h).ne', List.map_map]
  rfl

theorem sigmoid_pos (x : ℝ) : 0 < sigmoid x := by unfold sigmoid; positivity

theorem sigmoid_lt_one (x : ℝ) : sigmoid x < 1 := by
  unfold sigmoid
  rw [div_lt_one (by positivity)]
  linarith [Real.exp_pos (-x)]

theorem sigmoid_strictMono : StrictMono sigmoid := by
  intro a b h
  unfold sigmoid
  apply one_div_lt_one_div_of_lt (by positivity)
  have := Real.exp_lt_exp.2 (neg_lt_neg h)
  linarith

theorem sigmoid_zero : sigmoid 0 = 1 / 2 := by simp [sigmoid]; norm_num

theorem one_sub_sigmoid (x : ℝ) : 1 - sigmoid x = sigmoid (-x) := by
  unfold sigmoid
  have h : Real.exp (-x) * Real.exp x = 1 := by rw [← Real.exp_add]; simp
  rw [neg_neg]
  have h1 : (1 : ℝ) + Real.exp (-x) ≠ 0 := by positivity
  have h2 : (1 : ℝ) + Real.exp x ≠ 0 := by positivity
  field_simp
  nlinarith

theorem half_lt_sigmoid {x : ℝ} : 1 / 2 < sigmoid x ↔ 0 < x := by
  rw [← sigmoid_zero]; exact sigmoid_strictMono.lt_iff_lt

/-- Dividing positive weights by their sum gives a distribution. -/
theorem isDist_div {l : List ℝ} (h : ∀ x ∈ l, 0 ≤ x) (hs : 0 < l.sum) :
    IsDist l.length (l.map fun x => x / l.sum) := by
  refine ⟨by simp, ?_, ?_⟩
  · intro x hx
    obtain ⟨y, hy, rfl⟩ := List.mem_map.1 hx
    exact div_nonneg (h y hy) hs.le
  · have : (l.map fun x => x / l.sum) = l.map fun x => x * (l.sum)⁻¹ := by simp [div_eq_mul_inv]
    rw [this, List.sum_map_mul_right]
    simp [hs.ne']

/-- The first maximum is preserved by strictly increasing maps. -/
theorem isFirstMax_map {α β : Type} [LinearOrder α] [LinearOrder β] {f : α → β}
    (hf : StrictMono f) {l : List α} {i : Nat} : IsFirstMax (l.map f) i ↔ IsFirstMax l i := by
  unfold IsFirstMax
  simp only [List.length_map, List.getElem_map, hf.le_iff_le, hf.lt_iff_lt]

theorem isFirstMax_pair {a b : ℝ} : IsFirstMax [a, b] (if a < b then 1 else 0) := by
  by_cases h : a < b
  · rw [if_pos h]
    refine ⟨by simp, ?_, ?_⟩
    · intro j hj
      match j, hj with
      | 0, _ => exact h.le
      | 1, _ => exact le_refl _
    · intro j hj
      have : j = 0 := by omega
      subst this
      exact h
  · rw [if_neg h]
    refine ⟨by simp, ?_, ?_⟩
    · intro j hj
      match j, hj with
      | 0, _ => exact le_refl _
      | 1, _ => exact not_lt.1 h
    · intro j hj; omega

end PurePredict
