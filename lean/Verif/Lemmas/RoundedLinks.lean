import Verif.Model.Base
import Verif.Lemmas.Rounded
/-
The logistic function in floating point.
-/
namespace PurePredict
open scoped Classical
namespace XR
variable {fp : FP}

theorem safeExp_NN (hs : fp.Sound) {x : XR fp} (hx : x ≠ nan) : ∃ v, safeExp x = .ok v ∧ NN v := by
  cases x with
  | fin r =>
    show ∃ v, safeExp (fin r) = .ok v ∧ NN v
    unfold safeExp
    cases he : fp.exp r with
    | none =>
      have : Arith.exp (fin r : XR fp) = .error .overflowError := by
        show XR.exp (fin r) = _
        simp [XR.exp, he]
      rw [this]
      exact ⟨_, rfl, NN.pinf⟩
    | some v =>
      have : Arith.exp (fin r : XR fp) = .ok (fin v) := by
        show XR.exp (fin r) = _
        simp [XR.exp, he]
      rw [this]
      obtain ⟨h0, h1⟩ := hs.exp_rep r v he
      exact ⟨_, rfl, NN.fin h0 h1⟩
  | pinf => exact ⟨_, rfl, NN.pinf⟩
  | ninf => exact ⟨_, rfl, NN.zero hs⟩
  | nan => exact absurd rfl hx

/-- In floating point `expit` always succeeds on a number and lies in [0,1]. -/
theorem expit_unit (hs : fp.Sound) {x : XR fp} (hx : x ≠ nan) :
    ∃ p, expit x = .ok p ∧ Unit p ∧ Rep p := by
  have hneg : Arith.neg x ≠ nan := by
    show XR.neg x ≠ nan
    cases x <;> simp_all [XR.neg]
  obtain ⟨v, hv, hNN⟩ := safeExp_NN hs hneg
  simp only [expit, hv, py_ok_bind, XR.ofInt_one hs]
  have h1 : NN (fin 1 : XR fp) := NN.fin zero_le_one hs.one
  obtain ⟨h2, h3, -⟩ := NN.add hs h1 hNN
  rcases h2.cases with h | ⟨r, h, hr0, hr⟩
  · rw [h]
    exact ⟨fin 0, rfl, ⟨0, rfl, le_rfl, zero_le_one⟩, hs.zero⟩
  · rw [h] at h3 ⊢
    have : (1 : ℝ) ≤ r := by
      have h' : ((1 : ℝ) : EReal) ≤ (r : EReal) := h3
      exact_mod_cast h'
    exact div_unit hs zero_le_one (by linarith) this

theorem one_sub_unit (hs : fp.Sound) {p : XR fp} (hp : Unit p) : Unit (ofInt 1 -ₚ p) := by
  obtain ⟨r, rfl, h0, h1⟩ := hp
  rw [XR.ofInt_one hs]
  show Unit (XR.round (1 + -r))
  have e0 := hs.mono (show (0 : ℝ) ≤ 1 + -r by linarith)
  have e1 := hs.mono (show 1 + -r ≤ (1 : ℝ) by linarith)
  rw [hs.zero] at e0
  rw [hs.one] at e1
  exact unit_of_bounds (round_ne_nan _) (by rwa [toE_round]) (by rwa [toE_round])

end XR
end PurePredict
