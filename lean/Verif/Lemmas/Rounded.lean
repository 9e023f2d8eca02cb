import Verif.Lemmas.Dot
import Verif.Lemmas.Argmax
/-
Facts valid in every sound floating point arithmetic.
-/
namespace PurePredict
open scoped Classical

namespace XR
variable {fp : FP}

theorem toE_ofEReal (x : EReal) : toE (ofEReal x : XR fp) = x := by
  unfold ofEReal
  split
  · rename_i h; rw [h]; rfl
  · split
    · rename_i h; rw [h]; rfl
    · rename_i h1 h2; exact EReal.coe_toReal h1 h2

theorem toE_round (r : ℝ) : toE (round r : XR fp) = fp.rnd r := toE_ofEReal _

theorem round_ne_nan (r : ℝ) : (round r : XR fp) ≠ nan := by
  unfold round ofEReal
  split
  · simp
  · split <;> simp

theorem toE_inj {x y : XR fp} (hx : x ≠ nan) (hy : y ≠ nan) (h : toE x = toE y) : x = y := by
  cases x <;> cases y <;> simp_all [toE]

/-- A non-negative representable float: `0 ≤ x`, finite or `+inf`. -/
def NN (x : XR fp) : Prop := x ≠ nan ∧ 0 ≤ toE x ∧ Rep x

theorem NN.cases {x : XR fp} (h : NN x) : x = pinf ∨ ∃ r, x = fin r ∧ 0 ≤ r ∧ fp.rnd r = (r : EReal) := by
  obtain ⟨h1, h2, h3⟩ := h
  cases x with
  | fin r => exact .inr ⟨r, rfl, by simpa [toE] using h2, h3⟩
  | pinf => exact .inl rfl
  | ninf => simp [toE] at h2
  | nan => exact absurd rfl h1

theorem NN.pinf : NN (pinf : XR fp) := ⟨by simp, by simp [toE], trivial⟩

theorem NN.fin {r : ℝ} (h0 : 0 ≤ r) (hr : fp.rnd r = (r : EReal)) : NN (fin r : XR fp) :=
  ⟨by simp, by simpa [toE] using h0, hr⟩

theorem NN.zero (hs : fp.Sound) : NN (XR.fin 0 : XR fp) := NN.fin le_rfl hs.zero

theorem NN.round (hs : fp.Sound) {r : ℝ} (h : 0 ≤ r) : NN (XR.round r : XR fp) := by
  refine ⟨round_ne_nan r, ?_, rep_round hs r⟩
  rw [toE_round]
  have := hs.mono h
  rwa [hs.zero] at this

theorem NN.add (hs : fp.Sound) {x y : XR fp} (hx : NN x) (hy : NN y) :
    NN (x +ₚ y) ∧ toE x ≤ toE (x +ₚ y) ∧ toE y ≤ toE (x +ₚ y) := by
  rcases hx.cases with rfl | ⟨a, rfl, ha, ha'⟩
  · rcases hy.cases with rfl | ⟨b, rfl, hb, hb'⟩
    · exact ⟨NN.pinf, le_rfl, le_rfl⟩
    · exact ⟨NN.pinf, le_rfl, le_top⟩
  · rcases hy.cases with rfl | ⟨b, rfl, hb, hb'⟩
    · exact ⟨NN.pinf, le_top, le_rfl⟩
    · show NN (XR.round (a + b)) ∧ _ ≤ toE (XR.round (a + b)) ∧ _ ≤ toE (XR.round (a + b))
      refine ⟨NN.round hs (add_nonneg ha hb), ?_, ?_⟩
      · rw [toE_round]
        show (a : EReal) ≤ _
        rw [← ha']
        exact hs.mono (by linarith)
      · rw [toE_round]
        show (b : EReal) ≤ _
        rw [← hb']
        exact hs.mono (by linarith)

theorem foldl_NN (hs : fp.Sound) {l : List (XR fp)} (hl : ∀ x ∈ l, NN x) {s : XR fp} (h : NN s) :
    NN (l.foldl Arith.add s) ∧ toE s ≤ toE (l.foldl Arith.add s) ∧
      ∀ x ∈ l, toE x ≤ toE (l.foldl Arith.add s) := by
  induction l generalizing s with
  | nil => exact ⟨h, le_rfl, by simp⟩
  | cons x l ih =>
    obtain ⟨h1, h2, h3⟩ := NN.add hs h (hl x (by simp))
    obtain ⟨h4, h5, h6⟩ := ih (fun y hy => hl y (by simp [hy])) h1
    refine ⟨h4, h2.trans h5, ?_⟩
    intro y hy
    rcases List.mem_cons.1 hy with rfl | hy
    · exact h3.trans h5
    · exact h6 y hy

/-- A floating point sum of non-negative numbers is at least as large as each of them. -/
theorem pySum_NN (hs : fp.Sound) {l : List (XR fp)} (hl : ∀ x ∈ l, NN x) :
    NN (pySum l) ∧ ∀ x ∈ l, toE x ≤ toE (pySum l) := by
  unfold pySum
  rw [XR.ofInt_zero hs]
  have := foldl_NN hs hl (NN.zero hs)
  exact ⟨this.1, this.2.2⟩

/-- A number between 0 and 1. -/
def Unit (x : XR fp) : Prop := ∃ r, x = XR.fin r ∧ 0 ≤ r ∧ r ≤ 1

theorem unit_of_bounds {x : XR fp} (hn : x ≠ nan) (h0 : 0 ≤ toE x) (h1 : toE x ≤ 1) : Unit x := by
  cases x with
  | fin r => exact ⟨r, rfl, by simpa [toE] using h0, by
      have : (r : EReal) ≤ ((1 : ℝ) : EReal) := h1
      exact_mod_cast this⟩
  | pinf =>
    have : (⊤ : EReal) ≤ ((1 : ℝ) : EReal) := h1
    exact absurd (top_le_iff.1 this) (EReal.coe_ne_top 1)
  | ninf => simp [toE] at h0
  | nan => exact absurd rfl hn

/-- Dividing a non-negative number by a larger positive finite one gives a number in [0,1]. -/
theorem div_unit (hs : fp.Sound) {a b : ℝ} (ha : 0 ≤ a) (hb : 0 < b) (hab : a ≤ b) :
    ∃ q, (XR.fin a : XR fp) /ₚ XR.fin b = .ok q ∧ Unit q ∧ Rep q := by
  refine ⟨XR.round (a / b), by rw [div_fin, if_neg hb.ne'], ?_, rep_round hs _⟩
  have h0 : 0 ≤ a / b := div_nonneg ha hb.le
  have h1 : a / b ≤ 1 := (div_le_one hb).2 hab
  have e0 := hs.mono h0
  have e1 := hs.mono h1
  rw [hs.zero] at e0
  rw [hs.one] at e1
  exact unit_of_bounds (round_ne_nan _) (by rwa [toE_round]) (by rwa [toE_round])

end XR
end PurePredict
