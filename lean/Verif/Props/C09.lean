import Verif.Lemmas.Rounded
import Verif.Model.Base
/-
C09: `safe_log` and `safe_exp` are total and return what numpy does.
-/
namespace PurePredict
open scoped Classical

/-- numpy's `log` on every float: -inf at 0, NaN on negatives (and -inf) and NaN, +inf at +inf. -/
noncomputable def Spec.npLog (fp : FP) : XR fp → XR fp
  | .fin r => if r = 0 then .ninf else if r < 0 then .nan else .fin (fp.log r)
  | .pinf => .pinf
  | .ninf => .nan
  | .nan => .nan

/-- numpy's `exp` on every float: +inf on overflow and at +inf, 0 at -inf, NaN at NaN. -/
noncomputable def Spec.npExp (fp : FP) : XR fp → XR fp
  | .fin r => match fp.exp r with
    | some v => .fin v
    | none => .pinf
  | .pinf => .pinf
  | .ninf => .fin 0
  | .nan => .nan

/-- **C09**: `safe_log` never raises on any float and returns numpy's value. -/
theorem C09_safe_log_total (fp : FP) (hs : fp.Sound) (x : XR fp) :
    safeLog x = .ok (Spec.npLog fp x) := by
  have h0 : (ofInt 0 : XR fp) = .fin 0 := XR.ofInt_zero hs
  unfold safeLog
  rw [h0]
  cases x with
  | fin r =>
    simp only [XR.eq_fin, XR.lt_fin, Spec.npLog, decide_eq_true_eq]
    by_cases h : r = 0
    · simp only [h, if_true]; rfl
    · simp only [h, if_false]
      by_cases h' : r < 0
      · simp only [h', if_true]; rfl
      · simp only [h', if_false]
        have : ¬ r ≤ 0 := fun hle => (lt_or_eq_of_le hle).elim h' h
        show XR.log (.fin r) = _
        simp [XR.log, this]
  | pinf => rfl
  | ninf => rfl
  | nan => rfl

/-- **C09**: `safe_exp` never raises on any float and returns numpy's value. -/
theorem C09_safe_exp_total (fp : FP) (x : XR fp) : safeExp x = .ok (Spec.npExp fp x) := by
  unfold safeExp
  cases x with
  | fin r =>
    have : Arith.exp (.fin r : XR fp) = match fp.exp r with
      | some v => .ok (.fin v)
      | none => .error .overflowError := rfl
    rw [this, Spec.npExp]
    cases fp.exp r <;> rfl
  | pinf => rfl
  | ninf => rfl
  | nan => rfl

/-- Consequences spelled out: the exceptional values. -/
theorem C09_special_values (fp : FP) (hs : fp.Sound) (r : ℝ) (hr : r < 0) :
    safeLog (.fin 0 : XR fp) = .ok .ninf ∧ safeLog (.fin r : XR fp) = .ok .nan ∧
    safeLog (.nan : XR fp) = .ok .nan ∧
    (fp.exp r = none → safeExp (.fin r : XR fp) = .ok .pinf) ∧
    safeExp (.ninf : XR fp) = .ok (.fin 0) := by
  refine ⟨?_, ?_, C09_safe_log_total fp hs _, ?_, C09_safe_exp_total fp _⟩
  · rw [C09_safe_log_total fp hs]; simp [Spec.npLog]
  · rw [C09_safe_log_total fp hs]; simp [Spec.npLog, hr, hr.ne]
  · intro h; rw [C09_safe_exp_total]; simp [Spec.npExp, h]

/-- Non-vacuity: in exact arithmetic, `safe_log(e²) = 2`, although `math.log` alone raises at 0. -/
example : safeLog (.fin (Real.exp 2) : Ex) = .ok (.fin 2) ∧
    Arith.log (.fin 0 : Ex) = .error .valueError := by
  constructor
  · rw [C09_safe_log_total _ FP.exact_sound]
    have := Real.exp_pos 2
    simp [Spec.npLog, not_lt.2 this.le, this.ne', FP.exact]
  · show XR.log (.fin 0) = _
    simp [XR.log]

end PurePredict
