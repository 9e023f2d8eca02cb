import Verif.Py.XR
import Verif.Lemmas.Basic
/-
Computation rules for the extended-real instances.
-/
namespace PurePredict
open scoped Classical

namespace XR
variable {fp : FP}

@[simp] theorem ofEReal_coe (r : ℝ) : (ofEReal (r : EReal) : XR fp) = fin r := by
  simp [ofEReal]

@[simp] theorem ofEReal_top : (ofEReal ⊤ : XR fp) = pinf := by simp [ofEReal]
@[simp] theorem ofEReal_bot : (ofEReal ⊥ : XR fp) = ninf := by simp [ofEReal]

theorem fin_inj {a b : ℝ} : (fin a : XR fp) = fin b ↔ a = b := by
  constructor
  · intro h; cases h; rfl
  · rintro rfl; rfl

/-! #### exact arithmetic -/

@[simp] theorem round_exact (r : ℝ) : (round r : Ex) = fin r := by
  simp [round, FP.exact]

@[simp] theorem ofInt_exact (n : Int) : (ofInt n : Ex) = fin n := round_exact n

@[simp] theorem ofRat_exact (n : Int) (d : Nat) : (ofRat n d : Ex) = fin ((n : ℝ) / d) :=
  round_exact _

@[simp] theorem add_exact (a b : ℝ) : (fin a : Ex) +ₚ fin b = fin (a + b) := round_exact _

@[simp] theorem neg_fin (a : ℝ) : Arith.neg (fin a : XR fp) = fin (-a) := rfl

@[simp] theorem abs_fin (a : ℝ) : Arith.abs (fin a : XR fp) = fin |a| := rfl

@[simp] theorem sub_exact (a b : ℝ) : (fin a : Ex) -ₚ fin b = fin (a - b) := by
  rw [sub_eq_add_neg]; exact round_exact _

@[simp] theorem mul_exact (a b : ℝ) : (fin a : Ex) *ₚ fin b = fin (a * b) := round_exact _

theorem div_fin (a b : ℝ) : (fin a : XR fp) /ₚ fin b =
    if b = 0 then .error .zeroDivisionError else .ok (round (a / b)) := rfl

theorem div_exact (a : ℝ) {b : ℝ} (h : b ≠ 0) : (fin a : Ex) /ₚ fin b = .ok (fin (a / b)) := by
  rw [div_fin, if_neg h, round_exact]

@[simp] theorem sq_exact (a : ℝ) : Arith.sq (fin a : Ex) = .ok (fin (a * a)) := by
  show XR.sq (fin a) = _
  simp [XR.sq]

@[simp] theorem exp_exact (a : ℝ) : Arith.exp (fin a : Ex) = .ok (fin (Real.exp a)) := rfl

theorem log_exact {a : ℝ} (h : 0 < a) : Arith.log (fin a : Ex) = .ok (fin (Real.log a)) := by
  show XR.log (fin a) = _
  simp [XR.log, not_le.2 h, FP.exact]

theorem sqrt_exact {a : ℝ} (h : 0 ≤ a) : Arith.sqrt (fin a : Ex) = .ok (fin (Real.sqrt a)) := by
  show XR.sqrt (fin a) = _
  simp [XR.sqrt, not_lt.2 h]

@[simp] theorem lt_fin (a b : ℝ) : ((fin a : XR fp) <ₚ fin b) = decide (a < b) := rfl

@[simp] theorem eq_fin (a b : ℝ) : ((fin a : XR fp) ==ₚ fin b) = decide (a = b) := rfl

@[simp] theorem le_fin (a b : ℝ) : ((fin a : XR fp) ≤ₚ fin b) = decide (a ≤ b) := by
  show XR.le (fin a) (fin b) = _
  simp only [XR.le, XR.lt, XR.eq]
  rw [← Bool.decide_or]
  simp [le_iff_lt_or_eq]

@[simp] theorem isnan_fin (a : ℝ) : Arith.isnan (fin a : XR fp) = false := rfl
@[simp] theorem isnan_nan : Arith.isnan (nan : XR fp) = true := rfl

theorem pySum_foldl (l : List ℝ) (a : ℝ) :
    (l.map (fin : ℝ → Ex)).foldl Arith.add (fin a) = fin (a + l.sum) := by
  induction l generalizing a with
  | nil => simp
  | cons x l ih =>
    simp only [List.map_cons, List.foldl_cons, add_exact, ih, List.sum_cons, add_assoc]

@[simp] theorem pySum_exact (l : List ℝ) : pySum (l.map (fin : ℝ → Ex)) = fin l.sum := by
  unfold pySum
  rw [ofInt_exact, pySum_foldl]
  simp

@[simp] theorem ofBool_exact (b : Bool) : (ofBool b : Ex) = fin (if b then 1 else 0) := by
  cases b <;> simp [ofBool]

end XR

/-- `dtype(0)` is the number 0. -/
theorem castTo_zero_exact (dt : DType) : castTo dt (ofInt 0 : Ex) = .ok (.fin 0) := by
  cases dt
  · show XR.trunc (ofInt 0 : Ex) = _
    simp [XR.trunc]
  · simp [castTo]
  · simp [castTo]

/-- A list of finite floats. -/
noncomputable def fins (l : List ℝ) : List Ex := l.map XR.fin

theorem fins_def (l : List ℝ) : fins l = l.map XR.fin := rfl

@[simp] theorem fins_length (l : List ℝ) : (fins l).length = l.length := by simp [fins]

@[simp] theorem pySum_fins (l : List ℝ) : pySum (fins l) = .fin l.sum := XR.pySum_exact l

@[simp] theorem fins_nil : fins [] = [] := rfl
@[simp] theorem fins_cons (a : ℝ) (l : List ℝ) : fins (a :: l) = .fin a :: fins l := rfl
theorem fins_append (a b : List ℝ) : fins (a ++ b) = fins a ++ fins b := by simp [fins]

/-- `mapM` of a function that is exact on finite floats. -/
theorem mapM_fins {f : Ex → Py Ex} {g : ℝ → ℝ} {l : List ℝ}
    (h : ∀ x ∈ l, f (.fin x) = .ok (.fin (g x))) : (fins l).mapM f = .ok (fins (l.map g)) := by
  rw [fins, mapM_map', mapM_ok_map (g := fun x => XR.fin (g x)) h, fins, List.map_map]
  rfl

theorem zipWith_add_fins (a b : List ℝ) :
    List.zipWith Arith.add (fins a) (fins b) = fins (List.zipWith (· + ·) a b) := by
  simp [fins, List.zipWith_map, List.map_zipWith]

theorem zipWith_mul_fins (a b : List ℝ) :
    List.zipWith Arith.mul (fins a) (fins b) = fins (List.zipWith (· * ·) a b) := by
  simp [fins, List.zipWith_map, List.map_zipWith]

theorem XR.ofInt_zero {fp : FP} (hs : fp.Sound) : (ofInt 0 : XR fp) = .fin 0 := by
  show XR.round ((0 : Int) : ℝ) = _
  simp only [XR.round, Int.cast_zero, hs.zero]
  exact XR.ofEReal_coe 0

theorem XR.ofInt_one {fp : FP} (hs : fp.Sound) : (ofInt 1 : XR fp) = .fin 1 := by
  show XR.round ((1 : Int) : ℝ) = _
  simp only [XR.round, Int.cast_one, hs.one]
  exact XR.ofEReal_coe 1

/-- The equality test with zero identifies zero in every sound floating point arithmetic. -/
theorem XR.eq_zero_of_eqp {fp : FP} (hs : fp.Sound) {v : XR fp}
    (h : (v ==ₚ ofInt 0) = true) : v = .fin 0 := by
  have h0 : (ofInt 0 : XR fp) = .fin 0 := XR.ofInt_zero hs
  rw [h0] at h
  cases v with
  | fin r => simp at h; rw [h]
  | pinf => exact absurd h (by simp [Arith.eq, XR.eq])
  | ninf => exact absurd h (by simp [Arith.eq, XR.eq])
  | nan => exact absurd h (by simp [Arith.eq, XR.eq])

/-- Exact arithmetic is sound. -/
theorem FP.exact_sound : FP.exact.Sound where
  mono := fun _ _ h => by simpa [FP.exact] using h
  zero := rfl
  one := rfl
  neg := fun x => by simp [FP.exact]
  idem := fun x y _ => rfl
  exp_rep := fun r v h => by
    simp only [FP.exact, Option.some.injEq] at h
    subst h
    exact ⟨(Real.exp_pos r).le, rfl⟩
  exp_zero := by simp [FP.exact]
  exp_nonpos := fun r h => ⟨Real.exp r, rfl, by simpa using h⟩

end PurePredict
