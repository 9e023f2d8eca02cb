import Verif.Spec.Recode
import Verif.Lemmas.ShuffleFit
/-
Changes of units in exact arithmetic.
-/
namespace PurePredict
open Spec
variable {fp : FP}

/-! ### One value -/

theorem exact_on_fin (c : Change) (x : ℝ) : (c.on (.fin x) : Ex) = .fin (c.factor * x + c.offset) := by
  simp [Change.on]

theorem exact_on_nan (c : Change) : (c.on .nan : Ex) = .nan := rfl

theorem exact_add_zero (x : Ex) : x +ₚ .fin 0 = x := by
  cases x <;> first | rfl | simp

theorem exact_inf_add (b : ℝ) : ((.pinf : Ex) +ₚ .fin b = .pinf) ∧ ((.ninf : Ex) +ₚ .fin b = .ninf) ∧ ((.nan : Ex) +ₚ .fin b = .nan) := ⟨rfl, rfl, rfl⟩

theorem infMul_pos {p : Bool} {a : ℝ} (h : 0 < a) : (XR.infMul p a : XR fp) = if p then .pinf else .ninf := by
  cases p <;> simp [XR.infMul, h, h.ne']

theorem infMul_neg {p : Bool} {a : ℝ} (h : a < 0) : (XR.infMul p a : XR fp) = if p then .ninf else .pinf := by
  cases p <;> simp [XR.infMul, h.ne, not_lt.2 h.le]

theorem infMul_zero {p : Bool} : (XR.infMul p 0 : XR fp) = .nan := by simp [XR.infMul]

theorem exact_on_pinf {c : Change} (h : 0 < c.factor) : (c.on .pinf : Ex) = .pinf := by
  show (XR.add (XR.infMul true c.factor) (.fin c.offset) : Ex) = _
  rw [infMul_pos h]
  rfl

theorem exact_on_ninf {c : Change} (h : 0 < c.factor) : (c.on .ninf : Ex) = .ninf := by
  show (XR.add (XR.infMul false c.factor) (.fin c.offset) : Ex) = _
  rw [infMul_pos h]
  rfl

theorem exact_on_pinf' {c : Change} (h : c.factor < 0) : (c.on .pinf : Ex) = .ninf := by
  show (XR.add (XR.infMul true c.factor) (.fin c.offset) : Ex) = _
  rw [infMul_neg h]
  rfl

theorem exact_on_ninf' {c : Change} (h : c.factor < 0) : (c.on .ninf : Ex) = .pinf := by
  show (XR.add (XR.infMul false c.factor) (.fin c.offset) : Ex) = _
  rw [infMul_neg h]
  rfl

theorem exact_on_one (x : Ex) : Change.on ⟨1, 0⟩ x = x := by
  cases x with
  | fin x => simp [exact_on_fin]
  | pinf => exact exact_on_pinf (by norm_num)
  | ninf => exact exact_on_ninf (by norm_num)
  | nan => rfl

/-- subtracting the mean -/
theorem exact_centre {c : Change} (h : 0 < c.factor) (m : ℝ) (x : Ex) :
    c.on x -ₚ .fin (c.factor * m + c.offset) = Change.on ⟨c.factor, 0⟩ (x -ₚ .fin m) := by
  cases x with
  | fin x =>
    simp only [exact_on_fin, XR.sub_exact]
    congr 1
    ring
  | pinf => rw [exact_on_pinf h]; exact (exact_on_pinf (c := ⟨c.factor, 0⟩) h).symm
  | ninf => rw [exact_on_ninf h]; exact (exact_on_ninf (c := ⟨c.factor, 0⟩) h).symm
  | nan => rfl

theorem quotOr_fin {a b : ℝ} (hb : b ≠ 0) : quotOr (.fin a : Ex) (.fin b) = .fin (a / b) := by
  unfold quotOr
  rw [XR.div_exact a hb]

theorem quotOr_of {a b q : XR fp} (h : XR.div a b = .ok q) : quotOr a b = q := by
  unfold quotOr
  rw [show (a /ₚ b : Py (XR fp)) = .ok q from h]

theorem quotOr_pinf {b : ℝ} (hb : b ≠ 0) : quotOr (.pinf : XR fp) (.fin b) = .infMul true b := quotOr_of (by simp [XR.div, hb])

theorem quotOr_ninf {b : ℝ} (hb : b ≠ 0) : quotOr (.ninf : XR fp) (.fin b) = .infMul false b := quotOr_of (by simp [XR.div, hb])

theorem quotOr_nan {b : ℝ} (hb : b ≠ 0) : quotOr (.nan : XR fp) (.fin b) = .nan := quotOr_of (by simp [XR.div, hb])

theorem infMul_scaled {p : Bool} {a b : ℝ} (h : 0 < a) : (XR.infMul p (a * b) : XR fp) = .infMul p b := by
  unfold XR.infMul
  simp [h, h.ne', mul_pos_iff_of_pos_left]

theorem infMul_rate {p : Bool} {a b : ℝ} (h : 0 < a) : (XR.infMul p (b / a) : XR fp) = .infMul p b := by
  rw [div_eq_inv_mul]
  exact infMul_scaled (inv_pos.2 h)

/-- dividing by the spread -/
theorem exact_divide {c : Change} (h : 0 < c.factor) {s : ℝ} (hs : s ≠ 0) (x : Ex) :
    quotOr (c.on x) (.fin (c.factor * s)) = Change.on ⟨1, c.offset / (c.factor * s)⟩ (quotOr x (.fin s)) := by
  have h2 : c.factor * s ≠ 0 := mul_ne_zero h.ne' hs
  cases x with
  | fin x =>
    simp only [exact_on_fin, quotOr_fin h2, quotOr_fin hs]
    congr 1
    have := h.ne'
    field_simp
  | pinf =>
    rw [exact_on_pinf h, quotOr_pinf h2, quotOr_pinf hs, infMul_scaled h]
    rcases lt_or_gt_of_ne hs with g | g
    · rw [infMul_neg g]; exact (exact_on_ninf (c := ⟨1, _⟩) (by norm_num)).symm
    · rw [infMul_pos g]; exact (exact_on_pinf (c := ⟨1, _⟩) (by norm_num)).symm
  | ninf =>
    rw [exact_on_ninf h, quotOr_ninf h2, quotOr_ninf hs, infMul_scaled h]
    rcases lt_or_gt_of_ne hs with g | g
    · rw [infMul_neg g]; exact (exact_on_pinf (c := ⟨1, _⟩) (by norm_num)).symm
    · rw [infMul_pos g]; exact (exact_on_ninf (c := ⟨1, _⟩) (by norm_num)).symm
  | nan => rw [exact_on_nan, quotOr_nan h2, quotOr_nan hs, exact_on_nan]

/-- a value with its rate -/
theorem exact_rate {c : Change} (h : c.factor ≠ 0) (r : ℝ) (x : Ex) :
    c.on x *ₚ .fin (r / c.factor) = (x *ₚ .fin r) +ₚ .fin (r / c.factor * c.offset) := by
  have inf : ∀ p : Bool, (XR.infMul p r : Ex) +ₚ .fin (r / c.factor * c.offset) = .infMul p r := by
    intro p
    rcases lt_trichotomy r 0 with g | g | g
    · rw [infMul_neg g]; cases p <;> rfl
    · subst g; rw [infMul_zero]; rfl
    · rw [infMul_pos g]; cases p <;> rfl
  have flip : ∀ p : Bool, c.factor < 0 → (XR.infMul (!p) (r / c.factor) : Ex) = .infMul p r := by
    intro p g0
    rcases lt_trichotomy r 0 with g | g | g
    · rw [infMul_neg g, infMul_pos (div_pos_of_neg_of_neg g g0)]; cases p <;> rfl
    · subst g; simp [infMul_zero]
    · rw [infMul_pos g, infMul_neg (div_neg_of_pos_of_neg g g0)]; cases p <;> rfl
  cases x with
  | fin x =>
    simp only [exact_on_fin, XR.mul_exact, XR.add_exact]
    congr 1
    field_simp
  | pinf =>
    rcases lt_or_gt_of_ne h with g | g
    · rw [exact_on_pinf' g]
      show (XR.infMul false (r / c.factor) : Ex) = (XR.infMul true r : Ex) +ₚ _
      rw [inf]
      exact flip true g
    · rw [exact_on_pinf g]
      show (XR.infMul true (r / c.factor) : Ex) = (XR.infMul true r : Ex) +ₚ _
      rw [inf, infMul_rate g]
  | ninf =>
    rcases lt_or_gt_of_ne h with g | g
    · rw [exact_on_ninf' g]
      show (XR.infMul true (r / c.factor) : Ex) = (XR.infMul false r : Ex) +ₚ _
      rw [inf]
      exact flip false g
    · rw [exact_on_ninf g]
      show (XR.infMul false (r / c.factor) : Ex) = (XR.infMul false r : Ex) +ₚ _
      rw [inf, infMul_rate g]
  | nan => rfl

/-- an offset and its correction -/
theorem exact_correct (d m : ℝ) (x : Ex) : Change.on ⟨1, d⟩ x +ₚ .fin (m - d) = x +ₚ .fin m := by
  cases x with
  | fin x =>
    simp only [exact_on_fin, XR.add_exact]
    congr 1
    ring
  | pinf => rw [exact_on_pinf (by norm_num)]; rfl
  | ninf => rw [exact_on_ninf (by norm_num)]; rfl
  | nan => rfl

theorem exact_correct' (d : ℝ) (x y : Ex) : (x +ₚ .fin d) +ₚ (y -ₚ .fin d) = x +ₚ y := by
  cases x <;> cases y <;> first
    | rfl
    | (simp only [XR.add_exact, XR.sub_exact]; congr 1; ring)
    | (simp only [XR.add_exact, XR.sub_exact]; rfl)

/-- weighting -/
theorem exact_weight (c : Change) (h : 0 < c.factor) (r : ℝ) (x : Ex) :
    c.on x *ₚ .fin r = Change.on ⟨c.factor, c.offset * r⟩ (x *ₚ .fin r) := by
  have inf : ∀ p : Bool, (Change.on ⟨c.factor, c.offset * r⟩ (XR.infMul p r) : Ex) = .infMul p r := by
    intro p
    rcases lt_trichotomy r 0 with g | g | g
    · rw [infMul_neg g]; cases p
      · exact exact_on_pinf (c := ⟨_, _⟩) h
      · exact exact_on_ninf (c := ⟨_, _⟩) h
    · subst g; rw [infMul_zero]; rfl
    · rw [infMul_pos g]; cases p
      · exact exact_on_ninf (c := ⟨_, _⟩) h
      · exact exact_on_pinf (c := ⟨_, _⟩) h
  cases x with
  | fin x =>
    simp only [exact_on_fin, XR.mul_exact]
    congr 1
    ring
  | pinf => rw [exact_on_pinf h]; exact (inf true).symm
  | ninf => rw [exact_on_ninf h]; exact (inf false).symm
  | nan => rfl

/-- the order is kept -/
theorem exact_le {c : Change} (h : 0 < c.factor) (x y : Ex) : (c.on x ≤ₚ c.on y) = (x ≤ₚ y) := by
  cases x <;> cases y <;> simp only [exact_on_fin, exact_on_pinf h, exact_on_ninf h, exact_on_nan, XR.le_fin] <;> first
    | rfl
    | (simp [mul_le_mul_iff_right₀ h])

/-! ### Records -/

theorem Spec.Recoded.lengths {φs : List (Code fp)} {x y : List (XR fp)} (h : Recoded φs x y) : x.length = φs.length ∧ y.length = φs.length := by
  induction h with
  | nil => exact ⟨rfl, rfl⟩
  | cons _ ih => simp [ih.1, ih.2]

theorem Spec.Recoded.get {φs : List (Code fp)} {x y : List (XR fp)} (h : Recoded φs x y) {i : Nat} {φ : Code fp} (hi : φs[i]? = some φ) :
    y[i]? = x[i]?.map φ := by
  induction h generalizing i with
  | nil => simp at hi
  | cons _ ih =>
    cases i with
    | zero => cases hi; rfl
    | succ i => exact ih (i := i) hi

theorem Spec.Recoded.append {φs ψs : List (Code fp)} {x y u v : List (XR fp)} (h : Recoded φs x y) (h' : Recoded ψs u v) :
    Recoded (φs ++ ψs) (x ++ u) (y ++ v) := by
  induction h with
  | nil => exact h'
  | cons _ ih => exact .cons ih

theorem recoded_same (x : List (XR fp)) : Recoded (asIs fp x.length) x x := by
  induction x with
  | nil => exact .nil
  | cons a x ih => exact .cons (φ := id) ih

theorem recoded_asIs {n : Nat} {x y : List (XR fp)} (h : Recoded (asIs fp n) x y) : x = y := by
  generalize hφ : asIs fp n = φs at h
  induction h generalizing n with
  | nil => rfl
  | cons _ ih =>
    cases n with
    | zero => simp [asIs] at hφ
    | succ n =>
      obtain ⟨rfl, h2⟩ := List.cons.inj hφ
      rw [ih (n := n) h2]
      rfl

/-- an operation with a parameter for every column -/
theorem recoded_zip {cs : List Change} {φ : Change → Code fp} {g : XR fp → XR fp → XR fp} {q : Change → ℝ → ℝ} {ψ : Change → ℝ → Code fp} {m : List ℝ}
    {x y : List (XR fp)} (hm : m.length = cs.length) (hg : ∀ c ∈ cs, ∀ r ∈ m, ∀ a, g (φ c a) (.fin (q c r)) = ψ c r (g a (.fin r)))
    (h : Recoded (cs.map φ) x y) : Recoded (cs.zipWith ψ m) (x.zipWith g (floats fp m)) (y.zipWith g (floats fp (cs.zipWith q m))) := by
  induction cs generalizing m x y with
  | nil =>
    cases h
    cases m with
    | nil => exact .nil
    | cons _ _ => simp at hm
  | cons c cs ih =>
    cases m with
    | nil => simp at hm
    | cons r m =>
      cases h with
      | @cons _ _ a x y h =>
        simp only [floats, List.zipWith_cons_cons, List.map_cons]
        rw [hg c (by simp) r (by simp) a]
        exact .cons (ih (by simpa using hm) (fun c hc r hr => hg c (by simp [hc]) r (by simp [hr])) h)

theorem zipWith_const {α β γ : Type} (f : α → γ) {l : List α} {m : List β} (h : m.length = l.length) : (l.zipWith (fun a _ => f a) m) = l.map f := by
  induction l generalizing m with
  | nil => rfl
  | cons a l ih =>
    cases m with
    | nil => simp at h
    | cons b m => simp [ih (m := m) (by simpa using h)]

theorem map_id_asIs {α : Type} (l : List α) : (l.map fun _ => (id : Code fp)) = asIs fp l.length := by
  induction l with
  | nil => rfl
  | cons a l ih => simp only [List.map_cons, ih]; rfl

end PurePredict
