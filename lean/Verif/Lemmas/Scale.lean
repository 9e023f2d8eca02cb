import Verif.Spec.Scale
import Verif.Spec.Matrix
import Verif.Model.Preprocessing
import Verif.Lemmas.Sparse
import Verif.Lemmas.Dot
import Verif.Lemmas.Rounded
/-
Column-wise scaling of dense and sparse matrices.
-/
namespace PurePredict
open Spec

section
variable {F : Type} [Arith F]

theorem columnwise_ok {p : List F} {f : F → F → Py F} {M : List (List F)} {w : Nat} (hw : Rect w M)
    (hp : p.length = w) (d : F) {g : Nat → F → F}
    (h : ∀ r ∈ M, ∀ i, i < w → f (r.getD i d) (p.getD i d) = .ok (g i (r.getD i d))) :
    columnwise p f (M.map Row.list) = .ok ((onColumns d w g M).map Row.list) := by
  unfold columnwise onColumns
  rw [mapM_map', List.map_map]
  apply mapM_ok_map
  intro r hr
  rw [hp, range_mapM (g := fun i => g i (r.getD i d))]
  · rfl
  · intro i hi
    have h1 : i < r.length := by rw [hw r hr]; exact hi
    have h2 : i < p.length := by rw [hp]; exact hi
    have := h r hr i hi
    simp only [List.getD_eq_getElem?_getD, List.getElem?_eq_getElem h1,
      List.getElem?_eq_getElem h2, Option.getD_some] at this ⊢
    simp only [Row.getItem, pyGet_lt h1, pyGet_lt h2, py_ok_bind, this]

omit [Arith F] in
/-- Entries of a sparse row whose values are changed in a way that keeps zero. -/
theorem entry_mapKV {z : F} {g : Int → F → F} (d : Dict Int F) (i : Nat) (hz : g i z = z) :
    entry z (d.map fun kv => (kv.1, g kv.1 kv.2)) i = g i (entry z d i) := by
  induction d with
  | nil => simp [entry, hz]
  | cons p d ih =>
    by_cases h : p.1 = (i : Int)
    · rw [List.map_cons, entry_cons_self (by exact h), entry_cons_self h, h]
    · rw [List.map_cons, entry_cons_of_ne (by exact h), entry_cons_of_ne h, ih]

omit [Arith F] in
theorem validRow_mapKV {w : Nat} {g : Int → F → F} {d : Dict Int F} (h : ValidRow w d) :
    ValidRow w (d.map fun kv => (kv.1, g kv.1 kv.2)) := by
  refine ⟨?_, ?_⟩
  · rw [List.map_map]
    exact h.1
  · intro p hp
    obtain ⟨q, hq, rfl⟩ := List.mem_map.1 hp
    exact h.2 q hq
end

namespace XR
variable {fp : FP}

/-- The quotient by a non-zero finite number. -/
noncomputable def quot (x : XR fp) (b : ℝ) : XR fp :=
  match x with
  | fin a => round (a / b)
  | pinf => infMul true b
  | ninf => infMul false b
  | nan => nan

theorem div_quot (x : XR fp) {b : ℝ} (hb : b ≠ 0) : x /ₚ fin b = .ok (quot x b) := by
  cases x <;> show XR.div _ _ = _ <;> simp [XR.div, quot, hb]

theorem quot_zero (hs : fp.Sound) (b : ℝ) : quot (fin 0 : XR fp) b = fin 0 := by
  simp only [quot, zero_div]
  exact round_rep hs.zero

@[simp] theorem quot_exact (a b : ℝ) : quot (fin a : Ex) b = fin (a / b) := by
  simp [quot]

/-- Rounded subtraction is monotone in its first argument. -/
theorem sub_mono (hs : fp.Sound) {x y : XR fp} {m : ℝ} (hx : x ≠ nan) (hy : y ≠ nan)
    (h : toE x ≤ toE y) :
    toE (x -ₚ (fin m)) ≤ toE (y -ₚ (fin m)) ∧ x -ₚ (fin m) ≠ nan ∧ y -ₚ (fin m) ≠ nan := by
  have hnn : ∀ z : XR fp, z ≠ nan → z -ₚ (fin m) ≠ nan := by
    intro z hz
    cases z with
    | fin a => exact round_ne_nan _
    | pinf => intro h; cases h
    | ninf => intro h; cases h
    | nan => exact absurd rfl hz
  refine ⟨?_, hnn x hx, hnn y hy⟩
  cases x with
  | nan => exact absurd rfl hx
  | ninf => exact bot_le
  | pinf =>
    cases y with
    | pinf => exact le_rfl
    | fin b => exact absurd h (by simp [toE])
    | ninf => exact absurd h (by simp [toE])
    | nan => exact absurd rfl hy
  | fin a =>
    cases y with
    | nan => exact absurd rfl hy
    | pinf => exact le_top
    | ninf => exact absurd h (by simp [toE])
    | fin b =>
      show toE (round (a + -m)) ≤ toE (round (b + -m))
      rw [toE_round, toE_round]
      apply hs.mono
      have h' : (a : EReal) ≤ (b : EReal) := h
      have : a ≤ b := by exact_mod_cast h'
      linarith

/-- Rounded division by a positive number is monotone. -/
theorem quot_mono (hs : fp.Sound) {x y : XR fp} {s : ℝ} (hpos : 0 < s) (hx : x ≠ nan) (hy : y ≠ nan)
    (h : toE x ≤ toE y) : toE (quot x s) ≤ toE (quot y s) := by
  have hp : (infMul true s : XR fp) = pinf := by simp [infMul, hpos, hpos.ne']
  have hn : (infMul false s : XR fp) = ninf := by simp [infMul, hpos, hpos.ne']
  cases x with
  | nan => exact absurd rfl hx
  | ninf => simp [quot, hn, toE]
  | pinf =>
    cases y with
    | pinf => exact le_rfl
    | fin b => exact absurd h (by simp [toE])
    | ninf => exact absurd h (by simp [toE])
    | nan => exact absurd rfl hy
  | fin a =>
    cases y with
    | nan => exact absurd rfl hy
    | pinf => simp [quot, hp, toE]
    | ninf => exact absurd h (by simp [toE])
    | fin b =>
      show toE (round (a / s)) ≤ toE (round (b / s))
      rw [toE_round, toE_round]
      apply hs.mono
      have h' : (a : EReal) ≤ (b : EReal) := h
      have : a ≤ b := by exact_mod_cast h'
      exact div_le_div_of_nonneg_right this hpos.le

/-- A rounded quotient of absolute value at most 1 stays in [-1, 1]. -/
theorem quot_abs_le_one (hs : fp.Sound) {a s : ℝ} (hpos : 0 < s) (h : |a| ≤ s) :
    ∃ r, quot (fin a : XR fp) s = fin r ∧ |r| ≤ 1 := by
  obtain ⟨h1, h2⟩ := abs_le.1 h
  have e1 : -1 ≤ a / s := by rw [le_div_iff₀ hpos]; linarith
  have e2 : a / s ≤ 1 := by rw [div_le_one hpos]; exact h2
  have b1 := hs.mono e1
  have b2 := hs.mono e2
  rw [hs.neg, hs.one] at b1
  rw [hs.one] at b2
  have hnt : fp.rnd (a / s) ≠ ⊤ := by
    intro e; rw [e] at b2; exact absurd b2 (by rw [not_le]; exact EReal.coe_lt_top 1)
  have hnb : fp.rnd (a / s) ≠ ⊥ := by
    intro e; rw [e] at b1; exact absurd b1 (by
      rw [not_le]; exact EReal.bot_lt_coe (-1))
  refine ⟨(fp.rnd (a / s)).toReal, ?_, ?_⟩
  · simp only [quot, round, ofEReal, hnt, hnb, if_false]
  · lift fp.rnd (a / s) to ℝ using ⟨hnt, hnb⟩ with r hr
    rw [EReal.toReal_coe, abs_le]
    constructor
    · have : ((-1 : ℝ) : EReal) ≤ (r : EReal) := b1
      exact_mod_cast this
    · have : (r : EReal) ≤ ((1 : ℝ) : EReal) := b2
      exact_mod_cast this

end XR

/-- `scaleDicts` on valid rows with non-zero finite scales. -/
theorem scaleDicts_ok {fp : FP} {w : Nat} {S : List ℝ} (hS : S.length = w)
    (hne : ∀ s ∈ S, s ≠ 0) {ds : List (Dict Int (XR fp))} (hd : ∀ d ∈ ds, ValidRow w d) :
    scaleDicts (some (S.map XR.fin)) ds =
      .ok (ds.map fun d => d.map fun kv => (kv.1, XR.quot kv.2 (S.getD kv.1.toNat 1))) := by
  unfold scaleDicts
  apply mapM_ok_map
  intro d hdm
  apply mapM_ok_map
  intro kv hkv
  obtain ⟨h0, h1⟩ := (hd d hdm).2 kv hkv
  have hlt : kv.1.toNat < S.length := by rw [hS]; omega
  have hg : pyGet (S.map XR.fin : List (XR fp)) kv.1 = .ok (.fin (S.getD kv.1.toNat 1)) := by
    have : kv.1 = ((kv.1.toNat : Nat) : Int) := by omega
    conv_lhs => rw [this]
    rw [pyGet_lt (by simpa using hlt)]
    simp [List.getD_eq_getElem?_getD, hlt]
  have hn : S.getD kv.1.toNat 1 ≠ 0 := by
    rw [List.getD_eq_getElem?_getD, List.getElem?_eq_getElem hlt]
    exact hne _ (List.getElem_mem hlt)
  simp only [notNone, py_ok_bind, hg, XR.div_quot _ hn, py_pure]

theorem entry_scaled {fp : FP} (hs : fp.Sound) (S : List ℝ) (d : Dict Int (XR fp)) (i : Nat) :
    entry (.fin 0) (d.map fun kv => (kv.1, XR.quot kv.2 (S.getD kv.1.toNat 1))) i =
      XR.quot (entry (.fin 0) d i) (S.getD i 1) := by
  have := entry_mapKV (z := (XR.fin 0 : XR fp)) (g := fun k v => XR.quot v (S.getD k.toNat 1)) d i
    (XR.quot_zero hs _)
  simpa using this

end PurePredict
