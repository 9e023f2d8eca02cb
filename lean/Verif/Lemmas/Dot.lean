import Verif.Model.Base
import Verif.Lemmas.XR
import Verif.Lemmas.Sparse
import Mathlib.Algebra.BigOperators.Group.Finset.Basic
import Mathlib.Algebra.BigOperators.Intervals
import Mathlib.Tactic.Ring
/-
Sparse and dense inner products.
-/
namespace PurePredict
open Spec

namespace XR
variable {fp : FP}

/-- A representable float: a fixed point of rounding (infinities and NaN always are). -/
def Rep : XR fp → Prop
  | fin r => fp.rnd r = (r : EReal)
  | _ => True

theorem rep_round (hs : fp.Sound) (r : ℝ) : Rep (round r : XR fp) := by
  unfold round ofEReal
  split
  · trivial
  · split
    · trivial
    · rename_i h1 h2
      show fp.rnd (fp.rnd r).toReal = _
      have : fp.rnd r = (((fp.rnd r).toReal : ℝ) : EReal) := (EReal.coe_toReal h1 h2).symm
      exact hs.idem r _ this

theorem round_rep {r : ℝ} (h : fp.rnd r = (r : EReal)) : (round r : XR fp) = fin r := by
  simp [round, h]

theorem rep_add (hs : fp.Sound) (x y : XR fp) : Rep (x +ₚ y) := by
  show Rep (XR.add x y)
  cases x <;> cases y <;> simp only [XR.add] <;> first | trivial | exact rep_round hs _

theorem add_zero_rep {s : XR fp} (h : Rep s) : s +ₚ fin 0 = s := by
  show XR.add s (fin 0) = s
  cases s with
  | fin r => simp only [XR.add, add_zero]; exact round_rep h
  | pinf => rfl
  | ninf => rfl
  | nan => rfl

theorem zero_mul_fin (hs : fp.Sound) (b : ℝ) : (fin 0 : XR fp) *ₚ fin b = fin 0 := by
  show XR.mul (fin 0) (fin b) = _
  simp only [XR.mul, zero_mul, round, hs.zero]
  exact ofEReal_coe 0

theorem rep_zero (hs : fp.Sound) : Rep (fin 0 : XR fp) := hs.zero

end XR

section structural
variable {F : Type} [Arith F]

/-- `dotDict` on a valid sparse row succeeds. -/
theorem dotDict_valid {w : Nat} {d : Dict Int F} (hd : ValidRow w d) {b : List F}
    (hb : b.length = w) (z : F) :
    dotDict d b = .ok (pySum (d.map fun p => p.2 *ₚ b.getD p.1.toNat z)) := by
  unfold dotDict
  have : d.mapM (fun p => do return p.2 *ₚ (← pyGet b p.1)) =
      .ok (d.map fun p => p.2 *ₚ b.getD p.1.toNat z) := by
    apply mapM_ok_map
    intro p hp
    obtain ⟨h0, h1⟩ := hd.2 p hp
    have hlt : p.1.toNat < b.length := by omega
    have : p.1 = ((p.1.toNat : Nat) : Int) := by omega
    have e : pyGet b p.1 = .ok b[p.1.toNat] := by
      conv_lhs => rw [this]
      exact pyGet_lt hlt
    rw [e]
    simp [List.getElem?_eq_getElem hlt]
  rw [this]
  rfl

theorem zipWith_dense {w : Nat} {d : Dict Int F} {b : List F} (hb : b.length = w) (z z' : F) :
    List.zipWith Arith.mul (dense z w d) b =
      (List.range w).map fun i => entry z d i *ₚ b.getD i z' := by
  apply List.ext_getElem
  · simp [dense, hb]
  · intro i h1 h2
    have hi : i < w := by simpa using h2
    simp [dense, List.getElem?_eq_getElem (show i < b.length by omega)]

end structural

section rounded
variable {fp : FP}

theorem entry_cons_of_ne {F : Type} {z : F} {p : Int × F} {d : Dict Int F} {i : Nat}
    (h : p.1 ≠ (i : Int)) : entry z (p :: d) i = entry z d i := by
  simp [entry, h]

theorem entry_cons_self {F : Type} {z : F} {p : Int × F} {d : Dict Int F} {i : Nat}
    (h : p.1 = (i : Int)) : entry z (p :: d) i = p.2 := by
  simp [entry, h]

theorem entry_not_mem {F : Type} {z : F} {d : Dict Int F} {i : Nat}
    (h : ∀ p ∈ d, p.1 ≠ (i : Int)) : entry z d i = z := by
  rw [entry, List.find?_eq_none.2 (by simpa using fun a b hab => h (a, b) hab)]
  rfl

/-- Skipping the columns that are not stored does not change a left-to-right floating point sum
of products with finite weights. -/
theorem foldl_sorted (hs : fp.Sound) {b : Nat → XR fp} (hb : ∀ i, ∃ r, b i = .fin r)
    (n i0 : Nat) (d : Dict Int (XR fp)) (hsort : (d.map Prod.fst).Pairwise (· < ·))
    (hr : ∀ p ∈ d, (i0 : Int) ≤ p.1 ∧ p.1 < ((i0 + n : Nat) : Int)) (s : XR fp) (hrep : XR.Rep s) :
    ((List.range' i0 n).map fun i => entry (.fin 0) d i *ₚ b i).foldl Arith.add s =
      (d.map fun p => p.2 *ₚ b p.1.toNat).foldl Arith.add s := by
  induction n generalizing i0 d s with
  | zero =>
    cases d with
    | nil => rfl
    | cons p d =>
      have := hr p (by simp)
      simp only [Nat.add_zero] at this
      omega
  | succ n ih =>
    rw [List.range'_succ, List.map_cons, List.foldl_cons]
    by_cases hk : ∃ p d', d = p :: d' ∧ p.1 = (i0 : Int)
    · obtain ⟨p, d', rfl, hp⟩ := hk
      rw [List.map_cons, List.foldl_cons, entry_cons_self hp]
      have hpn : p.1.toNat = i0 := by omega
      rw [hpn]
      simp only [List.map_cons, List.pairwise_cons] at hsort
      have hgt : ∀ q ∈ d', (i0 : Int) < q.1 := by
        intro q hq
        have := hsort.1 q.1 (List.mem_map.2 ⟨q, hq, rfl⟩)
        rwa [hp] at this
      rw [← ih (i0 + 1) d' hsort.2 ?_ _ (XR.rep_add hs _ _)]
      · congr 1
        apply List.map_congr_left
        intro i hi
        have : i0 + 1 ≤ i := (List.mem_range'_1.1 hi).1
        rw [entry_cons_of_ne]
        rw [hp]; intro h; omega
      · intro q hq
        have h1 := hgt q hq
        have h2 := (hr q (by simp [hq])).2
        constructor
        · push_cast; omega
        · push_cast at h2 ⊢; omega
    · have hgt : ∀ q ∈ d, (i0 : Int) < q.1 := by
        intro q hq
        cases d with
        | nil => simp at hq
        | cons p d' =>
          have hp0 := (hr p (by simp)).1
          have hpne : p.1 ≠ i0 := fun h => hk ⟨p, d', rfl, h⟩
          rcases List.mem_cons.1 hq with rfl | hq
          · omega
          · simp only [List.map_cons, List.pairwise_cons] at hsort
            have := hsort.1 q.1 (List.mem_map.2 ⟨q, hq, rfl⟩)
            omega
      rw [entry_not_mem (fun q hq h => by have := hgt q hq; omega)]
      obtain ⟨r, hr'⟩ := hb i0
      rw [hr', XR.zero_mul_fin hs, XR.add_zero_rep hrep]
      apply ih (i0 + 1) d hsort _ s hrep
      intro q hq
      have h1 := hgt q hq
      have h2 := (hr q hq).2
      constructor
      · push_cast; omega
      · push_cast at h2 ⊢; omega

/-- In every sound floating point arithmetic the sparse inner product of a row stored in column
order equals the dense one, bit for bit. -/
theorem dotDict_eq_dotList_rounded (hs : fp.Sound) {w : Nat} {d : Dict Int (XR fp)}
    (hd : ValidRow w d) (hsort : (d.map Prod.fst).Pairwise (· < ·)) {b : List (XR fp)}
    (hb : b.length = w) (hfin : ∀ x ∈ b, ∃ r, x = .fin r) :
    dotDict d b = .ok (dotList (dense (.fin 0) w d) b) := by
  rw [dotDict_valid hd hb (.fin 0)]
  congr 1
  rw [dotList, zipWith_dense hb (.fin 0) (.fin 0)]
  unfold pySum
  rw [XR.ofInt_zero hs, List.range_eq_range']
  symm
  apply foldl_sorted hs (b := fun i => b.getD i (.fin 0))
  · intro i
    by_cases hi : i < b.length
    · obtain ⟨r, hr⟩ := hfin b[i] (List.getElem_mem hi)
      exact ⟨r, by simp [List.getElem?_eq_getElem hi, hr]⟩
    · exact ⟨0, by simp [List.getElem?_eq_none (not_lt.1 hi)]⟩
  · exact hsort
  · intro p hp
    have := hd.2 p hp
    constructor
    · simpa using this.1
    · simpa using this.2
  · exact XR.rep_zero hs

end rounded

section exact

/-- A sparse row of finite floats. -/
noncomputable def finD (d : Dict Int ℝ) : Dict Int Ex := d.map fun p => (p.1, .fin p.2)

theorem finD_valid {w : Nat} {d : Dict Int ℝ} (h : ValidRow w d) : ValidRow w (finD d) := by
  refine ⟨?_, ?_⟩
  · have : (finD d).map Prod.fst = d.map Prod.fst := by simp [finD]
    rw [this]; exact h.1
  · intro p hp
    obtain ⟨q, hq, rfl⟩ := List.mem_map.1 hp
    exact h.2 q hq

theorem entry_finD (d : Dict Int ℝ) (i : Nat) : entry (.fin 0) (finD d) i = .fin (entry 0 d i) := by
  induction d with
  | nil => rfl
  | cons p d ih =>
    by_cases h : p.1 = (i : Int)
    · rw [entry_cons_self h]
      exact entry_cons_self (p := (p.1, XR.fin p.2)) h
    · rw [entry_cons_of_ne h, ← ih]
      exact entry_cons_of_ne (p := (p.1, XR.fin p.2)) h

theorem dense_finD (w : Nat) (d : Dict Int ℝ) :
    dense (.fin 0) w (finD d) = fins (dense 0 w d) := by
  simp only [dense, fins, List.map_map]
  apply List.map_congr_left
  intro i _
  exact entry_finD d i

/-- Sum over the stored entries = sum over all columns. -/
theorem sum_sparse_eq_sum_dense {w : Nat} {d : Dict Int ℝ} (hd : ValidRow w d) (b : Nat → ℝ) :
    (d.map fun p => p.2 * b p.1.toNat).sum = ∑ i ∈ Finset.range w, entry 0 d i * b i := by
  induction d with
  | nil => simp [entry]
  | cons p d ih =>
    obtain ⟨h0, h1⟩ := hd.2 p (by simp)
    have hk : p.1 = ((p.1.toNat : Nat) : Int) := by omega
    have hne : ∀ q ∈ d, q.1 ≠ p.1 := by
      intro q hq h
      have := List.nodup_cons.1 hd.1
      exact this.1 (List.mem_map.2 ⟨q, hq, h⟩)
    have hz : entry (0 : ℝ) d p.1.toNat = 0 :=
      entry_not_mem fun q hq h => hne q hq (h.trans hk.symm)
    rw [List.map_cons, List.sum_cons, ih (ValidRow.tail hd)]
    have hmem : p.1.toNat ∈ Finset.range w := by simp; omega
    rw [← Finset.add_sum_erase _ _ hmem, ← Finset.add_sum_erase _ _ hmem]
    rw [entry_cons_self hk, hz]
    have : ∑ x ∈ (Finset.range w).erase p.1.toNat, entry 0 (p :: d) x * b x =
        ∑ x ∈ (Finset.range w).erase p.1.toNat, entry 0 d x * b x := by
      apply Finset.sum_congr rfl
      intro x hx
      rw [entry_cons_of_ne]
      intro h
      have hx' := (Finset.mem_erase.1 hx).1
      omega
    rw [this]
    ring

theorem list_sum_range (f : Nat → ℝ) (w : Nat) :
    ((List.range w).map f).sum = ∑ i ∈ Finset.range w, f i := by
  induction w with
  | zero => simp
  | succ n ih => rw [List.range_succ, List.map_append, List.sum_append, ih,
      Finset.sum_range_succ]; simp

theorem zipWith_dense_real {w : Nat} {d : Dict Int ℝ} {b : List ℝ} (hb : b.length = w) :
    (List.zipWith (· * ·) (dense 0 w d) b).sum =
      ∑ i ∈ Finset.range w, entry 0 d i * b.getD i 0 := by
  rw [← list_sum_range]
  congr 1
  apply List.ext_getElem
  · simp [dense, hb]
  · intro i h1 h2
    have hi : i < w := by simpa using h2
    simp [dense, List.getElem?_eq_getElem (show i < b.length by omega)]

theorem dotList_fins (a b : List ℝ) :
    dotList (fins a) (fins b) = .fin (List.zipWith (· * ·) a b).sum := by
  rw [dotList, zipWith_mul_fins, pySum_fins]

/-- Exact arithmetic: sparse inner product = dense inner product, whatever the order in which the
entries are stored. -/
theorem dotDict_exact {w : Nat} {d : Dict Int ℝ} (hd : ValidRow w d) {b : List ℝ}
    (hb : b.length = w) :
    dotDict (finD d) (fins b) = .ok (dotList (dense (.fin 0) w (finD d)) (fins b)) := by
  rw [dotDict_valid (finD_valid hd) (by simpa using hb) (.fin 0), dense_finD, dotList_fins,
    zipWith_dense_real hb, ← sum_sparse_eq_sum_dense hd]
  congr 1
  have : (finD d).map (fun p => p.2 *ₚ (fins b).getD p.1.toNat (.fin 0)) =
      fins (d.map fun p => p.2 * b.getD p.1.toNat 0) := by
    simp only [finD, fins, List.map_map]
    apply List.map_congr_left
    intro p hp
    have hlt : p.1.toNat < b.length := by have := hd.2 p hp; omega
    simp [List.getElem?_eq_getElem hlt]
  rw [this, pySum_fins]

end exact
end PurePredict
