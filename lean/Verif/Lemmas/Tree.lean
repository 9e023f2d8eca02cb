import Verif.Model.Tree
import Verif.Spec.Tree
import Verif.Lemmas.RowWise
import Verif.Lemmas.Sparse
import Mathlib.Data.Finset.Card
import Mathlib.Order.Interval.Finset.Basic
import Mathlib.Data.Int.Interval
/-
Helper lemmas about array trees.
-/
namespace PurePredict
open Spec
variable {F C : Type} [Arith F]

/-- Node `n` of the parallel arrays encodes the inductive tree. -/
inductive Tree.Encodes (t : Tree F C) : Nat → DTree F → Prop
  | leaf {n : Nat} {a : Int} {v : List F} (hl : t.childrenLeft[n]? = some a)
      (hr : t.childrenRight[n]? = some a) (hv : t.value[n]? = some v) : Encodes t n (.leaf v)
  | node {n l r f : Nat} {thr : F} {lt rt : DTree F}
      (hl : t.childrenLeft[n]? = some (l : Int)) (hr : t.childrenRight[n]? = some (r : Int))
      (hne : l ≠ r) (hf : t.feature[n]? = some (f : Int)) (ht : t.threshold[n]? = some thr)
      (hlt : Encodes t l lt) (hrt : Encodes t r rt) : Encodes t n (.node f thr lt rt)

/-- How the code reads feature `f` of a record: `x[f]` of a list, `x.get(f, 0.0)` of a dict. -/
def Row.look (x : Row F) (f : Nat) : Option F :=
  match x with
  | .list xs => xs[f]?
  | .dict d => some ((d.get? (f : Int)).getD (ofInt 0))
  | .scalar _ => none

/-- The exception raised when a feature is not there. -/
def Row.lookErr (x : Row F) : PyErr :=
  match x with
  | .scalar _ => .typeError
  | _ => .indexError

namespace Tree

theorem featureValue_eq {t : Tree F C} {n f : Nat} (hf : t.feature[n]? = some (f : Int))
    (x : Row F) :
    t.featureValue x (n : Int) = match x.look f with
      | some v => .ok v
      | none => .error x.lookErr := by
  simp only [featureValue, pyGet_ok_nat.2 hf, py_ok_bind]
  cases x with
  | list xs => simp only [Row.look, pyGet_nat, Row.lookErr]; cases xs[f]? <;> rfl
  | dict d => rfl
  | scalar v => rfl

/-- With enough fuel, the loop computes `DTree.eval`. -/
theorem walk_encodes {t : Tree F C} {n : Nat} {dt : DTree F} (h : t.Encodes n dt) (x : Row F)
    (fuel : Nat) (hfuel : dt.depth < fuel) :
    match dt.eval x.look with
    | some v => ∃ k : Nat, t.walk x fuel (n : Int) = .ok (k : Int) ∧ t.value[k]? = some v
    | none => t.walk x fuel (n : Int) = .error x.lookErr := by
  induction h generalizing fuel with
  | @leaf n a v hl hr hv =>
    obtain ⟨fuel, rfl⟩ : ∃ k, fuel = k + 1 := ⟨fuel - 1, by omega⟩
    refine ⟨n, ?_, hv⟩
    simp [walk, step, pyGet_ok_nat.2 hl, pyGet_ok_nat.2 hr]
  | @node n l r f thr lt rt hl hr hne hf ht hlt hrt ihl ihr =>
    obtain ⟨fuel, rfl⟩ : ∃ k, fuel = k + 1 := ⟨fuel - 1, by omega⟩
    simp only [DTree.depth] at hfuel
    have hne' : ((l : Int) == (r : Int)) = false := by simpa using hne
    have hstep : t.step x (n : Int) = match x.look f with
        | some v => .ok (some (if v ≤ₚ thr then (l : Int) else (r : Int)))
        | none => .error x.lookErr := by
      simp only [step, pyGet_ok_nat.2 hl, pyGet_ok_nat.2 hr, py_ok_bind, hne', Bool.false_eq_true,
        if_false, featureValue_eq hf, pyGet_ok_nat.2 ht]
      cases x.look f with
      | none => rfl
      | some v =>
        simp only [py_ok_bind]
        split <;> rfl
    simp only [DTree.eval, walk, hstep]
    cases hx : x.look f with
    | none => rfl
    | some v =>
      simp only [py_ok_bind]
      by_cases hle : (v ≤ₚ thr) = true
      · simp only [hle, if_true]
        exact ihl fuel (by omega)
      · simp only [hle]
        exact ihr fuel (by omega)

/-! #### the fuel is enough -/

/-- The node visited after `i` iterations (`none` once the loop has stopped). -/
def visit (t : Tree F C) (x : Row F) (nd : Int) : Nat → Option Int
  | 0 => some nd
  | i + 1 =>
    match visit t x nd i with
    | none => none
    | some n => match t.step x n with
      | .ok o => o
      | .error _ => none

theorem visit_succ' (t : Tree F C) (x : Row F) (nd : Int) (i : Nat) :
    t.visit x nd (i + 1) = match t.step x nd with
      | .ok (some m) => t.visit x m i
      | _ => none := by
  induction i with
  | zero =>
    simp only [visit]
    cases t.step x nd with
    | error e => rfl
    | ok o => cases o <;> rfl
  | succ i ih =>
    rw [visit, ih]
    cases t.step x nd with
    | error e => rfl
    | ok o => cases o <;> rfl

/-- The result once the loop is at its last node. -/
def stopAt (t : Tree F C) (x : Row F) (n : Int) : Py Int :=
  match t.step x n with
  | .ok _ => .ok n
  | .error e => .error e

/-- The loop stops after `k` iterations at node `n`. -/
def StopsAt (t : Tree F C) (x : Row F) (nd : Int) (k : Nat) (n : Int) : Prop :=
  t.visit x nd k = some n ∧ t.visit x nd (k + 1) = none

theorem walk_of_stops {t : Tree F C} {x : Row F} {nd n : Int} {k : Nat}
    (h : t.StopsAt x nd k n) (fuel : Nat) (hf : k < fuel) :
    t.walk x fuel nd = t.stopAt x n := by
  induction k generalizing nd fuel with
  | zero =>
    obtain ⟨h1, h2⟩ := h
    simp only [visit, Option.some.injEq] at h1
    subst h1
    obtain ⟨fuel, rfl⟩ : ∃ k, fuel = k + 1 := ⟨fuel - 1, by omega⟩
    simp only [visit] at h2
    simp only [walk, stopAt]
    cases hs : t.step x nd with
    | error e => rfl
    | ok o =>
      cases o with
      | none => rfl
      | some m => rw [hs] at h2; cases h2
  | succ k ih =>
    obtain ⟨h1, h2⟩ := h
    obtain ⟨fuel, rfl⟩ : ∃ k, fuel = k + 1 := ⟨fuel - 1, by omega⟩
    rw [visit_succ'] at h1 h2
    simp only [walk]
    cases hs : t.step x nd with
    | error e => rw [hs] at h1; cases h1
    | ok o =>
      cases o with
      | none => rw [hs] at h1; cases h1
      | some m =>
        rw [hs] at h1 h2
        simp only [py_ok_bind]
        exact ih ⟨h1, h2⟩ fuel (by omega)

theorem stops_of_walk {t : Tree F C} {x : Row F} {nd : Int} {fuel : Nat} {res : Py Int}
    (h : t.walk x fuel nd = res) (hne : res ≠ .error .nonTermination) :
    ∃ k n, k < fuel ∧ t.StopsAt x nd k n := by
  induction fuel generalizing nd with
  | zero => exact absurd h.symm hne
  | succ fuel ih =>
    simp only [walk] at h
    cases hs : t.step x nd with
    | error e => exact ⟨0, nd, by omega, rfl, by simp [visit, hs]⟩
    | ok o =>
      cases o with
      | none => exact ⟨0, nd, by omega, rfl, by simp [visit, hs]⟩
      | some m =>
        rw [hs] at h
        simp only [py_ok_bind] at h
        obtain ⟨k, n, h0, h1, h2⟩ := ih h
        refine ⟨k + 1, n, by omega, ?_, ?_⟩
        · rw [visit_succ', hs]; exact h1
        · rw [visit_succ', hs]; exact h2

theorem visit_none_succ {t : Tree F C} {x : Row F} {nd : Int} {i : Nat}
    (h : t.visit x nd i = none) (d : Nat) : t.visit x nd (i + d) = none := by
  induction d with
  | zero => exact h
  | succ d ih => rw [← Nat.add_assoc, visit, ih]

theorem visit_shift {t : Tree F C} {x : Row F} {nd : Int} {i j : Nat}
    (h : t.visit x nd i = t.visit x nd j) (d : Nat) :
    t.visit x nd (i + d) = t.visit x nd (j + d) := by
  induction d with
  | zero => exact h
  | succ d ih => rw [← Nat.add_assoc, ← Nat.add_assoc, visit, visit, ih]

theorem visit_injective {t : Tree F C} {x : Row F} {nd n : Int} {k : Nat}
    (h : t.StopsAt x nd k n) {i j : Nat} (hij : i < j) (hj : j ≤ k) :
    t.visit x nd i ≠ t.visit x nd j := by
  intro he
  have h1 := visit_shift he (k + 1 - j)
  rw [show j + (k + 1 - j) = k + 1 by omega, h.2] at h1
  have h2 := visit_none_succ h1 (k - (i + (k + 1 - j)))
  rw [show i + (k + 1 - j) + (k - (i + (k + 1 - j))) = k by omega, h.1] at h2
  cases h2

theorem pyGet_range {α : Type} {l : List α} {i : Int} {a : α} (h : pyGet l i = .ok a) :
    -(l.length : Int) ≤ i ∧ i < l.length := by
  simp only [pyGet] at h
  by_cases hi : i < 0
  · simp only [if_pos hi] at h
    by_cases h2 : i + (l.length : Int) < 0
    · simp [h2] at h
    · constructor <;> omega
  · simp only [if_neg hi] at h
    cases hg : l[i.toNat]? with
    | none => simp [hg] at h
    | some b =>
      have := (List.getElem?_eq_some_iff.1 hg).1
      constructor <;> omega

/-- A loop that stops visits each node id at most once, so it stops within `2 * len` iterations. -/
theorem stops_bound {t : Tree F C} {x : Row F} {nd n : Int} {k : Nat}
    (h : t.StopsAt x nd k n) : k ≤ 2 * t.childrenLeft.length := by
  have hval : ∀ i < k, ∃ m, t.visit x nd i = some m ∧
      m ∈ Finset.Ico (-(t.childrenLeft.length : Int)) t.childrenLeft.length := by
    intro i hi
    cases hv : t.visit x nd i with
    | none =>
      have := visit_none_succ hv (k - i)
      rw [show i + (k - i) = k by omega, h.1] at this
      cases this
    | some m =>
      refine ⟨m, rfl, ?_⟩
      have hnext : t.visit x nd (i + 1) ≠ none := by
        intro hn
        have := visit_none_succ hn (k - (i + 1))
        rw [show i + 1 + (k - (i + 1)) = k by omega, h.1] at this
        cases this
      rw [visit, hv] at hnext
      cases hl : pyGet t.childrenLeft m with
      | ok a => rw [Finset.mem_Ico]; exact pyGet_range hl
      | error e => simp [step, hl] at hnext
  choose! f hf1 hf2 using hval
  have hinj : Set.InjOn f (Finset.range k : Set Nat) := by
    intro i hi j hj hfij
    have hi : i < k := by simpa using hi
    have hj : j < k := by simpa using hj
    rcases Nat.lt_trichotomy i j with hlt | heq | hgt
    · exact absurd (by rw [hf1 i hi, hf1 j hj, hfij]) (visit_injective h hlt hj.le)
    · exact heq
    · exact absurd (by rw [hf1 i hi, hf1 j hj, hfij]) (visit_injective h hgt hi.le)
  have hcard := Finset.card_le_card_of_injOn (s := Finset.range k)
    (t := Finset.Ico (-(t.childrenLeft.length : Int)) t.childrenLeft.length) f
    (fun i hi => hf2 i (by simpa using hi)) hinj
  rw [Finset.card_range, Int.card_Ico] at hcard
  omega

/-- The fuel of `getLeafNode` is adequate: if the loop stops (with a result or an exception) within
any number of iterations, `getLeafNode` gives that outcome. -/
theorem walk_fuel_adequate {t : Tree F C} {x : Row F} {fuel : Nat} {res : Py Int}
    (h : t.walk x fuel 0 = res) (hne : res ≠ .error .nonTermination) : t.getLeafNode x = res := by
  obtain ⟨k, n, hlt, hk⟩ := stops_of_walk h hne
  rw [getLeafNode, walk_of_stops hk _ (by have := stops_bound hk; omega), ← h,
    walk_of_stops hk fuel hlt]

/-- `_get_leaf_node` on an encoded tree. -/
theorem getLeafNode_encodes {t : Tree F C} {dt : DTree F} (h : t.Encodes 0 dt) (x : Row F) :
    match dt.eval x.look with
    | some v => ∃ k : Nat, t.getLeafNode x = .ok (k : Int) ∧ t.value[k]? = some v
    | none => t.getLeafNode x = .error x.lookErr := by
  have hw := walk_encodes h x (dt.depth + 1) (by omega)
  cases he : dt.eval x.look with
  | some v =>
    rw [he] at hw
    obtain ⟨k, h1, h2⟩ := hw
    exact ⟨k, walk_fuel_adequate h1 (by simp), h2⟩
  | none =>
    rw [he] at hw
    exact walk_fuel_adequate hw (by cases x <;> simp [Row.lookErr])

end Tree
end PurePredict
