import Verif.Model.Ensemble
import Verif.Lemmas.Mat
import Verif.Lemmas.Links
import Verif.Lemmas.Rounded
import Mathlib.Data.List.Perm.Basic
import Mathlib.Data.List.Forall2
/-
Bagging: accumulation over the members.
-/
namespace PurePredict
open Spec
variable {F C : Type} [Arith F]

/-- The members of an ensemble with their feature subsets. -/
def Bagging.members (b : Bagging F C) : List (Member F × Option (List Int)) :=
  match b.features with
  | none => b.estimators.map fun e => (e, none)
  | some fs => List.zipWith (fun e f => (e, some f)) b.estimators fs

/-- One feature subset per member (what a fitted bagging estimator has). -/
def Bagging.FeatsOk (b : Bagging F C) : Prop :=
  ∀ fs, b.features = some fs → fs.length = b.estimators.length

theorem Bagging.members_length {b : Bagging F C} (h : b.FeatsOk) :
    b.members.length = b.estimators.length := by
  unfold members
  cases hf : b.features with
  | none => simp
  | some fs => simp [h fs hf]

theorem featSlice_ofMat {M : List (List F)} {f : Option (List Int)} (d : F)
    (h : ∀ fs, f = some fs → ∀ x ∈ M, ∀ i ∈ fs, 0 ≤ i ∧ i < x.length) :
    featSlice (.ofMat M) f = .ok (.ofMat (M.map (columns d f))) := by
  cases f with
  | none =>
    have : columns d none = (id : List F → List F) := rfl
    simp [featSlice, this]
  | some fs =>
    simp only [featSlice, rows_ofMat, py_ok_bind]
    rw [mapM_map', mapM_ok_map (g := columns d (some fs))]
    · rfl
    · intro x hx
      apply mapM_ok_map
      intro i hi
      obtain ⟨h0, h1⟩ := h fs rfl x hx i hi
      have e : i = ((i.toNat : Nat) : Int) := by omega
      show pyGet x i = _
      conv_lhs => rw [e]
      rw [pyGet_ok_nat, List.getD_eq_getElem?_getD]
      have : i.toNat < x.length := by omega
      simp [this]

theorem Bagging.memberProba_eq {b : Bagging F C} (h : b.FeatsOk) (X : Arr F) {j : Nat}
    (hj : j < b.members.length) :
    b.memberProba X j = featSlice X b.members[j].2 >>= b.members[j].1.predictProba := by
  have hj' : j < b.estimators.length := by rwa [← Bagging.members_length h]
  simp only [memberProba, pyGet_lt hj', py_ok_bind, getFeats]
  cases hf : b.features with
  | none =>
    simp only [py_ok_bind]
    simp only [members, hf, List.getElem_map]
  | some fs =>
    have : j < fs.length := by rw [h fs hf]; exact hj'
    simp only [py_ok_bind, pyGet_lt this]
    simp only [members, hf, List.getElem_zipWith]
    rfl

/-- Entry `(i, c)` of the accumulated sums: left-to-right addition over the members. -/
def accEntry (P0 : Nat → Nat → F) (Ps : List (Nat → Nat → F)) (i c : Nat) : F :=
  (Ps.map fun P => P i c).foldl Arith.add (P0 i c)

theorem Bagging.accumulate_eq {b : Bagging F C} {X : Arr F} {n k : Nat} (hn : 0 < n)
    {idxs : List Nat} {Ps : List (Nat → Nat → F)}
    (h : List.Forall₂ (fun j P => b.memberProba X j = .ok (mat n k P)) idxs Ps)
    (P0 : Nat → Nat → F) :
    b.accumulate X idxs (mat n k P0) = .ok (mat n k (accEntry P0 Ps)) := by
  induction h generalizing P0 with
  | nil => rfl
  | cons hj _ ih =>
    simp only [accumulate, hj, py_ok_bind, operate2d_mat hn, ih]
    rfl

/-- `predict_proba` of an ensemble, in any arithmetic: each entry is the members' entries added
from first to last and divided by the number of members. -/
theorem Bagging.predictProba_eq {b : Bagging F C} (hf : b.FeatsOk) {X : Arr F} {n k : Nat}
    (hn : 0 < n) {P0 : Nat → Nat → F} {Ps : List (Nat → Nat → F)}
    (h : List.Forall₂ (fun (m : Member F × Option (List Int)) P =>
      (featSlice X m.2 >>= m.1.predictProba) = .ok (mat n k P)) b.members (P0 :: Ps)) :
    b.predictProba X = apply2d (.ofMat (mat n k (accEntry P0 Ps)))
      fun x => x /ₚ ofInt (b.estimators.length : Int) := by
  have hlen := h.length_eq
  have hget : ∀ j (hj : j < b.members.length), b.memberProba X j =
      .ok (mat n k ((P0 :: Ps)[j]'(by rw [← hlen]; exact hj))) := by
    intro j hj
    rw [Bagging.memberProba_eq hf X hj]
    exact (List.forall₂_iff_get.1 h).2 j hj _
  have h0 : 0 < b.members.length := by rw [hlen]; simp
  have hidx : List.Forall₂ (fun j P => b.memberProba X j = .ok (mat n k P))
      ((List.range b.estimators.length).drop 1) Ps := by
    rw [List.forall₂_iff_get]
    have hl : b.estimators.length = Ps.length + 1 := by
      rw [← Bagging.members_length hf, hlen]; rfl
    refine ⟨by simp [hl], ?_⟩
    intro j h1 h2
    have := hget (j + 1) (by rw [hlen]; simpa using h2)
    simpa [Nat.add_comm] using this
  simp only [predictProba, hget 0 h0, List.getElem_cons_zero, py_ok_bind,
    Bagging.accumulate_eq hn hidx]

theorem accEntry_exact (P0 : Nat → Nat → ℝ) (Ps : List (Nat → Nat → ℝ)) (i c : Nat) :
    accEntry (fun i c => (.fin (P0 i c) : Ex)) (Ps.map fun P i c => .fin (P i c)) i c =
      .fin (((P0 :: Ps).map fun P => P i c).sum) := by
  have := XR.pySum_foldl (Ps.map fun P => P i c) (P0 i c)
  simpa [accEntry, List.map_map, Function.comp_def] using this

end PurePredict
