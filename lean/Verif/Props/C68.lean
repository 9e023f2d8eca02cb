import Verif.Spec.Single
import Verif.Props.C65
/-
C68: scikit-learn's trees see the records in single precision.
-/
namespace PurePredict
open Spec
variable {C : Type} {fp : FP}

namespace Spec.SkTree

/-- All tests of the tree: feature and threshold. -/
def tests {F : Type} : SkTree F → List (Nat × F)
  | leaf _ => []
  | split _ f thr l r => (f, thr) :: (tests l ++ tests r)

theorem reach_congr {F : Type} [Arith F] (s : SkTree F) (x y : Nat → Option F)
    (h : ∀ t ∈ s.tests, (x t.1 = none ↔ y t.1 = none) ∧
      ∀ a b, x t.1 = some a → y t.1 = some b → (a ≤ₚ t.2) = (b ≤ₚ t.2)) :
    s.reach x = s.reach y := by
  induction s with
  | leaf v => rfl
  | split v f thr l r ihl ihr =>
    have ihl := ihl fun t ht => h t (by simp [tests, ht])
    have ihr := ihr fun t ht => h t (by simp [tests, ht])
    obtain ⟨h1, h2⟩ := h (f, thr) (by simp [tests])
    simp only at h1 h2
    simp only [reach, ihl, ihr]
    cases hx : x f with
    | none => rw [h1.1 hx]
    | some a =>
      cases hy : y f with
      | none => rw [h1.2 hy] at hx; cases hx
      | some b => simp only [h2 a b hx hy]

end Spec.SkTree

/-- A record of finite numbers. -/
noncomputable def reals (x : List ℝ) : List (XR fp) := x.map XR.fin

theorem map_toReal_reals (x : List ℝ) : (reals (fp := fp) x).map XR.toReal = x := by
  simp [reals, Function.comp_def, XR.toReal]

/-- A record of finite numbers as scikit-learn's trees see it. -/
noncomputable def singleRec (x : List ℝ) : List (XR fp) := reals (x.map toSingle)

/-- The claim: a converted regression tree answers every request with the values at the leaves that
the fitted tree reaches, which looks at the records in single precision. -/
def SinglePrecisionFaithful (fp : FP) (C : Type) : Prop :=
  ∀ (s : SkTree (XR fp)), (∀ v ∈ s.values, ∃ a, v = [[a]]) →
    ∃ t : Tree (XR fp) C, convertTree s [] = .ok t ∧
      ∀ (M : List (List ℝ)), M ≠ [] → (∀ x ∈ M, ∀ a ∈ x, InSingleRange a) →
        (∀ x ∈ M, ∀ f ∈ s.features, f < x.length) →
        ∃ ys, t.predictReg (.ofMat (M.map reals)) = .ok ys ∧
          List.Forall₂ (fun x y => s.reach (fun f => (singleRec (fp := fp) x)[f]?) = some [[y]]) M ys

/-- Rounding to single precision moves no entry of the record across a threshold it is compared
with. -/
def NotCrossed (s : SkTree (XR fp)) (x : List ℝ) : Prop :=
  ∀ t ∈ s.tests, ∀ a, x[t.1]? = some a →
    ((XR.fin (toSingle a) : XR fp) ≤ₚ t.2) = ((XR.fin a : XR fp) ≤ₚ t.2)

theorem NotCrossed.reach {s : SkTree (XR fp)} {x : List ℝ} (h : NotCrossed s x) :
    s.reach (fun f => (singleRec (fp := fp) x)[f]?) = s.reach (fun f => (reals (fp := fp) x)[f]?) := by
  apply Spec.SkTree.reach_congr
  intro t ht
  simp only [singleRec, reals, List.map_map, List.getElem?_map]
  constructor
  · simp
  · intro a b ha hb
    cases hx : x[t.1]? with
    | none => simp [hx] at ha
    | some r =>
      simp only [hx, Option.map_some, Option.some.injEq, Function.comp] at ha hb
      subst ha hb
      exact h t ht r hx

/-- **C68** (part), any rounding: if single precision moves no entry across a threshold, the
converted tree answers what the fitted tree answers: probabilities, labels and regression values
alike.  Missing: entries that it does move (`C68_false`). -/
theorem C68_not_crossed_partial (s : SkTree (XR fp)) (hs : ∀ v ∈ s.values, v ≠ []) (classes : List C) :
    ∃ t, convertTree s classes = .ok t ∧
      ∀ (M : List (List ℝ)), M ≠ [] → (∀ x ∈ M, NotCrossed s x) →
        ∀ v : List ℝ → List (List (XR fp)),
        (∀ x ∈ M, s.reach (fun f => (singleRec (fp := fp) x)[f]?) = some (v x)) →
        (t.predictProba (.ofMat (M.map reals)) =
          M.mapM fun x => ((v x).headD []).mapM fun a => a /ₚ pySum ((v x).headD [])) ∧
        (t.predict (.ofMat (M.map reals)) = (M.mapM fun x => argmax ((v x).headD [])) >>= fun is =>
          is.mapM fun (i : Nat) => pyGet classes (i : Int)) ∧
        (t.predictReg (.ofMat (M.map reals)) = M.mapM fun x => pyGet ((v x).headD []) 0) := by
  obtain ⟨t, ht, hall⟩ := C65_tree s hs classes
  refine ⟨t, ht, fun M hM hN v hv => ?_⟩
  have hv' : ∀ y ∈ M.map (reals (fp := fp)),
      s.reach (fun f => y[f]?) = some (v (y.map XR.toReal)) := by
    intro y hy
    obtain ⟨x, hx, rfl⟩ := List.mem_map.1 hy
    rw [map_toReal_reals, ← (hN x hx).reach]
    exact hv x hx
  obtain ⟨h1, h2, h3⟩ := hall (M.map reals) (by simpa using hM) (fun y => v (y.map XR.toReal)) hv'
  refine ⟨?_, ?_, ?_⟩
  · rw [h1, mapM_map']; simp only [map_toReal_reals]
  · rw [h2, mapM_map']; simp only [map_toReal_reals]
  · rw [h3, mapM_map']; simp only [map_toReal_reals]

/-! ### When nothing is moved -/

theorem singleLsb_ge (x : ℝ) : -149 ≤ singleLsb x := le_max_right _ _

/-- Half a unit of the 24th bit, or half the smallest subnormal. -/
theorem single_error (x : ℝ) : |toSingle x - x| ≤ max (|x| * 2 ^ (-24 : ℤ)) (2 ^ (-150 : ℤ)) := by
  have hd := B64.rne_dist (x * 2 ^ (-singleLsb x))
  have hp : (0 : ℝ) < 2 ^ singleLsb x := B64.pow_pos' _
  have e : toSingle x - x = ((B64.rne (x * 2 ^ (-singleLsb x)) : ℝ) - x * 2 ^ (-singleLsb x)) *
      2 ^ singleLsb x := by
    rw [sub_mul, mul_assoc, B64.pow_neg_mul, mul_one]; rfl
  have h1 : |toSingle x - x| ≤ 1 / 2 * 2 ^ singleLsb x := by
    rw [e, abs_mul, abs_of_pos hp]
    exact mul_le_mul_of_nonneg_right hd hp.le
  by_cases hx : x = 0
  · subst hx
    have : toSingle 0 = 0 := by
      have := B64.rne_int 0
      simp only [Int.cast_zero] at this
      simp [toSingle, this]
    simp only [this, sub_zero, abs_zero, zero_mul]
    exact le_max_of_le_left le_rfl
  · rcases le_total (Int.log 2 |x| - 23) (-149) with h | h
    · have hl : singleLsb x = -149 := max_eq_right h
      rw [hl] at h1
      refine le_max_of_le_right (h1.trans (le_of_eq ?_))
      rw [show (-150 : ℤ) = -1 + -149 by norm_num, B64.pow_add']
      norm_num
    · have hl : singleLsb x = Int.log 2 |x| - 23 := max_eq_left h
      rw [hl] at h1
      refine le_max_of_le_left (h1.trans ?_)
      have hlog : (2 : ℝ) ^ Int.log 2 |x| ≤ |x| := by
        have := Int.zpow_log_le_self (b := 2) (r := |x|) (by norm_num) (abs_pos.2 hx)
        exact_mod_cast this
      calc 1 / 2 * (2 : ℝ) ^ (Int.log 2 |x| - 23) = 2 ^ Int.log 2 |x| * 2 ^ (-24 : ℤ) := by
            rw [sub_eq_add_neg, B64.pow_add', show (-24 : ℤ) = -1 + -23 by norm_num,
              B64.pow_add' (-1) (-23)]
            ring
        _ ≤ _ := mul_le_mul_of_nonneg_right hlog (B64.pow_pos' _).le

/-- Integers up to 2^24 in magnitude are single precision numbers. -/
theorem single_int (n : ℤ) (h : |n| < 2 ^ 24) : toSingle (n : ℝ) = n := by
  have hle : singleLsb (n : ℝ) ≤ 0 := by
    refine max_le ?_ (by norm_num)
    by_cases hn : n = 0
    · subst hn; simp
    · have h2 : |(n : ℝ)| < 2 ^ (24 : ℤ) := by
        rw [← Int.cast_abs]; exact_mod_cast h
      have := (Int.lt_zpow_iff_log_lt (b := 2) (r := |(n : ℝ)|) (by norm_num)
        (abs_pos.2 (by exact_mod_cast hn)) (x := 24)).1 (by exact_mod_cast h2)
      omega
  obtain ⟨k, hk⟩ := Int.exists_eq_neg_ofNat hle
  have e : (n : ℝ) * 2 ^ (-singleLsb (n : ℝ)) = ((n * 2 ^ k : ℤ) : ℝ) := by
    rw [hk]; push_cast; simp
  rw [toSingle, e, B64.rne_int, ← e, mul_assoc, B64.pow_neg_mul, mul_one]

theorem XR.fin_le_fin (a b : ℝ) : ((XR.fin a : XR fp) ≤ₚ XR.fin b) = decide (a ≤ b) := by
  show XR.le _ _ = _
  by_cases h : a < b
  · simp [XR.le, XR.lt, h, h.le]
  · rcases eq_or_lt_of_le (not_lt.1 h) with e | e
    · simp [XR.le, XR.lt, XR.eq, e]
    · simp [XR.le, XR.lt, XR.eq, h, not_le.2 e, e.ne']

/-- Entries that are single precision numbers are not moved at all. -/
theorem NotCrossed.of_single {s : SkTree (XR fp)} {x : List ℝ} (h : ∀ a ∈ x, toSingle a = a) :
    NotCrossed s x := by
  intro t _ a ha
  rw [h a (List.mem_of_getElem? ha)]

/-- Entries far enough from the thresholds they are compared with stay on their side: further than
half a unit of the 24th bit. -/
theorem NotCrossed.of_gap {s : SkTree (XR fp)} {x : List ℝ}
    (hfin : ∀ t ∈ s.tests, ∃ r, t.2 = XR.fin r)
    (h : ∀ t ∈ s.tests, ∀ a r, x[t.1]? = some a → t.2 = XR.fin r →
      max (|a| * 2 ^ (-24 : ℤ)) (2 ^ (-150 : ℤ)) < |a - r|) : NotCrossed s x := by
  intro t ht a ha
  obtain ⟨r, hr⟩ := hfin t ht
  have hg := h t ht a r ha hr
  have he := (single_error a).trans_lt hg
  rw [hr, XR.fin_le_fin, XR.fin_le_fin]
  apply decide_eq_decide.2
  have h1 := abs_lt.1 he
  constructor
  · intro h2
    by_contra h3
    rw [abs_of_pos (by linarith)] at h1
    linarith [h1.1]
  · intro h2
    rw [abs_of_nonpos (by linarith)] at h1
    linarith [h1.2]

/-- **C68** (part): the claim for records of single precision numbers (for example of integers below
2^24) and for records whose entries keep a relative distance of 2^-24 from the thresholds. -/
theorem C68_regressor_partial (s : SkTree (XR fp)) (hs : ∀ v ∈ s.values, ∃ a, v = [[a]])
    (hfin : ∀ t ∈ s.tests, ∃ r, t.2 = XR.fin r) :
    ∃ t : Tree (XR fp) C, convertTree s [] = .ok t ∧
      ∀ (M : List (List ℝ)), M ≠ [] →
        (∀ x ∈ M, (∀ a ∈ x, toSingle a = a) ∨
          ∀ t ∈ s.tests, ∀ a r, x[t.1]? = some a → t.2 = XR.fin r →
            max (|a| * 2 ^ (-24 : ℤ)) (2 ^ (-150 : ℤ)) < |a - r|) →
        (∀ x ∈ M, ∀ f ∈ s.features, f < x.length) →
        ∃ ys, t.predictReg (.ofMat (M.map reals)) = .ok ys ∧
          List.Forall₂ (fun x y => s.reach (fun f => (singleRec (fp := fp) x)[f]?) = some [[y]]) M ys := by
  obtain ⟨t, ht, hall⟩ := C65_regressor (C := C) s hs
  refine ⟨t, ht, fun M hM h hw => ?_⟩
  obtain ⟨ys, h1, h2⟩ := hall (M.map reals) (by simpa using hM) (by
    intro y hy f hf
    obtain ⟨x, hx, rfl⟩ := List.mem_map.1 hy
    rw [show (reals (fp := fp) x).length = x.length by simp [reals]]
    exact hw x hx f hf)
  refine ⟨ys, h1, ?_⟩
  rw [List.forall₂_map_left_iff] at h2
  rw [List.forall₂_iff_get] at h2 ⊢
  refine ⟨h2.1, fun i hi hi' => ?_⟩
  rw [NotCrossed.reach]
  · exact h2.2 i hi hi'
  · rcases h _ (List.get_mem _ _) with h | h
    · exact .of_single h
    · exact .of_gap hfin h

/-! ### Disagreement -/

/-- A stump with threshold 1. -/
noncomputable def unitStump : SkTree (XR fp) :=
  .split [[.fin 0]] 0 (.fin 1) (.leaf [[.fin 3]]) (.leaf [[.fin 7]])

/-- A double just above 1 is 1 in single precision. -/
theorem single_just_above {x : ℝ} (h1 : 1 ≤ x) (h2 : x < 1 + 2 ^ (-24 : ℤ)) : toSingle x = 1 := by
  have hx0 : 0 < x := by linarith
  have hlog : Int.log 2 |x| = 0 := by
    rw [abs_of_pos hx0]
    have : x < 2 := by
      have : (2 : ℝ) ^ (-24 : ℤ) < 1 := by norm_num
      linarith
    have a := (Int.lt_zpow_iff_log_lt (b := 2) (r := x) (x := 1) (by norm_num) hx0).1 (by simpa using this)
    have b := (Int.zpow_le_iff_le_log (b := 2) (r := x) (x := 0) (by norm_num) hx0).1 (by simpa using h1)
    omega
  have hl : singleLsb x = -23 := by rw [singleLsb, hlog]; norm_num
  have hr : B64.rne (x * 2 ^ (23 : ℤ)) = 2 ^ 23 := by
    have hfl : ⌊x * 2 ^ (23 : ℤ)⌋ = 2 ^ 23 := by
      rw [Int.floor_eq_iff]
      push_cast
      constructor
      · norm_num at h1 ⊢; linarith
      · norm_num at h2 ⊢; linarith
    have hfr : Int.fract (x * 2 ^ (23 : ℤ)) < 1 / 2 := by
      rw [Int.fract, hfl]
      norm_num at h2 ⊢; linarith
    rw [B64.rne, if_pos hfr, hfl]
  rw [toSingle, hl, neg_neg, hr]
  norm_num

/-- Every record whose entry is above 1 by less than 2^-24: the fitted stump answers 3, the
converted one 7. -/
theorem C68_crossed (x : ℝ) (h1 : 1 < x) (h2 : x < 1 + 2 ^ (-24 : ℤ)) :
    (unitStump (fp := fp)).reach (fun f => (singleRec (fp := fp) [x])[f]?) = some [[.fin 3]] ∧
    ∃ t : Tree (XR fp) C, convertTree unitStump [] = .ok t ∧
      t.predictReg (.ofMat [reals [x]]) = .ok [.fin 7] := by
  constructor
  · have := single_just_above h1.le h2
    simp [unitStump, SkTree.reach, singleRec, reals, this, XR.fin_le_fin]
  · obtain ⟨t, ht, hall⟩ := C65_tree (C := C) (unitStump (fp := fp)) (by simp [unitStump, SkTree.values]) []
    refine ⟨t, ht, ?_⟩
    rw [(hall [reals [x]] (by simp) (fun _ => [[.fin 7]]) (by
      intro y hy
      rw [List.mem_singleton] at hy
      subst hy
      simp [unitStump, SkTree.reach, reals, XR.fin_le_fin, not_le.2 h1])).2.2]
    rfl

/-- **C68 is false** of the code. -/
theorem C68_false (fp : FP) (C : Type) : ¬ SinglePrecisionFaithful fp C := by
  intro h
  obtain ⟨t, ht, hall⟩ := h unitStump (by simp [unitStump, SkTree.values])
  have h1 : (1 : ℝ) < 1 + 2 ^ (-30 : ℤ) := by norm_num
  have h2 : (1 : ℝ) + 2 ^ (-30 : ℤ) < 1 + 2 ^ (-24 : ℤ) := by norm_num
  obtain ⟨hr, t', ht', hp⟩ := C68_crossed (fp := fp) (C := C) _ h1 h2
  rw [ht] at ht'
  cases ht'
  obtain ⟨ys, hy, hf⟩ := hall [[1 + 2 ^ (-30 : ℤ)]] (by simp) (by
    simp only [List.mem_singleton, forall_eq, InSingleRange]
    rw [single_just_above h1.le h2]; norm_num) (by simp [unitStump, SkTree.features])
  rw [show List.map reals [[(1 : ℝ) + 2 ^ (-30 : ℤ)]] = [reals (fp := fp) [1 + 2 ^ (-30 : ℤ)]] from rfl,
    hp] at hy
  cases hy
  have := (List.forall₂_cons.1 hf).1
  rw [hr] at this
  simp [XR.fin_inj] at this

/-- Non-vacuity of the partial theorem: integer records. -/
example : ∃ t : Tree (XR FP.binary64) String, convertTree unitStump [] = .ok t ∧
    t.predictReg (.ofMat [reals [1], reals [2]]) = .ok [.fin 3, .fin 7] := by
  obtain ⟨t, ht, hall⟩ := C68_not_crossed_partial (fp := FP.binary64) (C := String) unitStump
    (by simp [unitStump, SkTree.values]) []
  have h1 : toSingle 1 = 1 := by simpa using single_int 1 (by norm_num)
  have h2 : toSingle 2 = 2 := by simpa using single_int 2 (by norm_num)
  refine ⟨t, ht, ?_⟩
  have := (hall [[1], [2]] (by simp) (by
    intro x hx
    apply NotCrossed.of_single
    simp at hx
    rcases hx with rfl | rfl <;> simp [h1, h2]) (fun x => if x = [1] then [[.fin 3]] else [[.fin 7]]) (by
    intro x hx
    simp at hx
    rcases hx with rfl | rfl <;>
      simp [unitStump, SkTree.reach, singleRec, reals, h1, h2, XR.fin_le_fin])).2.2
  rw [show [reals [1], reals [2]] = List.map (reals (fp := FP.binary64)) [[1], [2]] from rfl, this]
  simp [pyGet]

end PurePredict
