import Verif.Lemmas.SkTree
import Verif.Props.C12
import Verif.Props.C13
import Mathlib.Data.List.GetD
/-
C65: converting a fitted scikit-learn tree or forest keeps its predictions.
-/
namespace PurePredict
open Spec

/-- Conversion of a fitted tree from the arrays of its `tree_` attribute. -/
def convertTree {F C : Type} [Arith F] (s : SkTree F) (classes : List C) : Py (Tree F C) :=
  Tree.ofSklearn ((s.layout 0).map SkNode.left) ((s.layout 0).map SkNode.right)
    ((s.layout 0).map SkNode.feature) ((s.layout 0).map SkNode.threshold)
    ((s.layout 0).map SkNode.value) (some classes) []

section
variable {F C : Type} [Arith F]

theorem evalPy_first (s : SkTree F) {M : List (List F)} {v : List F → List (List F)}
    (hv : ∀ x ∈ M, s.reach (fun f => x[f]?) = some (v x)) :
    (M.map Row.list).mapM s.first.evalPy = .ok (M.map fun x => (v x).headD []) := by
  rw [mapM_map']
  apply mapM_ok_map
  intro x hx
  have : s.first.eval (Row.list x).look = some ((v x).headD []) := by
    rw [SkTree.reach_first, show (Row.list x).look = fun f => x[f]? from rfl, hv x hx]
    rfl
  simp only [DTree.evalPy, this]

/-- **C65**, any arithmetic: conversion succeeds, and for every dense request the converted model
works with the values that the fitted tree stores at the leaf each record reaches (of output 0, the
only output of a classifier): the probabilities are these values divided by their sum, the label
that of the first largest value, the regression value the first value. -/
theorem C65_tree (s : SkTree F) (hs : ∀ v ∈ s.values, v ≠ []) (classes : List C) :
    ∃ t, convertTree s classes = .ok t ∧
      ∀ (M : List (List F)), M ≠ [] → ∀ v : List F → List (List F),
        (∀ x ∈ M, s.reach (fun f => x[f]?) = some (v x)) →
        (t.predictProba (.ofMat M) =
          M.mapM fun x => ((v x).headD []).mapM fun a => a /ₚ pySum ((v x).headD [])) ∧
        (t.predict (.ofMat M) = (M.mapM fun x => argmax ((v x).headD [])) >>= fun is =>
          is.mapM fun (i : Nat) => pyGet classes (i : Int)) ∧
        (t.predictReg (.ofMat M) = M.mapM fun x => pyGet ((v x).headD []) 0) := by
  obtain ⟨t, ht, henc, hc⟩ := Tree.ofSklearn_encodes s hs (some classes) []
  refine ⟨t, ht, fun M hM v hv => ?_⟩
  have e := evalPy_first s hv
  refine ⟨?_, ?_, ?_⟩
  · rw [Tree.predictProba_eq henc (checkArray_ofMat hM _) rfl, e, py_ok_bind, mapM_map']
  · rw [Tree.predict_eq henc (checkArray_ofMat hM _) rfl, e, py_ok_bind, mapM_map', hc]
    rfl
  · rw [Tree.predictReg_eq henc (checkArray_ofMat hM _) rfl, e, py_ok_bind, mapM_map']

/-- **C65**, missing features: a record without a feature tested on its path raises IndexError. -/
theorem C65_missing_feature (s : SkTree F) (hs : ∀ v ∈ s.values, v ≠ []) (classes : List C)
    (x : List F) (hx : s.reach (fun f => x[f]?) = none) :
    ∃ t, convertTree s classes = .ok t ∧ t.predict (.ofMat [x]) = .error .indexError ∧
      t.predictProba (.ofMat [x]) = .error .indexError ∧
      t.predictReg (.ofMat [x]) = .error .indexError := by
  obtain ⟨t, ht, henc, hc⟩ := Tree.ofSklearn_encodes s hs (some classes) []
  have e : [Row.list x].mapM s.first.evalPy = .error .indexError := by
    have : s.first.eval (Row.list x).look = none := by
      rw [SkTree.reach_first, show (Row.list x).look = fun f => x[f]? from rfl, hx]; rfl
    simp [DTree.evalPy, this, Row.lookErr]
  refine ⟨t, ht, ?_, ?_, ?_⟩
  · rw [Tree.predict_eq henc (checkArray_ofMat_cons _ _ _) (rs := [Row.list x]) rfl, e]; rfl
  · rw [Tree.predictProba_eq henc (checkArray_ofMat_cons _ _ _) (rs := [Row.list x]) rfl, e]; rfl
  · rw [Tree.predictReg_eq henc (checkArray_ofMat_cons _ _ _) (rs := [Row.list x]) rfl, e]; rfl

/-- **C65 is false** of trees with several outputs: the outputs after the first are lost.  Two
fitted trees that agree in their first output convert to models with the same predictions on all
requests. -/
theorem C65_outputs_dropped (s s' : SkTree F) (hs : ∀ v ∈ s.values, v ≠ [])
    (hs' : ∀ v ∈ s'.values, v ≠ []) (h : s.first = s'.first) (classes : List C) :
    ∃ t t', convertTree s classes = .ok t ∧ convertTree s' classes = .ok t' ∧
      ∀ (X : Arr F), (∃ rs, checkArray X .allow = .ok X ∧ X.rows = .ok rs) →
        t.predictReg X = t'.predictReg X := by
  obtain ⟨t, ht, henc, _⟩ := Tree.ofSklearn_encodes s hs (some classes) []
  obtain ⟨t', ht', henc', _⟩ := Tree.ofSklearn_encodes s' hs' (some classes) []
  refine ⟨t, t', ht, ht', ?_⟩
  rintro X ⟨rs, h1, h2⟩
  rw [Tree.predictReg_eq henc h1 h2, Tree.predictReg_eq henc' h1 h2, h]

end

variable {C : Type}

/-- All values of the tree are class counts of one output: `k` non-negative numbers, not all 0. -/
def CountsTree (k : Nat) (s : SkTree Ex) : Prop :=
  ∀ v ∈ s.values, ∃ c : List ℝ, v = [fins c] ∧ c.length = k ∧ (∀ a ∈ c, 0 ≤ a) ∧ 0 < c.sum

theorem CountsTree.ne {k : Nat} {s : SkTree Ex} (h : CountsTree k s) : ∀ v ∈ s.values, v ≠ [] := by
  intro v hv
  obtain ⟨c, rfl, _⟩ := h v hv
  simp

theorem SkTree.reach_total {F : Type} [Arith F] (s : SkTree F) (x : Nat → Option F)
    (h : ∀ f ∈ s.features, ∃ a, x f = some a) : ∃ v ∈ s.values, s.reach x = some v := by
  induction s with
  | leaf v => exact ⟨v, by simp [SkTree.values], rfl⟩
  | split v f thr l r ihl ihr =>
    obtain ⟨a, ha⟩ := h f (by simp [SkTree.features])
    obtain ⟨vl, hl, hl'⟩ := ihl fun f hf => h f (by simp [SkTree.features, hf])
    obtain ⟨vr, hr, hr'⟩ := ihr fun f hf => h f (by simp [SkTree.features, hf])
    simp only [SkTree.reach, ha]
    split
    · exact ⟨vl, by simp [SkTree.values, hl], hl'⟩
    · exact ⟨vr, by simp [SkTree.values, hr], hr'⟩

/-- The class counts at the leaf a record reaches. -/
def SkTree.counts (s : SkTree Ex) (x : List Ex) (c : List ℝ) : Prop :=
  s.reach (fun f => x[f]?) = some [fins c]

/-- **C65**, classifier, exact arithmetic: a converted tree answers every request of sufficiently
wide records with the fitted tree's class frequencies at the leaf reached, and the label of the
first most frequent class. -/
theorem C65_classifier (s : SkTree Ex) (k : Nat) (hk : 0 < k) (hs : CountsTree k s) (classes : List C)
    (hcls : classes.length = k) :
    ∃ t, convertTree s classes = .ok t ∧
      ∀ (M : List (List Ex)), M ≠ [] → (∀ x ∈ M, ∀ f ∈ s.features, f < x.length) →
        ∃ (cs : List (List ℝ)) (labels : List C),
          List.Forall₂ (SkTree.counts s) M cs ∧
          t.predictProba (.ofMat M) = .ok (cs.map fun c => fins (c.map fun a => a / c.sum)) ∧
          (∀ c ∈ cs, IsDist k (c.map fun a => a / c.sum)) ∧
          t.predict (.ofMat M) = .ok labels ∧
          List.Forall₂ (fun c l => ∃ i, IsFirstMax c i ∧ classes[i]? = some l) cs labels := by
  obtain ⟨t, ht, hall⟩ := C65_tree s hs.ne classes
  refine ⟨t, ht, fun M hM hw => ?_⟩
  have hreach : ∀ x ∈ M, ∃ c : List ℝ, s.reach (fun f => x[f]?) = some [fins c] ∧ c.length = k ∧
      (∀ a ∈ c, 0 ≤ a) ∧ 0 < c.sum := by
    intro x hx
    obtain ⟨v, hv, hr⟩ := SkTree.reach_total s (fun f => x[f]?) fun f hf =>
      ⟨_, List.getElem?_eq_getElem (hw x hx f hf)⟩
    obtain ⟨c, rfl, h1, h2, h3⟩ := hs v hv
    exact ⟨c, hr, h1, h2, h3⟩
  choose! c hc1 hc2 hc3 hc4 using hreach
  obtain ⟨hp, hl, -⟩ := hall M hM (fun x => [fins (c x)]) hc1
  have hmax : ∀ x ∈ M, ∃ i l, IsFirstMax (c x) i ∧ classes[i]? = some l := by
    intro x hx
    have hne : c x ≠ [] := by intro e; have := hc2 x hx; rw [e] at this; simp at this; omega
    obtain ⟨i, hi⟩ := argmax_total (l := fins (c x)) (by simpa [fins] using hne)
    have hlt : i < classes.length := by
      have := argmax_lt hi
      rw [hcls, ← hc2 x hx]; simpa using this
    exact ⟨i, _, argmax_fins.1 hi, List.getElem?_eq_getElem hlt⟩
  have : Nonempty C := ⟨classes[0]'(by omega)⟩
  choose! i l hi1 hi2 using hmax
  refine ⟨M.map c, M.map l, ?_, ?_, ?_, ?_, ?_⟩
  · rw [List.forall₂_map_right_iff, List.forall₂_same]
    exact hc1
  · rw [hp, List.map_map]
    apply mapM_ok_map
    intro x hx
    simp only [List.headD_cons, Function.comp, pySum_fins]
    exact mapM_fins fun a _ => XR.div_exact a (hc4 x hx).ne'
  · intro d hd
    obtain ⟨x, hx, rfl⟩ := List.mem_map.1 hd
    have := isDist_div (hc3 x hx) (hc4 x hx)
    rwa [hc2 x hx] at this
  · rw [hl]
    simp only [List.headD_cons]
    rw [mapM_ok_map (g := i) fun x hx => argmax_fins.2 (hi1 x hx), py_ok_bind, mapM_map']
    exact mapM_ok_map fun x hx => pyGet_ok_nat.2 (hi2 x hx)
  · rw [List.forall₂_map_left_iff, List.forall₂_map_right_iff, List.forall₂_same]
    exact fun x hx => ⟨i x, hi1 x hx, hi2 x hx⟩

/-- **C65**, regressor: a converted regression tree returns the value stored at the leaf reached. -/
theorem C65_regressor {F : Type} [Arith F] (s : SkTree F) (hs : ∀ v ∈ s.values, ∃ a, v = [[a]]) :
    ∃ t : Tree F C, convertTree s [] = .ok t ∧
      ∀ (M : List (List F)), M ≠ [] → (∀ x ∈ M, ∀ f ∈ s.features, f < x.length) →
        ∃ ys, t.predictReg (.ofMat M) = .ok ys ∧
          List.Forall₂ (fun x y => s.reach (fun f => x[f]?) = some [[y]]) M ys := by
  obtain ⟨t, ht, hall⟩ := C65_tree s (fun v hv => by obtain ⟨a, rfl⟩ := hs v hv; simp) ([] : List C)
  refine ⟨t, ht, fun M hM hw => ?_⟩
  have hreach : ∀ x ∈ M, ∃ y, s.reach (fun f => x[f]?) = some [[y]] := by
    intro x hx
    obtain ⟨v, hv, hr⟩ := SkTree.reach_total s (fun f => x[f]?) fun f hf =>
      ⟨_, List.getElem?_eq_getElem (hw x hx f hf)⟩
    obtain ⟨y, rfl⟩ := hs v hv
    exact ⟨y, hr⟩
  have : Nonempty F := ⟨ofInt 0⟩
  choose! y hy using hreach
  refine ⟨M.map y, ?_, ?_⟩
  · rw [(hall M hM (fun x => [[y x]]) hy).2.2]
    exact mapM_ok_map fun x _ => rfl
  · rw [List.forall₂_map_right_iff, List.forall₂_same]
    exact hy

/-- **C65**, forests, exact arithmetic: the ensemble of the converted trees returns, for every
record, the mean over the fitted trees of the class frequencies at the leaf reached. -/
theorem C65_forest (ss : List (SkTree Ex)) (hne : ss ≠ []) (k : Nat) (hk : 0 < k)
    (hs : ∀ s ∈ ss, CountsTree k s) (classes : List C) (hcls : classes.length = k) :
    ∃ ts : List (Tree Ex C), ss.mapM (fun s => convertTree s classes) = .ok ts ∧
      ∀ (M : List (List ℝ)), M ≠ [] → (∀ s ∈ ss, ∀ x ∈ M, ∀ f ∈ s.features, f < x.length) →
        ∃ Ps : List (Nat → Nat → ℝ),
          List.Forall₂ (fun s P => ∀ i (hi : i < M.length), ∃ c, SkTree.counts s (fins M[i]) c ∧
            (List.range k).map (P i) = c.map fun a => a / c.sum) ss Ps ∧
          (⟨none, classes, ts.map fun t => ⟨t.predictProba⟩⟩ : Bagging Ex C).predictProba
            (.ofMat (M.map fins)) = .ok (mat M.length k fun i c => .fin (meanEntry Ps i c)) := by
  have hconv : ∀ s ∈ ss, ∃ t : Tree Ex C, convertTree s classes = .ok t := fun s h =>
    (C65_classifier s k hk (hs s h) classes hcls).imp fun _ h => h.1
  obtain ⟨ts, hts⟩ := mapM_total hconv
  refine ⟨ts, hts, fun M hM hw => ?_⟩
  have hF := mapM_ok_iff.1 hts
  have key : ∀ s ∈ ss, ∀ t : Tree Ex C, convertTree s classes = .ok t → ∃ P : Nat → Nat → ℝ,
      (∀ i (hi : i < M.length), ∃ c, SkTree.counts s (fins M[i]) c ∧
        (List.range k).map (P i) = c.map fun a => a / c.sum) ∧
      t.predictProba (.ofMat (M.map fins)) = .ok (mat M.length k fun i c => .fin (P i c)) := by
    intro s h t ht
    obtain ⟨t', ht', hall⟩ := C65_classifier s k hk (hs s h) classes hcls
    rw [ht] at ht'
    cases ht'
    obtain ⟨cs, -, hc, hp, hd, -⟩ := hall (M.map fins) (by simpa using hM) (by
      intro x hx f hf
      obtain ⟨y, hy, rfl⟩ := List.mem_map.1 hx
      rw [fins_length]; exact hw s h y hy f hf)
    have hlen : cs.length = M.length := by rw [← hc.length_eq]; simp
    have hrow : ∀ i (hi : i < M.length), (List.range k).map (fun c =>
        ((cs.getD i []).map fun a => a / (cs.getD i []).sum).getD c 0) =
        (cs.getD i []).map fun a => a / (cs.getD i []).sum := by
      intro i hi
      have hmem : cs.getD i [] ∈ cs := by
        rw [List.getD_eq_getElem _ _ (by omega)]; exact List.getElem_mem _
      have hl := (hd _ hmem).1
      apply List.ext_getElem
      · simpa using hl.symm
      · intro j h1 h2
        simp only [List.getElem_map, List.getElem_range]
        rw [List.getD_eq_getElem _ _ (by simpa using h2)]
        simp
    refine ⟨fun i c => ((cs.getD i []).map fun a => a / (cs.getD i []).sum).getD c 0, ?_, ?_⟩
    · intro i hi
      refine ⟨cs.getD i [], ?_, hrow i hi⟩
      rw [List.getD_eq_getElem _ _ (by omega)]
      have := (List.forall₂_iff_get.1 hc).2 i (by simpa using hi) (by omega)
      simpa using this
    · rw [hp]
      congr 1
      apply List.ext_getElem
      · simp [mat, hlen]
      · intro i h1 h2
        have hi : i < M.length := by simpa [mat] using h2
        have := hrow i hi
        simp only [mat, List.getElem_map, List.getElem_range]
        have e : (List.range k).map (fun c => (XR.fin (((cs.getD i []).map fun a =>
            a / (cs.getD i []).sum).getD c 0) : Ex)) = fins ((cs.getD i []).map fun a =>
            a / (cs.getD i []).sum) := by
          rw [show fins ((cs.getD i []).map fun a => a / (cs.getD i []).sum) = fins ((List.range k).map
            fun c => ((cs.getD i []).map fun a => a / (cs.getD i []).sum).getD c 0) from
            congrArg fins this.symm]
          simp only [fins, List.map_map]
          rfl
        rw [e, List.getD_eq_getElem _ _ (by omega)]
  have hPs : ∃ Ps : List (Nat → Nat → ℝ),
      List.Forall₂ (fun s P => ∀ i (hi : i < M.length), ∃ c, SkTree.counts s (fins M[i]) c ∧
        (List.range k).map (P i) = c.map fun a => a / c.sum) ss Ps ∧
      List.Forall₂ (fun (t : Tree Ex C) P => t.predictProba (.ofMat (M.map fins)) =
        .ok (mat M.length k fun i c => .fin (P i c))) ts Ps := by
    clear hts hconv hne
    induction hF with
    | nil => exact ⟨[], .nil, .nil⟩
    | @cons s t ss ts h1 _ ih =>
      obtain ⟨Ps, a, b⟩ := ih (fun s hs' => hs s (by simp [hs']))
        (fun s hs' => hw s (by simp [hs'])) (fun s hs' => key s (by simp [hs']))
      obtain ⟨P, p1, p2⟩ := key s (by simp) t h1
      exact ⟨P :: Ps, .cons p1 a, .cons p2 b⟩
  obtain ⟨Ps, h1, h2⟩ := hPs
  refine ⟨Ps, h1, ?_⟩
  have hPne : Ps ≠ [] := by
    intro e
    subst e
    cases h1
    exact hne rfl
  apply C13_proba_is_mean _ M hM ⟨by simp [Bagging.FeatsOk], by simp⟩ k Ps hPne
  simp only [Bagging.members, List.map_map, List.forall₂_map_left_iff]
  refine h2.imp fun t P h => ?_
  simpa [Returns, columns] using h

/-- A fitted stump: feature 1, threshold 5, with class counts at all three nodes. -/
noncomputable def skStump : SkTree Ex :=
  .split [fins [3, 4]] 1 (.fin 5) (.leaf [fins [3, 1]]) (.leaf [fins [0, 3]])

theorem skStump_counts : CountsTree 2 skStump := by
  intro v hv
  simp [SkTree.values, skStump] at hv
  rcases hv with rfl | rfl | rfl
  · exact ⟨[3, 4], rfl, rfl, by simp, by norm_num⟩
  · exact ⟨[3, 1], rfl, rfl, by simp, by norm_num⟩
  · exact ⟨[0, 3], rfl, rfl, by simp, by norm_num⟩

/-- Non-vacuity: the arrays of the stump, its conversion and a prediction. -/
example : (skStump.layout 0).map SkNode.left = [1, -1, -1] ∧
    (skStump.layout 0).map SkNode.right = [2, -1, -1] ∧
    (skStump.layout 0).map SkNode.feature = [1, -2, -2] := by
  simp [skStump, SkTree.layout, SkTree.size]

example : ∃ t : Tree Ex String, convertTree skStump ["a", "b"] = .ok t ∧
    t.predict (.ofMat [fins [0, 5]]) = .ok ["a"] := by
  obtain ⟨t, ht, h⟩ := C65_classifier skStump 2 (by norm_num) skStump_counts ["a", "b"] rfl
  obtain ⟨cs, ls, h1, -, -, h2, h3⟩ := h [fins [0, 5]] (by simp) (by simp [skStump, SkTree.features, fins])
  refine ⟨t, ht, ?_⟩
  rw [h2]
  have hlen := h1.length_eq
  match cs, ls, h1, h3, hlen with
  | [c], [l], h1, h3, _ =>
    have hc : c = [3, 1] := by
      have := (List.forall₂_cons.1 h1).1
      simp [SkTree.counts, skStump, SkTree.reach, fins] at this
      have e : fins [3, 1] = fins c := by simpa [fins] using this
      have := congrArg (List.map XR.toReal) e
      rw [map_toReal_fins, map_toReal_fins] at this
      exact this.symm
    subst hc
    obtain ⟨i, hi, hl⟩ := (List.forall₂_cons.1 h3).1
    have h0 : IsFirstMax [(3 : ℝ), 1] 0 := by
      have := isFirstMax_pair (a := 3) (b := 1)
      rwa [if_neg (by norm_num)] at this
    rw [hi.unique h0] at hl
    simp at hl
    rw [hl]

/-- Non-vacuity of `C65_outputs_dropped`: a regression leaf with two outputs. -/
example : ∃ t t' : Tree Ex String, convertTree (.leaf [[.fin 1], [.fin 2]]) [] = .ok t ∧
    convertTree (.leaf [[.fin 1], [.fin 7]]) [] = .ok t' ∧
    ∀ X, (∃ rs, checkArray X .allow = .ok X ∧ X.rows = .ok rs) → t.predictReg X = t'.predictReg X :=
  C65_outputs_dropped _ _ (by simp [SkTree.values]) (by simp [SkTree.values]) rfl []

end PurePredict
