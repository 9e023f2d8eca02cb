import Verif.Props.C59
/-
C67: missing values (NaN) in a booster follow the default branch of each split.
-/
namespace PurePredict
open Spec
variable {C : Type} {fp : FP}

/-- The claim: the converted tree predicts what the booster predicts, also for records with missing
values (columns 0..9, no ties). -/
def XgbMissingFaithful (fp : FP) (C : Type) : Prop :=
  ∀ (e : XgbFrame (XR fp)) (tid : Nat) (mt : MTree (XR fp)), e.Printed tid → e.Describes tid 0 mt.erase →
    (∀ s ∈ mt.splits, s.1 < 10) →
    ∃ t : Tree (XR fp) C, Tree.ofXgb e = .ok t ∧
      ∀ (M : List (List (XR fp))) (g : List (XR fp) → XR fp), M ≠ [] →
        (∀ r ∈ M, mt.eval (fun f => r[f]?) = some (g r)) →
        (∀ r ∈ M, ∀ s ∈ mt.splits, r[s.1]? ≠ some s.2.1) →
        t.predictReg (.ofMat M) = .ok (M.map g)

theorem XR.le_eq_lt_of_ne {v thr : XR fp} (h : v ≠ thr) : (v ≤ₚ thr) = (v <ₚ thr) := by
  have : XR.eq v thr = false := by
    cases v <;> cases thr <;> simp_all [XR.eq]
  show XR.le v thr = XR.lt v thr
  simp [XR.le, this]

theorem MTree.erase_splits (mt : MTree (XR fp)) : mt.erase.splits = mt.splits.map fun s => (s.1, s.2.1) := by
  induction mt with
  | leaf v => rfl
  | split f thr d y n ihy ihn => simp [MTree.erase, MTree.splits, XTree.splits, ihy, ihn]

/-- A booster tree evaluated without its default branches, on records whose missing values meet
only splits that default to `No`. -/
theorem MTree.erase_eval (mt : MTree (XR fp)) (x : Nat → Option (XR fp))
    (h : ∀ s ∈ mt.splits, x s.1 = some .nan → s.2.2 = false) : mt.erase.eval x = mt.eval x := by
  induction mt with
  | leaf v => rfl
  | split f thr d y n ihy ihn =>
    have ihy := ihy fun s hs => h s (by simp [MTree.splits, hs])
    have ihn := ihn fun s hs => h s (by simp [MTree.splits, hs])
    simp only [MTree.erase, XTree.eval, MTree.eval]
    cases hx : x f with
    | none => rfl
    | some v =>
      simp only [ihy, ihn]
      cases v with
      | nan =>
        have hd := h (f, thr, d) (by simp [MTree.splits]) hx
        simp only at hd
        simp [Arith.isnan, XR.isnan, Arith.lt, XR.lt, hd]
      | fin a => simp [Arith.isnan, XR.isnan]
      | pinf => simp [Arith.isnan, XR.isnan]
      | ninf => simp [Arith.isnan, XR.isnan]

/-- **C67** (part): for records whose missing values meet only splits that default to the `No`
child (in particular records without missing values), the converted tree predicts what the booster
predicts.  Missing: splits that default to `Yes` (`C67_default_yes`). -/
theorem C67_default_no_partial (e : XgbFrame (XR fp)) (tid : Nat) (mt : MTree (XR fp)) (hp : e.Printed tid)
    (hd : e.Describes tid 0 mt.erase) (h10 : ∀ s ∈ mt.splits, s.1 < 10) :
    ∃ t : Tree (XR fp) C, Tree.ofXgb e = .ok t ∧
      ∀ (M : List (List (XR fp))) (g : List (XR fp) → XR fp), M ≠ [] →
        (∀ r ∈ M, mt.eval (fun f => r[f]?) = some (g r)) →
        (∀ r ∈ M, ∀ s ∈ mt.splits, r[s.1]? ≠ some s.2.1) →
        (∀ r ∈ M, ∀ s ∈ mt.splits, r[s.1]? = some .nan → s.2.2 = false) →
        t.predictReg (.ofMat M) = .ok (M.map g) := by
  obtain ⟨t, ht, hall⟩ := C59_no_ties_partial (C := C) e tid mt.erase hp hd (by
    intro s hs
    rw [MTree.erase_splits] at hs
    obtain ⟨s', hs', rfl⟩ := List.mem_map.1 hs
    exact h10 s' hs')
  refine ⟨t, ht, fun M g hM hg hties hmiss => hall M g hM ?_ ?_⟩
  · intro r hr
    rw [MTree.erase_eval mt _ (hmiss r hr)]
    exact hg r hr
  · intro r hr s hs v hv
    rw [MTree.erase_splits] at hs
    obtain ⟨s', hs', rfl⟩ := List.mem_map.1 hs
    apply XR.le_eq_lt_of_ne
    rintro rfl
    exact hties r hr s' hs' hv

/-- The tree with every default branch turned to `No`. -/
def MTree.allNo : MTree (XR fp) → MTree (XR fp)
  | .leaf v => .leaf v
  | .split f thr _ y n => .split f thr false (allNo y) (allNo n)

theorem MTree.allNo_erase (mt : MTree (XR fp)) : (MTree.allNo mt).erase = mt.erase := by
  induction mt with
  | leaf v => rfl
  | split f thr d y n ihy ihn => simp [MTree.allNo, MTree.erase, ihy, ihn]

theorem MTree.allNo_splits (mt : MTree (XR fp)) :
    (MTree.allNo mt).splits = mt.splits.map fun s => (s.1, s.2.1, false) := by
  induction mt with
  | leaf v => rfl
  | split f thr d y n ihy ihn => simp [MTree.allNo, MTree.splits, ihy, ihn]

/-- What the conversion does in general: the default branches are ignored, missing values always
go to the `No` child. -/
theorem C67_always_no (e : XgbFrame (XR fp)) (tid : Nat) (mt : MTree (XR fp)) (hp : e.Printed tid)
    (hd : e.Describes tid 0 mt.erase) (h10 : ∀ s ∈ mt.splits, s.1 < 10) :
    ∃ t : Tree (XR fp) C, Tree.ofXgb e = .ok t ∧
      ∀ (M : List (List (XR fp))) (g : List (XR fp) → XR fp), M ≠ [] →
        (∀ r ∈ M, (MTree.allNo mt).eval (fun f => r[f]?) = some (g r)) →
        (∀ r ∈ M, ∀ s ∈ mt.splits, r[s.1]? ≠ some s.2.1) →
        t.predictReg (.ofMat M) = .ok (M.map g) := by
  obtain ⟨t, ht, hall⟩ := C67_default_no_partial (C := C) e tid (MTree.allNo mt) hp
    (by rw [MTree.allNo_erase]; exact hd) (by
      intro s hs
      rw [MTree.allNo_splits] at hs
      obtain ⟨s', hs', rfl⟩ := List.mem_map.1 hs
      exact h10 s' hs')
  refine ⟨t, ht, fun M g hM hg hties => hall M g hM hg ?_ ?_⟩
  · intro r hr s hs
    rw [MTree.allNo_splits] at hs
    obtain ⟨s', hs', rfl⟩ := List.mem_map.1 hs
    exact hties r hr s' hs'
  · intro r hr s hs _
    rw [MTree.allNo_splits] at hs
    obtain ⟨s', hs', rfl⟩ := List.mem_map.1 hs
    rfl

/-- The stump of C17 whose default branch is `Yes`. -/
noncomputable def stumpMissing (k : Nat) : MTree Ex :=
  .split k (.fin (1 / 2)) true (.leaf (.fin 1)) (.leaf (.fin 2))

/-- **C67 is false**: for every column below 10, a booster sends a record with a missing value to
`Yes` and predicts 1; the converted tree predicts 2. -/
theorem C67_default_yes (k : Nat) (hk : k < 10) (r : List Ex) (hr : r[k]? = some .nan) :
    (stumpFrame k).Describes 0 0 (stumpMissing k).erase ∧
    (stumpMissing k).eval (fun f => r[f]?) = some (.fin 1) ∧
    ∃ t : Tree Ex C, Tree.ofXgb (stumpFrame k) = .ok t ∧
      t.predictReg (.ofMat [r]) = .ok [.fin 2] := by
  refine ⟨stumpFrame_describes k, by simp [stumpMissing, MTree.eval, hr, Arith.isnan, XR.isnan], ?_⟩
  obtain ⟨t, ht, hall⟩ := C67_always_no (C := C) (stumpFrame k) 0 (stumpMissing k) (stumpFrame_printed k)
    (stumpFrame_describes k) (by simp [stumpMissing, MTree.splits, hk])
  refine ⟨t, ht, hall [r] (fun _ => .fin 2) (by simp) ?_ ?_⟩
  · intro r' hr'
    rw [List.mem_singleton] at hr'
    subst hr'
    simp [stumpMissing, MTree.allNo, MTree.eval, hr, Arith.isnan, XR.isnan]
  · intro r' hr' s hs
    rw [List.mem_singleton] at hr'
    subst hr'
    simp [stumpMissing, MTree.splits] at hs
    subst hs
    simp [hr]

theorem C67_false : ¬ XgbMissingFaithful FP.exact String := by
  intro h
  obtain ⟨t, ht, hall⟩ := h (stumpFrame 0) 0 (stumpMissing 0) (stumpFrame_printed 0)
    (stumpFrame_describes 0) (by simp [stumpMissing, MTree.splits])
  obtain ⟨-, h1, t', ht', hp⟩ := C67_default_yes (C := String) 0 (by norm_num) [.nan] rfl
  rw [ht] at ht'
  cases ht'
  rw [hall [[.nan]] (fun _ => .fin 1) (by simp) (by
    intro r hr
    rw [List.mem_singleton] at hr
    subst hr
    exact h1) (by
    intro r hr s hs
    rw [List.mem_singleton] at hr
    subst hr
    simp [stumpMissing, MTree.splits] at hs
    subst hs
    simp)] at hp
  have h12 : (XR.fin 1 : Ex) = .fin 2 := by simpa using Except.ok.inj hp
  have := XR.fin_inj.1 h12
  norm_num at this

/-- Non-vacuity of the partial theorem: the same stump with default `No` and a missing value. -/
example : ∃ t : Tree Ex String, Tree.ofXgb (stumpFrame 3) = .ok t ∧
    t.predictReg (.ofMat [[.fin 0, .fin 0, .fin 0, .nan]]) = .ok [.fin 2] := by
  obtain ⟨t, ht, hall⟩ := C67_default_no_partial (C := String) (stumpFrame 3) 0
    (.split 3 (.fin (1 / 2)) false (.leaf (.fin 1)) (.leaf (.fin 2))) (stumpFrame_printed 3)
    (stumpFrame_describes 3) (by simp [MTree.splits])
  refine ⟨t, ht, hall _ (fun _ => .fin 2) (by simp) ?_ ?_ ?_⟩ <;>
    simp [MTree.eval, MTree.splits, Arith.isnan, XR.isnan]

end PurePredict
