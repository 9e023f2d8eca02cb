import Verif.Lemmas.Bagging
/-
C13: the probabilities of random forests, extra trees and bagging are averages.
-/
namespace PurePredict
open Spec
variable {C : Type}

/-- Member `m`, applied to the records `M` restricted to its feature subset, returns the
`|M| × k` matrix `P`. -/
def Returns (M : List (List ℝ)) (k : Nat) (m : Member Ex × Option (List Int))
    (P : Nat → Nat → ℝ) : Prop :=
  m.1.predictProba (.ofMat (M.map fun x => fins (columns 0 m.2 x))) =
    .ok (mat M.length k fun i c => .fin (P i c))

/-- The ensemble's feature subsets exist, one per member, and lie within the records. -/
def Bagging.Fits (b : Bagging Ex C) (M : List (List ℝ)) : Prop :=
  b.FeatsOk ∧ ∀ fs, b.features = some fs → ∀ f ∈ fs, ∀ x ∈ M, ∀ i ∈ f, 0 ≤ i ∧ i < x.length

theorem columns_fins (f : Option (List Int)) (x : List ℝ) :
    columns (.fin 0) f (fins x) = fins (columns 0 f x) := by
  cases f with
  | none => rfl
  | some fs =>
    simp only [columns, fins, List.map_map]
    apply List.map_congr_left
    intro i _
    simp only [List.getD_eq_getElem?_getD, List.getElem?_map, Function.comp]
    cases x[i.toNat]? <;> rfl

theorem Returns.slice {b : Bagging Ex C} {M : List (List ℝ)} (hfit : b.Fits M) {k : Nat}
    {m : Member Ex × Option (List Int)} (hm : m ∈ b.members) {P : Nat → Nat → ℝ}
    (h : Returns M k m P) :
    (featSlice (.ofMat (M.map fins)) m.2 >>= m.1.predictProba) =
      .ok (mat M.length k fun i c => .fin (P i c)) := by
  rw [featSlice_ofMat (.fin 0)]
  · rw [py_ok_bind, List.map_map, ← h]
    congr 3
    funext x
    exact columns_fins m.2 x
  · intro fs hfs x hx i hi
    obtain ⟨x, hx', rfl⟩ := List.mem_map.1 hx
    rw [fins_length]
    unfold Bagging.members at hm
    cases hbf : b.features with
    | none =>
      rw [hbf] at hm
      obtain ⟨e, _, rfl⟩ := List.mem_map.1 hm
      cases hfs
    | some fs' =>
      simp only [hbf] at hm
      rw [← List.map_uncurry_zip_eq_zipWith] at hm
      obtain ⟨⟨e, f⟩, hef, rfl⟩ := List.mem_map.1 hm
      cases hfs
      exact hfit.2 fs' hbf _ (List.of_mem_zip hef).2 x hx' i hi

/-- **C13**, the mean: whatever the member estimators are, if each returns probabilities for the
records restricted to its own features, the ensemble returns their arithmetic mean. -/
theorem C13_proba_is_mean (b : Bagging Ex C) (M : List (List ℝ)) (hM : M ≠ []) (hfit : b.Fits M)
    (k : Nat) (Ps : List (Nat → Nat → ℝ)) (hne : Ps ≠ [])
    (h : List.Forall₂ (Returns M k) b.members Ps) :
    b.predictProba (.ofMat (M.map fins)) =
      .ok (mat M.length k fun i c => .fin (meanEntry Ps i c)) := by
  obtain ⟨P0, Ps, rfl⟩ := List.exists_cons_of_ne_nil hne
  have hn : 0 < M.length := List.length_pos_of_ne_nil hM
  have h' : List.Forall₂ (fun (m : Member Ex × Option (List Int)) P =>
      (featSlice (.ofMat (M.map fins)) m.2 >>= m.1.predictProba) = .ok (mat M.length k P))
      b.members ((fun i c => (.fin (P0 i c) : Ex)) :: Ps.map fun P i c => .fin (P i c)) := by
    rw [← List.map_cons (f := fun (P : Nat → Nat → ℝ) i c => (.fin (P i c) : Ex)),
      List.forall₂_map_right_iff]
    rw [List.forall₂_iff_get] at h ⊢
    refine ⟨h.1, ?_⟩
    intro i h1 h2
    exact (h.2 i h1 h2).slice hfit (List.get_mem _ _)
  have hlen : b.estimators.length = Ps.length + 1 := by
    rw [← Bagging.members_length hfit.1, h.length_eq]; rfl
  rw [Bagging.predictProba_eq hfit.1 hn h', hlen]
  apply apply2d_mat
  intro i _ c _
  rw [accEntry_exact, XR.ofInt_exact, XR.div_exact]
  · simp [meanEntry]
  · push_cast; positivity

/-- The mean of distributions is a distribution. -/
theorem isDist_mean {k : Nat} {Ps : List (Nat → Nat → ℝ)} (hne : Ps ≠ []) {i : Nat}
    (h : ∀ P ∈ Ps, IsDist k ((List.range k).map (P i))) :
    IsDist k ((List.range k).map (meanEntry Ps i)) := by
  have hpos : (0 : ℝ) < Ps.length := by exact_mod_cast List.length_pos_of_ne_nil hne
  refine ⟨by simp, ?_, ?_⟩
  · intro x hx
    obtain ⟨c, hc, rfl⟩ := List.mem_map.1 hx
    apply div_nonneg _ hpos.le
    apply List.sum_nonneg
    intro y hy
    obtain ⟨P, hP, rfl⟩ := List.mem_map.1 hy
    exact (h P hP).2.1 _ (List.mem_map.2 ⟨c, hc, rfl⟩)
  · have : ∀ Qs : List (Nat → Nat → ℝ), (∀ P ∈ Qs, ((List.range k).map (P i)).sum = 1) →
        ((List.range k).map fun c => (Qs.map fun P => P i c).sum).sum = Qs.length := by
      intro Qs
      induction Qs with
      | nil => intro _; simp
      | cons Q Qs ih =>
        intro hQ
        have e := ih fun P hP => hQ P (by simp [hP])
        simp only [List.map_cons, List.sum_cons, List.sum_map_add, e, hQ Q (by simp),
          List.length_cons]
        push_cast; ring
    have e := this Ps fun P hP => (h P hP).2.2
    have e2 : (List.range k).map (meanEntry Ps i) =
        (List.range k).map fun c => (Ps.map fun P => P i c).sum * (Ps.length : ℝ)⁻¹ := by
      apply List.map_congr_left
      intro c _
      simp [meanEntry, div_eq_mul_inv]
    rw [e2, List.sum_map_mul_right, e, mul_inv_cancel₀ hpos.ne']

/-- **C13**, distribution: if every member's probabilities are distributions over the `k` classes,
so are the ensemble's, for every record. -/
theorem C13_proba_is_distribution (b : Bagging Ex C) (M : List (List ℝ)) (hM : M ≠ [])
    (hfit : b.Fits M) (k : Nat) (Ps : List (Nat → Nat → ℝ)) (hne : Ps ≠ [])
    (h : List.Forall₂ (Returns M k) b.members Ps)
    (hd : ∀ P ∈ Ps, ∀ i < M.length, IsDist k ((List.range k).map (P i))) :
    ∃ Q : List (List ℝ), b.predictProba (.ofMat (M.map fins)) = .ok (Q.map fins) ∧
      Q.length = M.length ∧ ∀ q ∈ Q, IsDist k q := by
  refine ⟨mat M.length k (meanEntry Ps), ?_, by simp [mat], ?_⟩
  · rw [C13_proba_is_mean b M hM hfit k Ps hne h]
    simp [mat, fins, Function.comp_def]
  · intro q hq
    obtain ⟨i, hi, rfl⟩ := List.mem_map.1 hq
    exact isDist_mean hne fun P hP => hd P hP i (List.mem_range.1 hi)

/-- **C13**, order: two ensembles with the same members (each with its feature subset) in any
order return the same probabilities. -/
theorem C13_order_independent (b b' : Bagging Ex C) (M : List (List ℝ)) (hM : M ≠ [])
    (hfit : b.Fits M) (hfit' : b'.Fits M) (hperm : b'.members.Perm b.members) (k : Nat)
    (Ps : List (Nat → Nat → ℝ)) (hne : Ps ≠ []) (h : List.Forall₂ (Returns M k) b.members Ps) :
    b'.predictProba (.ofMat (M.map fins)) = b.predictProba (.ofMat (M.map fins)) := by
  obtain ⟨Ps', h', hp⟩ := List.perm_comp_forall₂ hperm h
  have hne' : Ps' ≠ [] := by
    intro e; subst e; exact hne hp.nil_eq.symm
  rw [C13_proba_is_mean b' M hM hfit' k Ps' hne' h', C13_proba_is_mean b M hM hfit k Ps hne h]
  congr 2
  funext i c
  simp only [meanEntry]
  rw [(hp.map fun P => P i c).sum_eq, hp.length_eq]

/-- **C13**, decision: `predict` returns the label of the first class with the largest mean
probability. -/
theorem C13_predict_is_argmax (b : Bagging Ex C) (M : List (List ℝ)) (hM : M ≠ [])
    (hfit : b.Fits M) (k : Nat) (hk : 0 < k) (hcls : b.classes.length = k)
    (Ps : List (Nat → Nat → ℝ)) (hne : Ps ≠ [])
    (h : List.Forall₂ (Returns M k) b.members Ps) :
    ∃ labels, b.predict (.ofMat (M.map fins)) = .ok labels ∧ labels.length = M.length ∧
      ∀ i < M.length, ∃ c, IsFirstMax ((List.range k).map (meanEntry Ps i)) c ∧
        labels[i]? = b.classes[c]? := by
  have hrow : ∀ i, ∃ c, argmax (fins ((List.range k).map (meanEntry Ps i))) = .ok c ∧ c < k := by
    intro i
    obtain ⟨c, hc⟩ := argmax_total (l := fins ((List.range k).map (meanEntry Ps i)))
      (by intro e; have := congrArg List.length e; simp at this; omega)
    exact ⟨c, hc, by simpa using argmax_lt hc⟩
  choose c hc1 hc2 using hrow
  refine ⟨(List.range M.length).map fun i => b.classes[c i]'(by rw [hcls]; exact hc2 i), ?_, by simp,
    ?_⟩
  · simp only [Bagging.predict, C13_proba_is_mean b M hM hfit k Ps hne h, py_ok_bind]
    rw [mat, mapM_map', mapM_ok_map (g := c)]
    · rw [py_ok_bind, mapM_map']
      exact mapM_ok_map fun i _ => pyGet_lt _
    · intro i _
      rw [← hc1 i]
      simp [fins, Function.comp_def]
  · intro i hi
    refine ⟨c i, argmax_fins.1 (hc1 i), ?_⟩
    have : c i < b.classes.length := by rw [hcls]; exact hc2 i
    simp [hi, this]

/-- **C13**, floating point: in every sound arithmetic in which the integers up to the number of
members are representable, if all members' probabilities are representable and lie in [0,1], so do
the ensemble's. -/
theorem C13_mean_in_unit_rounded (fp : FP) (hs : fp.Sound) (b : Bagging (XR fp) C)
    (hf : b.FeatsOk) (X : Arr (XR fp)) (n k : Nat) (hn : 0 < n)
    (Ps : List (Nat → Nat → XR fp)) (hne : Ps ≠ [])
    (h : List.Forall₂ (fun (m : Member (XR fp) × Option (List Int)) P =>
      (featSlice X m.2 >>= m.1.predictProba) = .ok (mat n k P)) b.members Ps)
    (hint : ∀ j : Nat, j ≤ b.estimators.length → fp.rnd j = ((j : ℝ) : EReal))
    (hu : ∀ P ∈ Ps, ∀ i < n, ∀ c < k, XR.Unit (P i c) ∧ XR.Rep (P i c)) :
    ∃ Q, b.predictProba X = .ok (mat n k Q) ∧ ∀ i < n, ∀ c < k, XR.Unit (Q i c) := by
  obtain ⟨P0, Ps, rfl⟩ := List.exists_cons_of_ne_nil hne
  have hlen : b.estimators.length = Ps.length + 1 := by
    rw [← Bagging.members_length hf, h.length_eq]; rfl
  have hfold : ∀ (l : List (XR fp)) (s : ℝ) (j : Nat), (∀ x ∈ l, XR.Unit x ∧ XR.Rep x) →
      j + l.length ≤ b.estimators.length → 0 ≤ s → s ≤ j →
      ∃ r, l.foldl Arith.add (XR.fin s) = .fin r ∧ 0 ≤ r ∧ r ≤ ((j + l.length : Nat) : ℝ) := by
    intro l
    induction l with
    | nil => intro s j _ _ h0 h1; exact ⟨s, rfl, h0, by simpa using h1⟩
    | cons x l ih =>
      intro s j hx hj h0 h1
      obtain ⟨⟨r, rfl, hr0, hr1⟩, -⟩ := hx x (by simp)
      simp only [List.length_cons] at hj
      have e1 : fp.rnd (s + r) ≤ ((j + 1 : Nat) : ℝ) := by
        rw [← hint (j + 1) (by omega)]
        apply hs.mono
        push_cast; linarith
      have e0 : (0 : EReal) ≤ fp.rnd (s + r) := by
        rw [← hs.zero]; exact hs.mono (by linarith)
      obtain ⟨t, ht⟩ : ∃ t : ℝ, fp.rnd (s + r) = t := by
        refine ⟨(fp.rnd (s + r)).toReal, (EReal.coe_toReal ?_ ?_).symm⟩
        · exact ne_top_of_le_ne_top (EReal.coe_ne_top _) e1
        · exact ne_bot_of_le_ne_bot (by simp) e0
      have hstep : (XR.fin s : XR fp) +ₚ .fin r = .fin t := by
        show XR.round (s + r) = _
        simp [XR.round, ht]
      rw [ht] at e0 e1
      obtain ⟨q, hq, hq0, hq1⟩ := ih t (j + 1) (fun y hy => hx y (by simp [hy])) (by omega)
        (by exact_mod_cast e0) (by exact_mod_cast e1)
      refine ⟨q, by rw [List.foldl_cons, hstep, hq], hq0, ?_⟩
      simp only [List.length_cons]
      rwa [show j + (l.length + 1) = j + 1 + l.length by omega]
  have hm : (0 : ℝ) < (b.estimators.length : ℝ) := by rw [hlen]; positivity
  have hentry : ∀ i < n, ∀ c < k, ∃ q, accEntry P0 Ps i c /ₚ ofInt (b.estimators.length : Int) =
      .ok q ∧ XR.Unit q := by
    intro i hi c hc
    obtain ⟨⟨r, hr, hr0, hr1⟩, -⟩ := hu P0 (by simp) i hi c hc
    obtain ⟨q, hq, hq0, hq1⟩ := hfold (Ps.map fun P => P i c) r 1 (by
      intro x hx
      obtain ⟨P, hP, rfl⟩ := List.mem_map.1 hx
      exact hu P (by simp [hP]) i hi c hc) (by rw [List.length_map, hlen]; omega) hr0
      (by simpa using hr1)
    have hofi : (ofInt (b.estimators.length : Int) : XR fp) = .fin b.estimators.length := by
      show XR.round _ = _
      have := hint b.estimators.length le_rfl
      rw [XR.round, Int.cast_natCast, this, XR.ofEReal_coe]
    rw [accEntry, hr, hq, hofi]
    obtain ⟨q', h1, h2, -⟩ := XR.div_unit hs hq0 hm (by
      rw [hlen]
      rw [List.length_map, Nat.add_comm] at hq1
      exact_mod_cast hq1)
    exact ⟨q', h1, h2⟩
  have : Nonempty (XR fp) := ⟨.nan⟩
  choose! Q hQ1 hQ2 using hentry
  exact ⟨Q, by rw [Bagging.predictProba_eq hf hn h]; exact apply2d_mat hQ1, hQ2⟩

/-- Non-vacuity: two constant members on different feature subsets of one record. -/
example : (⟨some [[0], [1]], ["a", "b"],
      [⟨fun _ => .ok [[.fin 1, .fin 0]]⟩, ⟨fun _ => .ok [[.fin 0, .fin 1]]⟩]⟩ :
      Bagging Ex String).predictProba (.ofMat ([[3, 4]].map fins)) =
    .ok [[.fin (1 / 2), .fin (1 / 2)]] := by
  rw [C13_proba_is_mean _ [[3, 4]] (by simp) _ 2
    [fun _ c => if c = 0 then 1 else 0, fun _ c => if c = 0 then 0 else 1] (by simp)]
  · simp [mat, meanEntry, List.range_succ]
  · refine .cons ?_ (.cons ?_ .nil) <;> simp [Returns, mat, List.range_succ]
  · refine ⟨?_, ?_⟩
    · intro fs h; cases h; rfl
    · intro fs h; cases h; simp

end PurePredict
