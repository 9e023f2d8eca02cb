import Verif.Lemmas.EnsembleError
import Verif.Lemmas.GB
import Verif.Spec.Boosting
import Verif.Props.C13
import Verif.Props.C18
import Verif.Props.C23
import Verif.Props.C24
/-
C82: accuracy of averages, additive models and scalers in double precision.
-/
namespace PurePredict
open Spec
variable {C : Type}

theorem eta64 : (2 : ℝ) ^ (-1074 : ℤ) = 2 * 2 ^ (-1075 : ℤ) := by
  rw [← zpow_one_add₀ (by norm_num)]; norm_num

theorem within64_of {n z k : Nat} {mag v x A E : ℝ} (hk : k ≤ 2 ^ 51) (hkn : k ≤ n) (hA : A ≤ mag)
    (hA0 : 0 ≤ A) (hE : E ≤ z * (2 : ℝ) ^ (-1074 : ℤ))
    (h : |v - x| ≤ gam ((2 : ℝ) ^ (-53 : ℤ)) k * A + E) : Within64 n mag z v x := by
  unfold Within64
  have h1 := (gam64 hk).1
  have h2 : (k : ℝ) ≤ n := by exact_mod_cast hkn
  have h52 : (0 : ℝ) ≤ (2 : ℝ) ^ (-52 : ℤ) := by positivity
  refine h.trans (add_le_add ?_ hE)
  refine mul_le_mul (h1.trans (mul_le_mul_of_nonneg_right h2 h52)) hA hA0 ?_
  exact mul_nonneg (Nat.cast_nonneg _) h52

/-- **C82**, bagging and forests: the probabilities of up to `2⁵¹` members, all doubles in [0, 1],
are averaged with a relative error of at most one unit of `2⁻⁵²` per member. -/
theorem C82_average (b : Bagging (XR FP.binary64) C) (hf : b.FeatsOk) (X : Arr (XR FP.binary64))
    (n k : Nat) (hn : 0 < n) (Ps : List (Nat → Nat → ℝ)) (hne : Ps ≠ [])
    (h : List.Forall₂ (fun (m : Member (XR FP.binary64) × Option (List Int)) P =>
      (featSlice X m.2 >>= m.1.predictProba) = .ok (mat n k fun i c => .fin (P i c))) b.members Ps)
    (hT : b.estimators.length ≤ 2 ^ 51)
    (hu : ∀ P ∈ Ps, ∀ i < n, ∀ c < k,
      0 ≤ P i c ∧ P i c ≤ 1 ∧ FP.binary64.rnd (P i c) = (P i c : EReal)) :
    ∃ Q : Nat → Nat → ℝ, b.predictProba X = .ok (mat n k fun i c => .fin (Q i c)) ∧
      ∀ i < n, ∀ c < k,
        Within64 b.estimators.length (meanEntry Ps i c) 1 (Q i c) (meanEntry Ps i c) := by
  have hlen : b.estimators.length = Ps.length := by
    rw [← Bagging.members_length hf, h.length_eq]
  obtain ⟨P0, Ps, rfl⟩ := List.exists_cons_of_ne_nil hne
  rw [List.length_cons] at hlen
  have h' : List.Forall₂ (fun (m : Member (XR FP.binary64) × Option (List Int)) P =>
      (featSlice X m.2 >>= m.1.predictProba) = .ok (mat n k P)) b.members
      ((fun i c => .fin (P0 i c)) :: Ps.map fun P i c => .fin (P i c)) := by
    have := (List.forall₂_map_right_iff (f := fun (P : Nat → Nat → ℝ) i c => (.fin (P i c) : XR FP.binary64))
      (R := fun (m : Member (XR FP.binary64) × Option (List Int)) P =>
      (featSlice X m.2 >>= m.1.predictProba) = .ok (mat n k P)) (l := b.members) (u := P0 :: Ps)).2 h
    exact this
  have hentry : ∀ i < n, ∀ c < k, _ := fun i hi c hc =>
    average64 P0 Ps i c (by omega) fun P hP => hu P hP i hi c hc
  choose! s q hsq using hentry
  refine ⟨q, ?_, ?_⟩
  · rw [Bagging.predictProba_eq hf hn h']
    apply apply2d_mat
    intro i hi c hc
    rw [(hsq i hi c hc).1, hlen]
    exact (hsq i hi c hc).2.1
  · intro i hi c hc
    refine within64_of (k := Ps.length + 1) (by omega) (by omega) le_rfl ?_ ?_ (hsq i hi c hc).2.2
    · unfold meanEntry
      refine div_nonneg (List.sum_nonneg fun x hx => ?_) (Nat.cast_nonneg _)
      obtain ⟨P, hP, rfl⟩ := List.mem_map.1 hx
      exact (hu P hP i hi c hc).1
    · rw [eta64, Nat.cast_one, one_mul]
      have : (0 : ℝ) ≤ 2 ^ (-1075 : ℤ) := by positivity
      linarith

/-- **C82**, bagging and forests: when the exact mean probability of class `c` leads every other by
more than the errors of both, `predict` answers with class `c`. -/
theorem C82_average_label (b : Bagging (XR FP.binary64) C) (hf : b.FeatsOk)
    (X : Arr (XR FP.binary64)) (n k : Nat) (hn : 0 < n) (hk : 0 < k) (hcls : b.classes.length = k)
    (Ps : List (Nat → Nat → ℝ)) (hne : Ps ≠ [])
    (h : List.Forall₂ (fun (m : Member (XR FP.binary64) × Option (List Int)) P =>
      (featSlice X m.2 >>= m.1.predictProba) = .ok (mat n k fun i c => .fin (P i c))) b.members Ps)
    (hT : b.estimators.length ≤ 2 ^ 51)
    (hu : ∀ P ∈ Ps, ∀ i < n, ∀ c < k,
      0 ≤ P i c ∧ P i c ≤ 1 ∧ FP.binary64.rnd (P i c) = (P i c : EReal)) :
    ∃ labels, b.predict X = .ok labels ∧ labels.length = n ∧ ∀ i < n, ∀ c < k,
      (∀ j < k, j ≠ c → meanEntry Ps i j + (b.estimators.length * 2 ^ (-52 : ℤ) + 2 ^ (-1074 : ℤ)) <
        meanEntry Ps i c - (b.estimators.length * 2 ^ (-52 : ℤ) + 2 ^ (-1074 : ℤ))) →
      labels[i]? = b.classes[c]? := by
  obtain ⟨Q, hQ, hw⟩ := C82_average b hf X n k hn Ps hne h hT hu
  have hrow : ∀ i, ∃ c, argmax ((List.range k).map fun c => (.fin (Q i c) : XR FP.binary64)) = .ok c ∧
      c < k := by
    intro i
    obtain ⟨c, hc⟩ := argmax_total (l := (List.range k).map fun c => (.fin (Q i c) : XR FP.binary64))
      (by intro e; have := congrArg List.length e; simp at this; omega)
    exact ⟨c, hc, by simpa using argmax_lt hc⟩
  choose a ha1 ha2 using hrow
  refine ⟨(List.range n).map fun i => b.classes[a i]'(by rw [hcls]; exact ha2 i), ?_, by simp, ?_⟩
  · simp only [Bagging.predict, hQ, py_ok_bind]
    rw [mat, mapM_map', mapM_ok_map (g := a)]
    · rw [py_ok_bind, mapM_map']
      exact mapM_ok_map fun i _ => pyGet_lt _
    · intro i _
      exact ha1 i
  · intro i hi c hc hlead
    have hac : a i = c := by
      by_contra hne'
      have hm := (argmax_iff XR.toE (XR.ordOn_toE (by simp))).1 (ha1 i)
      obtain ⟨hlt, hmax, -⟩ := hm
      have h1 := hmax c (by simpa using hc)
      simp only [List.map_map, List.getElem_map, List.getElem_range, Function.comp, XR.toE,
        EReal.coe_le_coe_iff] at h1
      have hbound : ∀ j < k, |Q i j - meanEntry Ps i j| ≤
          b.estimators.length * 2 ^ (-52 : ℤ) + 2 ^ (-1074 : ℤ) := by
        intro j hj
        have := hw i hi j hj
        unfold Within64 at this
        rw [Nat.cast_one, one_mul] at this
        refine this.trans (add_le_add ?_ le_rfl)
        have hle : meanEntry Ps i j ≤ 1 := by
          unfold meanEntry
          have hp : (0 : ℝ) < Ps.length := by exact_mod_cast List.length_pos_iff.2 hne
          rw [div_le_one hp]
          have := List.sum_le_card_nsmul (Ps.map fun P => P i j) (1 : ℝ) (by
            intro x hx
            obtain ⟨P, hP, rfl⟩ := List.mem_map.1 hx
            exact (hu P hP i hi j hj).2.1)
          simpa using this
        have h0 : (0 : ℝ) ≤ b.estimators.length * 2 ^ (-52 : ℤ) := by positivity
        calc _ ≤ (b.estimators.length * 2 ^ (-52 : ℤ) : ℝ) * 1 := mul_le_mul_of_nonneg_left hle h0
          _ = _ := mul_one _
      have h2 := abs_le.1 (hbound (a i) (ha2 i))
      have h3 := abs_le.1 (hbound c hc)
      have h4 := hlead (a i) (ha2 i) hne'
      linarith [h2.2, h3.1]
    have : a i < b.classes.length := by rw [hcls]; exact ha2 i
    simp [hi, ← hac, this]

/-- The probabilities of one leaf. -/
theorem leaf_within64 (t : Tree (XR FP.binary64) C) (k : Nat) (hk : k ≤ 2 ^ 51)
    (hv : ∀ v ∈ t.value, ∃ c : List ℝ, v = c.map XR.fin ∧ c.length = k ∧
      (∀ a ∈ c, 0 ≤ a ∧ FP.binary64.rnd a = (a : EReal)) ∧
      ∃ S, pySum (c.map XR.fin : List (XR FP.binary64)) = .fin S ∧ S ≠ 0)
    (nd : Int) (p : List (XR FP.binary64)) (hP : t.probaFromLeaf nd = .ok p) :
    ∃ c q : List ℝ, pyGet t.value nd = .ok (c.map XR.fin) ∧ p = q.map XR.fin ∧ q.length = k ∧
      c.length = k ∧ 0 < c.sum ∧
      (∀ x ∈ q, 0 ≤ x ∧ x ≤ 1 ∧ FP.binary64.rnd x = (x : EReal)) ∧
      List.Forall₂ (fun a x => Within64 (2 * k) (a / c.sum) 1 x (a / c.sum)) c q := by
  have hs := FP.binary64_sound
  have hacc := FP.binary64_accurate
  simp only [Tree.probaFromLeaf] at hP
  obtain ⟨v, hget, hnd⟩ := bind_ok_iff.1 hP
  obtain ⟨c, rfl, hc, hcn, S, hS, hS0⟩ := hv v (pyGet_ok_mem hget)
  have hg := gam64 (n := c.length - 1) (by omega)
  obtain ⟨q, h1, h2, h3, h4, -⟩ := normalise_near hs hacc c hcn S hS hS0 hg.2
  rw [hS, h1] at hnd
  have hNN : ∀ x ∈ (c.map XR.fin : List (XR FP.binary64)), XR.NN x := by
    intro x hx
    obtain ⟨a, ha, rfl⟩ := List.mem_map.1 hx
    exact XR.NN.fin (hcn a ha).1 (hcn a ha).2
  obtain ⟨h5, -⟩ := XR.pySum_NN hs hNN
  rw [hS] at h5
  have hSpos : 0 < S := by
    have : (0 : EReal) ≤ (S : EReal) := h5.2.1
    exact lt_of_le_of_ne (by exact_mod_cast this) hS0.symm
  have hpos : 0 < c.sum := by
    obtain ⟨-, herr⟩ := pySum_error hs hacc c (fun x hx => (hcn x hx).2) S hS
    rw [sum_map_abs_of_nonneg fun x hx => (hcn x hx).1] at herr
    have hl0 : 0 ≤ c.sum := List.sum_nonneg fun x hx => (hcn x hx).1
    rcases hl0.lt_or_eq with h | h
    · exact h
    · rw [← h] at herr; have := (abs_le.1 herr).2; linarith
  refine ⟨c, q, hget, (Except.ok.inj hnd).symm, by rw [h3, hc], hc, hpos,
    fun x hx => ⟨(h4 x hx).1, (h4 x hx).2, h2 x hx⟩, ?_⟩
  have hk0 : 0 < c.length := by
    rcases Nat.eq_zero_or_pos c.length with h | h
    · rw [List.length_eq_zero_iff] at h; subst h; simp at hpos
    · exact h
  have key : ∀ (c' q' : List ℝ), (∀ a ∈ c', a ∈ c) →
      (c'.map (XR.fin (fp := FP.binary64))).mapM (fun x => x /ₚ .fin S) = .ok (q'.map XR.fin) →
      List.Forall₂ (fun a x => Within64 (2 * k) (a / c.sum) 1 x (a / c.sum)) c' q' := by
    intro c' q' hsub hm
    rw [mapM_map'] at hm
    have hF := mapM_ok_iff.1 hm
    rw [List.forall₂_map_right_iff] at hF
    clear hm
    induction hF with
    | nil => exact .nil
    | @cons a x c' q' hax _ ih =>
      refine .cons ?_ (ih fun y hy => hsub y (by simp [hy]))
      rw [XR.div_fin, if_neg hS0] at hax
      have hq := XR.round_eq_fin.1 (Except.ok.inj hax)
      have ha := hsub a (by simp)
      have := share_error hs hacc hcn hS hSpos hg.2 ha hq
      unfold Within64
      refine this.trans ?_
      have h0 : 0 ≤ a / c.sum := div_nonneg (hcn a ha).1 hpos.le
      refine add_le_add (mul_le_mul_of_nonneg_right ?_ h0) ?_
      · have h6 := hg.1
        have ecast : ((c.length - 1 : Nat) : ℝ) = k - 1 := by
          rw [Nat.cast_sub hk0, hc]; simp
        rw [ecast] at h6
        have e52 : (2 : ℝ) ^ (-52 : ℤ) = 2 * 2 ^ (-53 : ℤ) := by
          rw [← zpow_one_add₀ (by norm_num)]; norm_num
        push_cast
        rw [e52] at h6 ⊢
        have hu0 : (0 : ℝ) ≤ 2 ^ (-53 : ℤ) := by positivity
        generalize (2 : ℝ) ^ (-53 : ℤ) = v at *
        generalize gam v (c.length - 1) = g at *
        nlinarith
      · rw [eta64, Nat.cast_one, one_mul]
        have : (0 : ℝ) ≤ 2 ^ (-1075 : ℤ) := by positivity
        linarith
  exact key c q (fun a ha => ha) h1

/-- **C82**, decision trees: for every record of every request, dense or sparse, every probability is
the share of its class in the leaf the record reaches, up to `2k` units of `2⁻⁵²` relative to it, `k`
the number of classes. -/
theorem C82_tree (t : Tree (XR FP.binary64) C) (k : Nat) (hk : k ≤ 2 ^ 51)
    (hv : ∀ v ∈ t.value, ∃ c : List ℝ, v = c.map XR.fin ∧ c.length = k ∧
      (∀ a ∈ c, 0 ≤ a ∧ FP.binary64.rnd a = (a : EReal)) ∧
      ∃ S, pySum (c.map XR.fin : List (XR FP.binary64)) = .fin S ∧ S ≠ 0)
    (X : Arr (XR FP.binary64)) (P : List (List (XR FP.binary64))) (hP : t.predictProba X = .ok P) :
    ∃ X' rs, checkArray X .allow = .ok X' ∧ X'.rows = .ok rs ∧
      List.Forall₂ (fun row p => ∃ nd, t.getLeafNode row = .ok nd ∧
        ∃ c q : List ℝ, pyGet t.value nd = .ok (c.map XR.fin) ∧ p = q.map XR.fin ∧ q.length = k ∧
          c.length = k ∧ 0 < c.sum ∧
          (∀ x ∈ q, 0 ≤ x ∧ x ≤ 1 ∧ FP.binary64.rnd x = (x : EReal)) ∧
          List.Forall₂ (fun a x => Within64 (2 * k) (a / c.sum) 1 x (a / c.sum)) c q) rs P := by
  simp only [Tree.predictProba] at hP
  obtain ⟨X', hX, hP1⟩ := bind_ok_iff.1 hP
  obtain ⟨rs, hrs, hP2⟩ := bind_ok_iff.1 hP1
  obtain ⟨leaves, hl, hP3⟩ := bind_ok_iff.1 hP2
  refine ⟨X', rs, hX, hrs, ?_⟩
  have h1 := mapM_ok_iff.1 hl
  have h2 := mapM_ok_iff.1 hP3
  clear hl hP hP1 hP2 hP3 hrs
  induction h1 generalizing P with
  | nil => cases h2; exact .nil
  | @cons row nd rs leaves hrow _ ih =>
    cases h2 with
    | cons hp h3 => exact .cons ⟨nd, hrow, leaf_within64 t k hk hv nd _ hp⟩ (ih _ h3)

/-- **C82**, averaging members that are themselves only accurate: if every member's probability is
within `ε` of an exact value `E`, the ensemble's is within `ε` plus the error of averaging of the
mean of the exact values. -/
theorem C82_forest (b : Bagging (XR FP.binary64) C) (hf : b.FeatsOk) (X : Arr (XR FP.binary64))
    (n k : Nat) (hn : 0 < n) (Ps Es : List (Nat → Nat → ℝ)) (hne : Ps ≠ [])
    (h : List.Forall₂ (fun (m : Member (XR FP.binary64) × Option (List Int)) P =>
      (featSlice X m.2 >>= m.1.predictProba) = .ok (mat n k fun i c => .fin (P i c))) b.members Ps)
    (hT : b.estimators.length ≤ 2 ^ 51)
    (hu : ∀ P ∈ Ps, ∀ i < n, ∀ c < k,
      0 ≤ P i c ∧ P i c ≤ 1 ∧ FP.binary64.rnd (P i c) = (P i c : EReal))
    (ε : ℝ) (hE : List.Forall₂ (fun (P E : Nat → Nat → ℝ) => ∀ i < n, ∀ c < k,
      |P i c - E i c| ≤ ε) Ps Es) :
    ∃ Q : Nat → Nat → ℝ, b.predictProba X = .ok (mat n k fun i c => .fin (Q i c)) ∧
      ∀ i < n, ∀ c < k, |Q i c - meanEntry Es i c| ≤
        ε + b.estimators.length * 2 ^ (-52 : ℤ) + 2 ^ (-1074 : ℤ) := by
  obtain ⟨Q, hQ, hw⟩ := C82_average b hf X n k hn Ps hne h hT hu
  refine ⟨Q, hQ, fun i hi c hc => ?_⟩
  have hp : (0 : ℝ) < Ps.length := by exact_mod_cast List.length_pos_iff.2 hne
  have hle : meanEntry Ps i c ≤ 1 := by
    unfold meanEntry
    rw [div_le_one hp]
    have := List.sum_le_card_nsmul (Ps.map fun P => P i c) (1 : ℝ) (by
      intro x hx
      obtain ⟨P, hP, rfl⟩ := List.mem_map.1 hx
      exact (hu P hP i hi c hc).2.1)
    simpa using this
  have h1 := hw i hi c hc
  unfold Within64 at h1
  rw [Nat.cast_one, one_mul] at h1
  have h2 : |meanEntry Ps i c - meanEntry Es i c| ≤ ε := by
    unfold meanEntry
    rw [← hE.length_eq, ← sub_div, abs_div, abs_of_pos hp, div_le_iff₀ hp]
    clear hu h hne hQ hw hle h1 hp
    induction hE with
    | nil => simp
    | @cons P E Ps Es h1 _ ih =>
      simp only [List.map_cons, List.sum_cons, List.length_cons]
      push_cast
      have h2 := h1 i hi c hc
      have := abs_add_le (P i c - E i c) ((Ps.map fun P => P i c).sum - (Es.map fun P => P i c).sum)
      have e : P i c + (Ps.map fun P => P i c).sum - (E i c + (Es.map fun P => P i c).sum) =
        (P i c - E i c) + ((Ps.map fun P => P i c).sum - (Es.map fun P => P i c).sum) := by ring
      rw [e]
      linarith
  have h3 := abs_add_le (Q i c - meanEntry Ps i c) (meanEntry Ps i c - meanEntry Es i c)
  rw [sub_add_sub_cancel] at h3
  have h0 : (0 : ℝ) ≤ b.estimators.length * 2 ^ (-52 : ℤ) := by positivity
  have h4 := mul_le_mul_of_nonneg_left hle h0
  rw [mul_one] at h4
  linarith

/-- **C82**, gradient boosting: every finite raw score is the initial score plus the learning rate
times the sum of the stages' predictions, up to `S + 1` roundings. -/
theorem C82_boosting (g : GB (XR FP.binary64) C) (M : List (List (XR FP.binary64))) (hM : M ≠ [])
    (hw : Rect g.nFeatures M) (K : Nat) (hK : 0 < K) (hS : g.estimators ≠ [])
    (hS51 : g.estimators.length + 1 ≤ 2 ^ 51) (hlen : ∀ st ∈ g.estimators, st.length = K)
    (lr : ℝ) (hlr : g.learningRate = .fin lr) (I : Nat → Nat → ℝ)
    (hI : (g.initProba (.ofMat M) >>= g.loss.initRaw) = .ok (mat M.length K fun i c => .fin (I i c)))
    (hIr : ∀ i < M.length, ∀ c < K, FP.binary64.rnd (I i c) = (I i c : EReal))
    (T : Nat → Nat → Nat → ℝ)
    (hT : ∀ s (hs : s < g.estimators.length) c (hc : c < (g.estimators[s]).length),
      (g.estimators[s])[c] (.ofMat M) = .ok ((List.range M.length).map fun i => .fin (T s c i))) :
    ∃ R : Nat → Nat → XR FP.binary64, g.rawPredict (.ofMat M) = .ok (mat M.length K R) ∧
      ∀ i < M.length, ∀ c < K, ∀ v, R i c = .fin v →
        Within64 (g.estimators.length + 1)
          (|I i c| + ∑ s ∈ Finset.range g.estimators.length, |T s c i * lr|) g.estimators.length
          v (boosted (I i c) lr g.estimators.length fun s => T s c i) := by
  have hs := FP.binary64_sound
  have hacc := FP.binary64_accurate
  have hT' : ∀ c < K, List.Forall₂ (GB.StageReturns (.ofMat M) M.length c) g.estimators
      ((List.range g.estimators.length).map fun s i => .fin (T s c i)) := by
    intro c hc
    rw [List.forall₂_iff_get]
    refine ⟨by simp, ?_⟩
    intro s h1 h2
    have hc' : c < (g.estimators[s]).length := by
      rw [hlen _ (List.getElem_mem h1)]; exact hc
    refine ⟨(g.estimators[s])[c], by simp [hc'], ?_⟩
    rw [hT s h1 c hc']
    simp
  refine ⟨_, GB.rawPredict_eq hM hw hK hS hlen hI hT', ?_⟩
  intro i hi c hc v hv
  set S := g.estimators.length with hSdef
  have hfold : ((List.range S).map fun s (i : Nat) => (.fin (T s c i) : XR FP.binary64)).foldl
      (fun a t => a +ₚ (t i *ₚ g.learningRate)) (ofInt 0) =
      pySum (((List.range S).map fun s => (T s c i, lr)).map
        fun p => (.fin p.1 : XR FP.binary64) *ₚ .fin p.2) := by
    unfold pySum
    rw [hlr, List.foldl_map, List.map_map, List.foldl_map]
    rfl
  rw [hfold] at hv
  obtain ⟨a, p, ha, hp, hap⟩ := XR.add_eq_fin hv
  obtain rfl := XR.fin_inj.1 ha
  obtain ⟨h1, h2⟩ := products_error hs hacc _ p hp
  rw [List.map_map, List.map_map, List.length_map, List.length_range] at h2
  have e1 : ((List.range S).map ((fun p : ℝ × ℝ => p.1 * p.2) ∘ fun s => (T s c i, lr))).sum =
      lr * ∑ s ∈ Finset.range S, T s c i := by
    rw [← list_sum_range, ← List.sum_map_mul_left]
    congr 1
    apply List.map_congr_left
    intro s _
    simp [mul_comm]
  have e2 : ((List.range S).map ((fun p : ℝ × ℝ => |p.1 * p.2|) ∘ fun s => (T s c i, lr))).sum =
      ∑ s ∈ Finset.range S, |T s c i * lr| := by
    rw [← list_sum_range]; rfl
  rw [e1, e2] at h2
  have hDA : |lr * ∑ s ∈ Finset.range S, T s c i| ≤ ∑ s ∈ Finset.range S, |T s c i * lr| := by
    rw [Finset.mul_sum]
    refine (Finset.abs_sum_le_sum_abs _ _).trans (le_of_eq ?_)
    apply Finset.sum_congr rfl
    intro s _
    rw [mul_comm]
  have hE0 : (0 : ℝ) ≤ (1 + 2 ^ (-53 : ℤ)) ^ S * (S * 2 ^ (-1075 : ℤ)) := by positivity
  have h3 := addTerm_error hacc h1 (hIr i hi c hc) hap hDA hE0 h2
  refine within64_of (k := S + 1) hS51 le_rfl le_rfl ?_ ?_ h3
  · exact add_nonneg (abs_nonneg _) (Finset.sum_nonneg fun _ _ => abs_nonneg _)
  · have hg := (gam64 hS51).2
    have e3 : (1 + (2 : ℝ) ^ (-53 : ℤ)) * ((1 + 2 ^ (-53 : ℤ)) ^ S * (S * 2 ^ (-1075 : ℤ))) =
        (gam (2 ^ (-53 : ℤ)) (S + 1) + 1) * (S * 2 ^ (-1075 : ℤ)) := by
      unfold gam; ring
    rw [e3, eta64]
    have h0 : (0 : ℝ) ≤ S * 2 ^ (-1075 : ℤ) := by positivity
    generalize gam ((2 : ℝ) ^ (-53 : ℤ)) (S + 1) = y at *
    have := mul_le_mul_of_nonneg_right (show y + 1 ≤ 2 by linarith) h0
    generalize (2 : ℝ) ^ (-1075 : ℤ) = z at *
    linarith

/-- **C82**, XGBoost, two classes: every finite margin is the sum of the trees' leaf values up to one
rounding per tree. -/
theorem C82_xgb (m : Xgb (XR FP.binary64) C) (M : List (List (XR FP.binary64)))
    (ts : List (Tree (XR FP.binary64) C)) (hts : m.trees = .binary ts) (hn : ts.length ≤ 2 ^ 51)
    (os : List (Nat → ℝ))
    (h : List.Forall₂ (fun t o => TreeReturns (.ofMat M) M.length t fun i => .fin (o i)) ts os)
    (hr : ∀ o ∈ os, ∀ i < M.length, FP.binary64.rnd (o i) = (o i : EReal)) :
    ∃ R : Nat → XR FP.binary64, m.predictBinary (.ofMat M) = .ok ((List.range M.length).map R) ∧
      ∀ i < M.length, ∀ v, R i = .fin v →
        Within64 ts.length (os.map fun o => |o i|).sum 0 v (os.map fun o => o i).sum := by
  have hs := FP.binary64_sound
  have hacc := FP.binary64_accurate
  have h' : List.Forall₂ (TreeReturns (.ofMat M) M.length) ts
      (os.map fun o (i : Nat) => (XR.fin (o i) : XR FP.binary64)) := by
    rw [List.forall₂_map_right_iff]
    exact h
  have hl : ts.length = os.length := h.length_eq
  refine ⟨_, by
    simp only [Xgb.predictBinary, len_ofMat, py_ok_bind, hts, replicate_eq_range_map,
      foldl_addTree h']; rfl, ?_⟩
  intro i hi v hv
  have e : (os.map fun o (i : Nat) => (XR.fin (o i) : XR FP.binary64)).foldl
      (fun a o => a +ₚ o i) (ofInt 0) = pySum ((os.map fun o => o i).map XR.fin) := by
    unfold pySum
    rw [List.foldl_map, List.map_map, List.foldl_map]
    rfl
  rw [e] at hv
  obtain ⟨-, h2⟩ := pySum_error hs hacc _ (by
    intro x hx
    obtain ⟨o, ho, rfl⟩ := List.mem_map.1 hx
    exact hr o ho i hi) v hv
  rw [List.length_map, List.map_map] at h2
  refine within64_of (k := os.length - 1) (by omega) (by omega) le_rfl ?_ (le_of_eq ?_)
    (h2.trans (le_of_eq (add_zero _).symm))
  · exact List.sum_nonneg fun x hx => by
      obtain ⟨o, ho, rfl⟩ := List.mem_map.1 hx; exact abs_nonneg _
  · simp

/-- One rounded quotient. -/
theorem quot_error64 {a b d v e : ℝ} {k : Nat} (hv : (XR.quot (.fin d) b : XR FP.binary64) = .fin v)
    (hd : |d - a| ≤ gam ((2 : ℝ) ^ (-53 : ℤ)) k * |a|) (hb : b ≠ 0) (he : e = a / b) :
    |v - e| ≤ gam ((2 : ℝ) ^ (-53 : ℤ)) (k + 1) * |e| + 2 ^ (-1075 : ℤ) := by
  have hacc := FP.binary64_accurate
  have hq := XR.round_eq_fin.1 hv
  have h6 := hacc.rel _ _ hq
  subst he
  have hb' := abs_pos.2 hb
  have h7 : |d / b - a / b| ≤ gam ((2 : ℝ) ^ (-53 : ℤ)) k * |a / b| := by
    rw [← sub_div, abs_div, abs_div, ← mul_div_assoc]
    exact div_le_div_of_nonneg_right hd hb'.le
  have hu := hacc.u_nonneg
  have h8 : |d / b| ≤ (1 + gam ((2 : ℝ) ^ (-53 : ℤ)) k) * |a / b| := by
    have := abs_add_le (d / b - a / b) (a / b)
    rw [sub_add_cancel] at this
    linarith
  have h10 := abs_add_le (v - d / b) (d / b - a / b)
  rw [sub_add_sub_cancel] at h10
  rw [gam_succ]
  generalize (2 : ℝ) ^ (-53 : ℤ) = u at *
  have h11 : u * |d / b| ≤ u * ((1 + gam u k) * |a / b|) := mul_le_mul_of_nonneg_left h8 hu
  refine h10.trans ?_
  calc _ ≤ u * ((1 + gam u k) * |a / b|) + 2 ^ (-1075 : ℤ) + gam u k * |a / b| := by linarith
    _ = _ := by ring

theorem eta_le : (2 : ℝ) ^ (-1075 : ℤ) ≤ ((1 : Nat) : ℝ) * 2 ^ (-1074 : ℤ) := by
  rw [eta64, Nat.cast_one, one_mul]
  have : (0 : ℝ) ≤ 2 ^ (-1075 : ℤ) := by positivity
  linarith

/-- **C82**, StandardScaler: every finite output is within two roundings of the exact value. -/
theorem C82_standard (s : StandardScaler (XR FP.binary64)) (w : Nat) (mean scale : Nat → ℝ)
    (hm : s.withMean = true → s.mean = some ((List.range w).map fun j => .fin (mean j)) ∧
      ∀ j < w, FP.binary64.rnd (mean j) = (mean j : EReal))
    (hsc : s.withStd = true → s.scale = some ((List.range w).map fun j => .fin (scale j)) ∧
      ∀ j < w, scale j ≠ 0)
    (R : List (List ℝ)) (hR : R ≠ []) (hw : Rect w R)
    (hrep : ∀ x ∈ R, ∀ a ∈ x, FP.binary64.rnd a = (a : EReal)) :
    ∃ Y : List (List (XR FP.binary64)), s.transform (.ofMat (R.map fun x => x.map .fin)) =
        .ok (.ofMat Y) ∧
      List.Forall₂ (fun (x : List ℝ) y => y.length = w ∧ ∀ j < w, ∀ v, y[j]? = some (.fin v) →
        Within64 2 |stdEntry s.withMean s.withStd mean scale j (x.getD j 0)| 1 v
          (stdEntry s.withMean s.withStd mean scale j (x.getD j 0))) R Y := by
  have hs := FP.binary64_sound
  have hacc := FP.binary64_accurate
  refine ⟨_, C22_transform_rounded FP.binary64 s w mean scale (fun h => (hm h).1) hsc _
    (by simpa using hR) (by intro r hr; obtain ⟨x, hx, rfl⟩ := List.mem_map.1 hr; simp [hw x hx]), ?_⟩
  unfold onColumns
  rw [List.map_map, List.forall₂_map_right_iff, List.forall₂_same]
  intro x hx
  refine ⟨by simp, ?_⟩
  intro j hj v hv
  have hjx : j < x.length := by rw [hw x hx]; exact hj
  have hxr : FP.binary64.rnd (x.getD j 0) = ((x.getD j 0 : ℝ) : EReal) := by
    have : x.getD j 0 = x[j] := by simp [List.getElem?_eq_getElem hjx]
    rw [this]
    exact hrep x hx _ (List.getElem_mem hjx)
  have hget : (x.map (XR.fin (fp := FP.binary64))).getD j (.fin 0) = .fin (x.getD j 0) := by
    simp [List.getElem?_eq_getElem hjx]
  simp only [Function.comp, List.getElem?_map, List.getElem?_range hj, Option.map_some,
    Option.some.injEq, hget] at hv
  generalize x.getD j 0 = a at hv hxr
  have hg0 : ∀ b : ℝ, |b - b| ≤ gam ((2 : ℝ) ^ (-53 : ℤ)) 0 * |b| := by intro b; simp [gam]
  have hE0 : |stdEntry s.withMean s.withStd mean scale j a| ≤
    |stdEntry s.withMean s.withStd mean scale j a| := le_rfl
  have hsub : ∀ d, (.fin a : XR FP.binary64) -ₚ .fin (mean j) = .fin d → s.withMean = true →
      |d - (a - mean j)| ≤ gam ((2 : ℝ) ^ (-53 : ℤ)) 1 * |a - mean j| := by
    intro d hd hwm
    have h1 := hacc.add a (-mean j) d hxr (by
      rw [hs.neg, (hm hwm).2 j hj]; rfl) (XR.round_eq_fin.1 hd)
    have : gam ((2 : ℝ) ^ (-53 : ℤ)) 1 = 2 ^ (-53 : ℤ) := by simp [gam]
    rw [this]
    simpa [sub_eq_add_neg] using h1
  cases hwm : s.withMean <;> cases hws : s.withStd <;>
    rw [hwm, hws] at hv <;> simp only [stdRounded, Bool.false_eq_true, if_false, if_true] at hv
  · have := XR.fin_inj.1 hv
    subst this
    refine within64_of (k := 0) (by norm_num) (by norm_num) le_rfl (abs_nonneg _) eta_le ?_
    simp only [stdEntry]
    simp [gam]
  · refine within64_of (k := 1) (by norm_num) (by norm_num) le_rfl (abs_nonneg _) eta_le ?_
    exact quot_error64 hv (hg0 a) ((hsc hws).2 j hj) (by simp [stdEntry])
  · refine within64_of (k := 1) (by norm_num) (by norm_num) le_rfl (abs_nonneg _) eta_le ?_
    have := hsub v hv hwm
    simp only [stdEntry, if_true, Bool.false_eq_true, if_false, div_one]
    have h0 : (0 : ℝ) ≤ 2 ^ (-1075 : ℤ) := by positivity
    linarith
  · refine within64_of (k := 2) (by norm_num) (by norm_num) le_rfl (abs_nonneg _) eta_le ?_
    cases hd : ((.fin a : XR FP.binary64) -ₚ .fin (mean j)) with
    | fin d =>
      rw [hd] at hv
      exact quot_error64 hv (hsub d hd hwm) ((hsc hws).2 j hj) (by simp [stdEntry])
    | nan => rw [hd] at hv; simp [XR.quot] at hv
    | pinf => rw [hd] at hv; simp only [XR.quot, XR.infMul] at hv; split_ifs at hv
    | ninf => rw [hd] at hv; simp only [XR.quot, XR.infMul] at hv; split_ifs at hv

/-- **C82**, MinMaxScaler: two roundings relative to the magnitudes of the two terms. -/
theorem C82_minmax (w : Nat) (scale min : Nat → ℝ)
    (hmin : ∀ j < w, FP.binary64.rnd (min j) = (min j : EReal))
    (R : List (List ℝ)) (hR : R ≠ []) (hw : Rect w R) :
    ∃ Y : List (List (XR FP.binary64)),
      (⟨some ((List.range w).map fun j => .fin (scale j)),
        some ((List.range w).map fun j => .fin (min j))⟩ : MinMaxScaler (XR FP.binary64)).transform
          (.ofMat (R.map fun x => x.map .fin)) = .ok (.ofMat Y) ∧
      List.Forall₂ (fun (x : List ℝ) y => y.length = w ∧ ∀ j < w, ∀ v, y[j]? = some (.fin v) →
        Within64 2 (|min j| + |x.getD j 0 * scale j|) 1 v (minMaxEntry scale min j (x.getD j 0)))
        R Y := by
  have hs := FP.binary64_sound
  have hacc := FP.binary64_accurate
  have ht := C23_transform (F := XR FP.binary64) w (fun j => .fin (scale j)) (fun j => .fin (min j))
    (R.map fun x => x.map XR.fin) (by simpa using hR)
    (by intro r hr; obtain ⟨x, hx, rfl⟩ := List.mem_map.1 hr; simp [hw x hx]) (.fin 0)
  refine ⟨_, ht, ?_⟩
  unfold onColumns
  rw [List.map_map, List.forall₂_map_right_iff, List.forall₂_same]
  intro x hx
  refine ⟨by simp, ?_⟩
  intro j hj v hv
  have hjx : j < x.length := by rw [hw x hx]; exact hj
  have hget : (x.map (XR.fin (fp := FP.binary64))).getD j (.fin 0) = .fin (x.getD j 0) := by
    simp [List.getElem?_eq_getElem hjx]
  simp only [Function.comp, List.getElem?_map, List.getElem?_range hj, Option.map_some,
    Option.some.injEq, hget] at hv
  generalize x.getD j 0 = a at hv
  obtain ⟨p, b, hp, hb, hpb⟩ := XR.add_eq_fin hv
  obtain rfl := XR.fin_inj.1 hb
  have hq := XR.mul_eq_fin hp
  have h1 := hacc.rel _ _ hq
  have hE0 : (0 : ℝ) ≤ 2 ^ (-1075 : ℤ) := by positivity
  have hg1 : gam ((2 : ℝ) ^ (-53 : ℤ)) 1 = 2 ^ (-53 : ℤ) := by simp [gam]
  have h3 := addTerm_error hacc (k := 1) (hs.idem _ _ hq) (hmin j hj) (by rwa [add_comm] at hpb)
    (le_refl |a * scale j|) hE0 (by rw [hg1]; exact h1)
  refine within64_of (k := 2) (E := (1 + 2 ^ (-53 : ℤ)) * 2 ^ (-1075 : ℤ)) (by norm_num) le_rfl le_rfl
    (by positivity) ?_ ?_
  · have : (2 : ℝ) ^ (-53 : ℤ) ≤ 2 ^ (0 : ℤ) := B64.pow_mono (by norm_num)
    rw [zpow_zero] at this
    rw [eta64, Nat.cast_one, one_mul]
    generalize (2 : ℝ) ^ (-53 : ℤ) = y at *
    exact mul_le_mul_of_nonneg_right (by linarith) hE0
  · unfold minMaxEntry
    rw [add_comm (a * scale j)]
    exact h3

/-- **C82**, MaxAbsScaler: one rounding. -/
theorem C82_maxabs (w : Nat) (scale : Nat → ℝ) (hsc : ∀ j < w, scale j ≠ 0)
    (ma : Option (List (XR FP.binary64))) (R : List (List ℝ)) (hR : R ≠ []) (hw : Rect w R) :
    ∃ Y : List (List (XR FP.binary64)),
      (⟨some ((List.range w).map fun j => .fin (scale j)), ma⟩ :
        MaxAbsScaler (XR FP.binary64)).transform (.ofMat (R.map fun x => x.map .fin)) =
          .ok (.ofMat Y) ∧
      List.Forall₂ (fun (x : List ℝ) y => y.length = w ∧ ∀ j < w, ∀ v, y[j]? = some (.fin v) →
        Within64 1 |maxAbsEntry scale j (x.getD j 0)| 1 v (maxAbsEntry scale j (x.getD j 0))) R Y := by
  refine ⟨_, C24_transform_rounded FP.binary64 w scale hsc ma _ (by simpa using hR)
    (by intro r hr; obtain ⟨x, hx, rfl⟩ := List.mem_map.1 hr; simp [hw x hx]), ?_⟩
  unfold onColumns
  rw [List.map_map, List.forall₂_map_right_iff, List.forall₂_same]
  intro x hx
  refine ⟨by simp, ?_⟩
  intro j hj v hv
  have hjx : j < x.length := by rw [hw x hx]; exact hj
  have hget : (x.map (XR.fin (fp := FP.binary64))).getD j (.fin 0) = .fin (x.getD j 0) := by
    simp [List.getElem?_eq_getElem hjx]
  simp only [Function.comp, List.getElem?_map, List.getElem?_range hj, Option.map_some,
    Option.some.injEq, hget] at hv
  refine within64_of (k := 1) (by norm_num) le_rfl le_rfl (abs_nonneg _) eta_le ?_
  exact quot_error64 hv (by simp [gam]) (hsc j hj) rfl

/-- Non-vacuity: two members on different feature subsets of one record; the second class leads. -/
example : ∃ labels, (⟨some [[0], [1]], ["a", "b"],
      [⟨fun _ => .ok [[.fin 0, .fin 1]]⟩, ⟨fun _ => .ok [[.fin 0, .fin 1]]⟩]⟩ :
      Bagging (XR FP.binary64) String).predict (.ofMat [[.fin 3, .fin 4]]) = .ok labels ∧
    labels[0]? = some "b" := by
  obtain ⟨labels, h1, -, h3⟩ := C82_average_label (⟨some [[0], [1]], ["a", "b"],
      [⟨fun _ => .ok [[.fin 0, .fin 1]]⟩, ⟨fun _ => .ok [[.fin 0, .fin 1]]⟩]⟩ :
      Bagging (XR FP.binary64) String) (by intro fs h; cases h; rfl) (.ofMat [[.fin 3, .fin 4]]) 1 2
    (by norm_num) (by norm_num) rfl
    [fun _ c => if c = 0 then 0 else 1, fun _ c => if c = 0 then 0 else 1] (by simp)
    (by
      refine .cons ?_ (.cons ?_ .nil) <;>
        simp [featSlice, mat, List.range_succ, Bagging.members, Arr.rows, Arr.ofMat] <;> rfl)
    (by norm_num)
    (by
      intro P hP i _ c _
      simp only [List.mem_cons, List.not_mem_nil, or_false, or_self] at hP
      subst hP
      by_cases hc : c = 0
      · simp only [hc, if_true]
        exact ⟨le_rfl, zero_le_one, FP.binary64_sound.zero⟩
      · simp only [hc, if_false]
        exact ⟨zero_le_one, le_rfl, FP.binary64_sound.one⟩)
  refine ⟨labels, h1, ?_⟩
  rw [h3 0 (by norm_num) 1 (by norm_num)]
  · rfl
  · intro j hj hne
    have : j = 0 := by omega
    subst this
    have e : (2 : ℝ) ^ (-1074 : ℤ) ≤ 2 ^ (-4 : ℤ) := B64.pow_mono (by norm_num)
    have e' : (2 : ℝ) ^ (-52 : ℤ) ≤ 2 ^ (-4 : ℤ) := B64.pow_mono (by norm_num)
    rw [show (2 : ℝ) ^ (-4 : ℤ) = 1 / 16 by norm_num] at e e'
    simp only [meanEntry, List.map_cons, List.map_nil, List.sum_cons, List.sum_nil, List.length_cons,
      List.length_nil]
    generalize (2 : ℝ) ^ (-1074 : ℤ) = p at *
    generalize (2 : ℝ) ^ (-52 : ℤ) = q at *
    norm_num
    linarith

/-- Non-vacuity: a leaf with the counts 1 and 3. -/
example : ∀ v ∈ ([[.fin 1, .fin 3]] : List (List (XR FP.binary64))), ∃ c : List ℝ,
    v = c.map XR.fin ∧ c.length = 2 ∧ (∀ a ∈ c, 0 ≤ a ∧ FP.binary64.rnd a = (a : EReal)) ∧
      ∃ S, pySum (c.map XR.fin : List (XR FP.binary64)) = .fin S ∧ S ≠ 0 := by
  intro v hv
  simp only [List.mem_cons, List.not_mem_nil, or_false] at hv
  subst hv
  have h3 : FP.binary64.rnd (3 : ℝ) = ((3 : ℝ) : EReal) := by
    have := B64.rnd_int 3 (by norm_num)
    exact_mod_cast this
  have hle : (3 : ℝ) ≤ 2 ^ (900 : ℤ) := by
    have : (2 : ℝ) ^ (2 : ℤ) ≤ 2 ^ (900 : ℤ) := B64.pow_mono (by norm_num)
    refine le_trans ?_ this
    norm_num
  have hc : ∀ a ∈ ([1, 3] : List ℝ), 0 ≤ a ∧ a ≤ 2 ^ (900 : ℤ) ∧ FP.binary64.rnd a = (a : EReal) := by
    intro a ha
    simp only [List.mem_cons, List.not_mem_nil, or_false] at ha
    generalize (2 : ℝ) ^ (900 : ℤ) = z at *
    rcases ha with rfl | rfl
    · exact ⟨zero_le_one, by linarith, FP.binary64_sound.one⟩
    · exact ⟨by norm_num, hle, h3⟩
  obtain ⟨S, hS, hSle⟩ := pySum_finite64 [1, 3] hc (by norm_num)
  have := hSle 1 (by simp)
  exact ⟨[1, 3], rfl, rfl, fun a ha => ⟨(hc a ha).1, (hc a ha).2.2⟩, S, hS, by linarith⟩

/-- Non-vacuity: two stages with learning rate 2, binary deviance, prior 1/2. -/
example : ∃ R : Nat → Nat → XR FP.binary64,
    (⟨["a", "b"], [[fun _ => .ok [.fin 1]], [fun _ => .ok [.fin 3]]],
      fun _ => .ok [[.fin (1 / 2), .fin (1 / 2)]], .fin 2, 1, .binomial⟩ :
      GB (XR FP.binary64) String).rawPredict (.ofMat [[.fin 5]]) = .ok (mat 1 1 R) ∧
    ∀ v, R 0 0 = .fin v → |v - 8| ≤ 3 * (2 : ℝ) ^ (-52 : ℤ) * 8 + 2 * 2 ^ (-1074 : ℤ) := by
  have hs := FP.binary64_sound
  have hhalf : FP.binary64.rnd (1 / 2) = ((1 / 2 : ℝ) : EReal) := by
    have h := B64.rndFin_of_representable (z := (1 / 2 : ℝ)) ⟨1, -1, by norm_num, by norm_num, by norm_num⟩
    have := B64.rnd_of_fin (x := (1 / 2 : ℝ)) (by
      rw [h]
      have : (2 : ℝ) ^ (0 : ℤ) ≤ 2 ^ (1024 : ℤ) := B64.pow_mono (by norm_num)
      rw [zpow_zero] at this
      refine lt_of_lt_of_le ?_ this
      norm_num [abs_of_pos])
    rw [h] at this
    exact this
  have hone : (ofInt 1 : XR FP.binary64) = .fin 1 := XR.ofInt_one hs
  have heps : ∃ e : ℝ, (gbEps : XR FP.binary64) = .fin e ∧ 0 ≤ e ∧ e ≤ 1 / 2 := by
    obtain ⟨e, he⟩ := rnd_finite hs hhalf (t := (11920929 : ℝ) / 100000000000000) (by
      rw [abs_of_pos (by norm_num)]; norm_num)
    refine ⟨e, ?_, ?_, ?_⟩
    · have : ((11920929 : Int) : ℝ) / ((100000000000000 : Nat) : ℝ) = (11920929 : ℝ) / 100000000000000 := by
        norm_num
      show XR.round _ = _
      refine XR.round_eq_fin.2 ?_
      rw [← he]
      congr 1
    · have := hs.mono (show (0 : ℝ) ≤ (11920929 : ℝ) / 100000000000000 by norm_num)
      rw [hs.zero, he] at this
      exact_mod_cast this
    · have := hs.mono (show (11920929 : ℝ) / 100000000000000 ≤ 1 / 2 by norm_num)
      rw [hhalf, he] at this
      exact_mod_cast this
  obtain ⟨e, he, he0, he1⟩ := heps
  have hhi : ∃ f : ℝ, (ofInt 1 -ₚ gbEps : XR FP.binary64) = .fin f ∧ 1 / 2 ≤ f := by
    obtain ⟨f, hf⟩ := rnd_finite hs hs.one (t := 1 + -e) (by
      rw [abs_of_nonneg (by linarith)]; linarith)
    refine ⟨f, ?_, ?_⟩
    · rw [he, hone]
      exact XR.round_eq_fin.2 hf
    · have := hs.mono (show (1 / 2 : ℝ) ≤ 1 + -e by linarith)
      rw [hhalf, hf] at this
      exact_mod_cast this
  obtain ⟨f, hf, hf1⟩ := hhi
  have hclip : clip (.fin (1 / 2) : XR FP.binary64) gbEps (ofInt 1 -ₚ gbEps) = .fin (1 / 2) := by
    rw [hf, he]
    unfold clip
    have h1 : ¬ ((.fin (1 / 2) : XR FP.binary64) <ₚ .fin e) := by
      simp only [XR.lt_fin, decide_eq_true_eq]; linarith
    have h2 : ¬ ((.fin f : XR FP.binary64) <ₚ .fin (1 / 2)) := by
      simp only [XR.lt_fin, decide_eq_true_eq]; linarith
    rw [if_neg h1, if_neg h2]
  have hsub : (ofInt 1 -ₚ .fin (1 / 2) : XR FP.binary64) = .fin (1 / 2) := by
    rw [hone]
    refine XR.round_eq_fin.2 ?_
    rw [show (1 : ℝ) + -(1 / 2) = 1 / 2 by norm_num]
    exact hhalf
  have hdiv : (.fin (1 / 2) : XR FP.binary64) /ₚ .fin (1 / 2) = .ok (.fin 1) := by
    rw [XR.div_fin, if_neg (by norm_num), div_self (by norm_num)]
    exact congrArg _ (XR.round_eq_fin.2 hs.one)
  have hlog : safeLog (.fin 1 : XR FP.binary64) = .ok (.fin 0) := by
    unfold safeLog
    rw [XR.ofInt_zero hs]
    have h1 : ¬ ((.fin 1 : XR FP.binary64) ==ₚ .fin 0) := by simp
    have h2 : ¬ ((.fin 1 : XR FP.binary64) <ₚ .fin 0) := by simp [XR.lt_fin]
    rw [if_neg h1, if_neg h2]
    show XR.log _ = _
    have : FP.binary64.log 1 = 0 := by
      show B64.rndFin (Real.log 1) = 0
      rw [Real.log_one, B64.rndFin_zero]
    simp only [XR.log, this]
    rw [if_neg (by norm_num)]
  have h := C82_boosting (⟨["a", "b"], [[fun _ => .ok [.fin 1]], [fun _ => .ok [.fin 3]]],
      fun _ => .ok [[.fin (1 / 2), .fin (1 / 2)]], .fin 2, 1, .binomial⟩ :
      GB (XR FP.binary64) String) [[.fin 5]] (by simp)
    (by intro r hr; simp at hr; subst hr; rfl) 1 (by norm_num) (by simp) (by norm_num)
    (by intro st hst; simp at hst; rcases hst with rfl | rfl <;> rfl) 2 rfl (fun _ _ => 0)
    (by
      simp only [py_ok_bind, Loss.initRaw_eq, mapM_cons', List.mapM_nil, Loss.initRow]
      have : pyGet [(.fin (1 / 2) : XR FP.binary64), .fin (1 / 2)] 1 = .ok (.fin (1 / 2)) := rfl
      simp only [this, py_ok_bind, hclip, hsub, hdiv, hlog]
      rfl)
    (fun _ _ _ _ => hs.zero)
    (fun s _ _ => if s = 0 then 1 else 3)
    (by
      intro s hs' c hc
      match s, hs', c, hc with
      | 0, _, 0, _ => simp [List.range_succ]
      | 1, _, 0, _ => simp [List.range_succ])
  obtain ⟨R, hR, hb⟩ := h
  refine ⟨R, hR, fun v hv => ?_⟩
  have := hb 0 (by simp) 0 (by norm_num) v hv
  simp only [Within64, boosted, List.length_cons, List.length_nil, Finset.sum_range_succ,
    Finset.sum_range_zero] at this
  norm_num at this ⊢
  exact this

/-- Non-vacuity: (7 - 1) / 3. -/
example : ∃ Y : List (List (XR FP.binary64)), (⟨true, true, some [.fin 3], some [.fin 1]⟩ :
      StandardScaler (XR FP.binary64)).transform (.ofMat [[.fin 7]]) = .ok (.ofMat Y) ∧
    ∀ v, Y = [[.fin v]] → |v - 2| ≤ 2 * (2 : ℝ) ^ (-52 : ℤ) * 2 + 2 ^ (-1074 : ℤ) := by
  have h7 : FP.binary64.rnd (7 : ℝ) = ((7 : ℝ) : EReal) := by
    have := B64.rnd_int 7 (by norm_num)
    exact_mod_cast this
  obtain ⟨Y, h1, h2⟩ := C82_standard (⟨true, true, some [.fin 3], some [.fin 1]⟩ :
      StandardScaler (XR FP.binary64)) 1 (fun _ => 1) (fun _ => 3)
    (fun _ => ⟨rfl, fun _ _ => FP.binary64_sound.one⟩) (fun _ => ⟨rfl, fun _ _ => by norm_num⟩)
    [[7]] (by simp) (by intro r hr; simp at hr; subst hr; rfl)
    (by intro x hx a ha; simp at hx; subst hx; simp at ha; subst ha; exact h7)
  refine ⟨Y, h1, ?_⟩
  rintro v rfl
  cases h2 with
  | cons h3 _ =>
    have := h3.2 0 (by norm_num) v rfl
    simp only [Within64, stdEntry, List.getD_cons_zero, if_true] at this
    norm_num at this ⊢
    exact this

end PurePredict
