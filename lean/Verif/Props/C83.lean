import Verif.Lemmas.LinkError
import Verif.Props.C60
import Verif.Props.C82
/-
C83: accuracy of probabilities in double precision, against the exact model.
-/
namespace PurePredict
open Spec Linear
variable {C : Type}

/-- One binary row `[1 - a, a]` from a computed score `v` within `δ` of the exact score `s`. -/
theorem pair_error64 {v s δ : ℝ} (h : |v - s| ≤ δ) :
    ∃ (a : XR FP.binary64) (q : List ℝ), expit (.fin v : XR FP.binary64) = .ok a ∧
      [ofInt 1 -ₚ a, a] = q.map XR.fin ∧
      Near 2 (δ / 4 + (2 : ℝ) ^ (-50 : ℤ)) q (logisticPair s) := by
  have hs := FP.binary64_sound
  obtain ⟨a, ha, h0, h1, hr, he⟩ := expit_error64 v
  have he := expit_abs64 he
  have h2 := sigmoid_lip v s
  obtain ⟨b, hb, hb0, hb1⟩ := XR.one_sub_unit hs (p := (.fin a : XR FP.binary64)) ⟨a, rfl, h0, h1⟩
  have hb' : FP.binary64.rnd (1 + -a) = (b : EReal) := by
    rw [XR.ofInt_one hs] at hb
    exact XR.round_eq_fin.1 hb
  have hneg : FP.binary64.rnd (-a) = ((-a : ℝ) : EReal) := by
    have hr' : FP.binary64.rnd a = (a : EReal) := hr
    rw [hs.neg, hr']; simp
  have h3 := FP.binary64_accurate.add 1 (-a) b hs.one hneg hb'
  rw [abs_of_nonneg (by linarith : (0 : ℝ) ≤ 1 + -a)] at h3
  have h4 : |a - sigmoid s| ≤ δ / 4 + 2 ^ (-51 : ℤ) + 2 ^ (-800 : ℤ) := by
    have := abs_add_le (a - sigmoid v) (sigmoid v - sigmoid s)
    rw [sub_add_sub_cancel] at this
    generalize (2 : ℝ) ^ (-800 : ℤ) = θ at *
    generalize (2 : ℝ) ^ (-51 : ℤ) = τ at *
    linarith
  have e8 : (2 : ℝ) ^ (-800 : ℤ) ≤ 2 ^ (-53 : ℤ) := B64.pow_mono (by norm_num)
  have e50 : (2 : ℝ) ^ (-50 : ℤ) = 8 * 2 ^ (-53 : ℤ) := by norm_num
  have e51 : (2 : ℝ) ^ (-51 : ℤ) = 4 * 2 ^ (-53 : ℤ) := by norm_num
  have hu : (0 : ℝ) < 2 ^ (-53 : ℤ) := by positivity
  refine ⟨.fin a, [b, a], ha, by rw [hb]; rfl, rfl, ?_⟩
  intro c hc
  rw [e50]
  rw [e51] at h4
  generalize (2 : ℝ) ^ (-800 : ℤ) = θ at *
  generalize (2 : ℝ) ^ (-53 : ℤ) = u at *
  rcases (show c = 0 ∨ c = 1 by omega) with rfl | rfl
  · simp only [List.getD_cons_zero, logisticPair, if_true]
    have e : b - (1 - sigmoid s) = (b - (1 + -a)) + -(a - sigmoid s) := by ring
    rw [e]
    refine (abs_add_le _ _).trans ?_
    rw [abs_neg]
    have : u * (1 + -a) ≤ u := mul_le_of_le_one_right hu.le (by linarith)
    linarith
  · simp only [List.getD_cons_succ, List.getD_cons_zero, logisticPair, one_ne_zero, if_false]
    linarith

/-- **C83**, one-vs-rest logistic probabilities of two classes (`_predict_proba_lr`): for every
moderate request, dense or sparse, each probability is the logistic function of the exact score up to
a quarter of the score's error bound and `2⁻⁵⁰`. -/
theorem C83_lr_binary (m : Linear (XR FP.binary64) C) (w : Nat) (hw : w + 1 ≤ 2 ^ 52)
    (W : List (List ℝ)) (b : List ℝ) (h : m.IsReal w 1 W b) (c0 c1 : C) (hc : m.classes = [c0, c1])
    (X : Arr (XR FP.binary64)) (R : List (List ℝ))
    (hX : Denotes (.fin 0) X w (R.map fun x => x.map XR.fin)) (hmod : Moderate w 1 W b R) :
    ∃ Q : List (List ℝ), m.predictProbaLr X = .ok (Q.map fun q => q.map XR.fin) ∧
      List.Forall₂ (fun x q => Near 2 (scoreErr64 w W b x 0 / 4 + (2 : ℝ) ^ (-50 : ℤ)) q
        (logisticPair (linScore w W b x 0))) R Q := by
  obtain ⟨V, -, hV, hF, -⟩ := C60_total_binary m w hw W b h c0 c1 hc X R hX hmod
  have key : ∀ (R : List (List ℝ)) (V : List ℝ),
      List.Forall₂ (fun (x : List ℝ) (v : ℝ) =>
        |v - linScore w W b x 0| ≤ scoreErr64 w W b x 0) R V →
      ∃ Q : List (List ℝ), ((V.map XR.fin).mapM fun (x : XR FP.binary64) => do
          let a ← expit x
          return [ofInt 1 -ₚ a, a]) = .ok (Q.map fun q => q.map XR.fin) ∧
        List.Forall₂ (fun x q => Near 2 (scoreErr64 w W b x 0 / 4 + (2 : ℝ) ^ (-50 : ℤ)) q
          (logisticPair (linScore w W b x 0))) R Q := by
    intro R V hF
    induction hF with
    | nil => exact ⟨[], rfl, .nil⟩
    | @cons x v R V h1 _ ih =>
      obtain ⟨Q, hQ, hN⟩ := ih
      obtain ⟨a, q, ha, hq, hn⟩ := pair_error64 h1
      refine ⟨q :: Q, ?_, .cons hn hN⟩
      rw [List.map_cons, mapM_cons', ha, py_ok_bind, hQ, py_pure, py_ok_bind, py_ok_bind, hq]
      rfl
  obtain ⟨Q, hQ, hN⟩ := key R V hF
  refine ⟨Q, ?_, hN⟩
  simp only [Linear.predictProbaLr, hV, py_ok_bind]
  exact hQ

/-- **C83**, logistic regression with two classes, one-vs-rest: `predict_proba`. -/
theorem C83_logistic_binary (m : Linear (XR FP.binary64) C) (ho : m.isOvr = .ok true)
    (w : Nat) (hw : w + 1 ≤ 2 ^ 52)
    (W : List (List ℝ)) (b : List ℝ) (h : m.IsReal w 1 W b) (c0 c1 : C) (hc : m.classes = [c0, c1])
    (X : Arr (XR FP.binary64)) (R : List (List ℝ))
    (hX : Denotes (.fin 0) X w (R.map fun x => x.map XR.fin)) (hmod : Moderate w 1 W b R) :
    ∃ Q : List (List ℝ), m.predictProba X = .ok (Q.map fun q => q.map XR.fin) ∧
      List.Forall₂ (fun x q => Near 2 (scoreErr64 w W b x 0 / 4 + (2 : ℝ) ^ (-50 : ℤ)) q
        (logisticPair (linScore w W b x 0))) R Q := by
  obtain ⟨Q, hQ, hN⟩ := C83_lr_binary m w hw W b h c0 c1 hc X R hX hmod
  exact ⟨Q, by simp [Linear.predictProba, ho, hQ], hN⟩

/-- **C83**, the SGD classifier with the logistic loss and two classes: `predict_proba`. -/
theorem C83_sgd_binary (m : Linear (XR FP.binary64) C) (hl : m.loss = some "log")
    (w : Nat) (hw : w + 1 ≤ 2 ^ 52)
    (W : List (List ℝ)) (b : List ℝ) (h : m.IsReal w 1 W b) (c0 c1 : C) (hc : m.classes = [c0, c1])
    (X : Arr (XR FP.binary64)) (R : List (List ℝ))
    (hX : Denotes (.fin 0) X w (R.map fun x => x.map XR.fin)) (hmod : Moderate w 1 W b R) :
    ∃ Q : List (List ℝ), m.sgdPredictProba X = .ok (Q.map fun q => q.map XR.fin) ∧
      List.Forall₂ (fun x q => Near 2 (scoreErr64 w W b x 0 / 4 + (2 : ℝ) ^ (-50 : ℤ)) q
        (logisticPair (linScore w W b x 0))) R Q := by
  obtain ⟨Q, hQ, hN⟩ := C83_lr_binary m w hw W b h c0 c1 hc X R hX hmod
  refine ⟨Q, ?_, hN⟩
  simp [Linear.sgdPredictProba, Linear.checkProba, Linear.sgdPredictProba_, attr, hl, hQ]

/-- **C83**, one-vs-rest logistic probabilities of several classes: scores accurate to `δ ≤ 1`, one
of them not below -399. -/
theorem C83_lr_multiclass (m : Linear (XR FP.binary64) C) (w k : Nat) (hw : w + 1 ≤ 2 ^ 52)
    (W : List (List ℝ)) (b : List ℝ) (h : m.IsReal w k W b) (hk : k ≠ 1) (hk51 : k ≤ 2 ^ 51)
    (hc : m.classes.length = k) (X : Arr (XR FP.binary64)) (R : List (List ℝ))
    (hX : Denotes (.fin 0) X w (R.map fun x => x.map XR.fin)) (hmod : Moderate w k W b R)
    (δ : ℝ) (hδ : δ ≤ 1)
    (hR : ∀ x ∈ R, (∀ c < k, scoreErr64 w W b x c ≤ δ) ∧ ∃ c < k, -399 ≤ linScore w W b x c) :
    ∃ Q : List (List ℝ), m.predictProbaLr X = .ok (Q.map fun q => q.map XR.fin) ∧
      List.Forall₂ (fun x q => Near k (Real.exp (2 * δ) - 1 + (k + 4) * (2 : ℝ) ^ (-51 : ℤ)) q
        (ovr k (linScore w W b x))) R Q := by
  obtain ⟨V, -, hV, hF, -⟩ := C60_total m w k hw W b h hk hc X R hX hmod
  have key : ∀ (R : List (List ℝ)) (V : List (List ℝ)),
      (∀ x ∈ R, (∀ c < k, scoreErr64 w W b x c ≤ δ) ∧ ∃ c < k, -399 ≤ linScore w W b x c) →
      List.Forall₂ (fun (x v : List ℝ) => v.length = k ∧ ∀ c < k,
        |v.getD c 0 - linScore w W b x c| ≤ scoreErr64 w W b x c) R V →
      ∃ (Y : List (List (XR FP.binary64))) (Q : List (List ℝ)),
        ((V.map fun r => r.map XR.fin).mapM fun (a : List (XR FP.binary64)) => a.mapM expit) = .ok Y ∧
        Y.mapM normRow = .ok (Q.map fun q => q.map XR.fin) ∧
        List.Forall₂ (fun x q => Near k (Real.exp (2 * δ) - 1 + (k + 4) * (2 : ℝ) ^ (-51 : ℤ)) q
          (ovr k (linScore w W b x))) R Q := by
    intro R V hR hF
    induction hF with
    | nil => exact ⟨[], [], rfl, rfl, .nil⟩
    | @cons x v R V h1 _ ih =>
      obtain ⟨Y, Q, hY, hQ, hN⟩ := ih fun y hy => hR y (by simp [hy])
      obtain ⟨hx1, c, hck, hx2⟩ := hR x (by simp)
      have hd : ∀ j < k, |v.getD j 0 - linScore w W b x j| ≤ δ := fun j hj =>
        (h1.2 j hj).trans (hx1 j hj)
      have hcv : c < v.length := by rw [h1.1]; exact hck
      obtain ⟨y, q, hy, hq, hql, hqe⟩ := ovr_error64 (r := v) ⟨v.getD c 0, by
        rw [getD_eq_getElem' hcv]; exact List.getElem_mem hcv, by
        have := (abs_le.1 (hd c hck)).1
        linarith⟩ (by rw [h1.1]; exact hk51)
      refine ⟨y :: Y, q :: Q, ?_, ?_, .cons ?_ hN⟩
      · rw [List.map_cons, mapM_cons', hy, py_ok_bind, hY, py_ok_bind, py_pure]
      · rw [mapM_cons', hq, py_ok_bind, hQ, py_ok_bind, py_pure]; rfl
      · rw [h1.1] at hql hqe
        refine ⟨hql, fun j hj => ?_⟩
        have e1 := hqe j hj
        have e2 := ovr_lip hd hj
        have := abs_add_le (q.getD j 0 - ovr k (fun i => v.getD i 0) j)
          (ovr k (fun i => v.getD i 0) j - ovr k (linScore w W b x) j)
        rw [sub_add_sub_cancel] at this
        linarith
  obtain ⟨Y, Q, hY, hQ, hN⟩ := key R V hR hF
  refine ⟨Q, ?_, hN⟩
  simp only [Linear.predictProbaLr, hV, py_ok_bind]
  rw [hY, py_ok_bind, hQ]

/-- **C83**, multinomial logistic regression with several classes: scores accurate to `δ ≤ 1`, none
above 599 and one not below -599. -/
theorem C83_multinomial (m : Linear (XR FP.binary64) C) (ho : m.isOvr = .ok false)
    (w k : Nat) (hw : w + 1 ≤ 2 ^ 52)
    (W : List (List ℝ)) (b : List ℝ) (h : m.IsReal w k W b) (hk : k ≠ 1) (hk51 : k ≤ 2 ^ 51)
    (hc : m.classes.length = k) (X : Arr (XR FP.binary64)) (R : List (List ℝ))
    (hX : Denotes (.fin 0) X w (R.map fun x => x.map XR.fin)) (hmod : Moderate w k W b R)
    (δ : ℝ) (hδ : δ ≤ 1)
    (hR : ∀ x ∈ R, (∀ c < k, scoreErr64 w W b x c ≤ δ ∧ linScore w W b x c ≤ 599) ∧
      ∃ c < k, -599 ≤ linScore w W b x c) :
    ∃ Q : List (List ℝ), m.predictProba X = .ok (Q.map fun q => q.map XR.fin) ∧
      List.Forall₂ (fun x q => Near k (Real.exp (2 * δ) - 1 + (k + 1) * (2 : ℝ) ^ (-51 : ℤ)) q
        (softmax k (linScore w W b x))) R Q := by
  obtain ⟨V, -, hV, hF, -⟩ := C60_total m w k hw W b h hk hc X R hX hmod
  have key : ∀ (R : List (List ℝ)) (V : List (List ℝ)),
      (∀ x ∈ R, (∀ c < k, scoreErr64 w W b x c ≤ δ ∧ linScore w W b x c ≤ 599) ∧
        ∃ c < k, -599 ≤ linScore w W b x c) →
      List.Forall₂ (fun (x v : List ℝ) => v.length = k ∧ ∀ c < k,
        |v.getD c 0 - linScore w W b x c| ≤ scoreErr64 w W b x c) R V →
      ∃ Q : List (List ℝ),
        ((V.map fun r => r.map (XR.fin (fp := FP.binary64))).mapM sfmax) =
          .ok (Q.map fun q => q.map XR.fin) ∧
        List.Forall₂ (fun x q => Near k (Real.exp (2 * δ) - 1 + (k + 1) * (2 : ℝ) ^ (-51 : ℤ)) q
          (softmax k (linScore w W b x))) R Q := by
    intro R V hR hF
    induction hF with
    | nil => exact ⟨[], rfl, .nil⟩
    | @cons x v R V h1 _ ih =>
      obtain ⟨Q, hQ, hN⟩ := ih fun y hy => hR y (by simp [hy])
      obtain ⟨hx1, c, hck, hx2⟩ := hR x (by simp)
      have hd : ∀ j < k, |v.getD j 0 - linScore w W b x j| ≤ δ := fun j hj =>
        (h1.2 j hj).trans (hx1 j hj).1
      have hcv : c < v.length := by rw [h1.1]; exact hck
      have ht : Tame v := by
        refine ⟨?_, v.getD c 0, by rw [getD_eq_getElem' hcv]; exact List.getElem_mem hcv, ?_⟩
        · intro y hy
          obtain ⟨j, hj, rfl⟩ := List.getElem_of_mem hy
          have hjk : j < k := by rw [← h1.1]; exact hj
          have := (abs_le.1 (hd j hjk)).2
          rw [getD_eq_getElem' hj] at this
          have := (hx1 j hjk).2
          linarith
        · have := (abs_le.1 (hd c hck)).1
          linarith
      obtain ⟨q, hq, hql, hqe⟩ := sfmax_error64 ht (by rw [h1.1]; exact hk51)
      refine ⟨q :: Q, ?_, .cons ?_ hN⟩
      · rw [List.map_cons, mapM_cons', hq, py_ok_bind, hQ, py_ok_bind, py_pure]; rfl
      · rw [h1.1] at hql hqe
        refine ⟨hql, fun j hj => ?_⟩
        have e1 := hqe j hj
        have e2 := softmax_lip hd hj
        have := abs_add_le (q.getD j 0 - softmax k (fun i => v.getD i 0) j)
          (softmax k (fun i => v.getD i 0) j - softmax k (linScore w W b x) j)
        rw [sub_add_sub_cancel] at this
        linarith
  obtain ⟨Q, hQ, hN⟩ := key R V hR hF
  refine ⟨Q, ?_, hN⟩
  simp only [Linear.predictProba, ho, hV, py_ok_bind]
  rw [if_neg (by simp)]
  exact hQ

/-- **C83**, XGBoost with two classes: each probability is the logistic function of the exact sum of
the trees' leaf values, up to a quarter of the margin's error bound and `2⁻⁵⁰`. -/
theorem C83_xgb_binary (m : Xgb (XR FP.binary64) C) (hobj : m.objective = .binaryLogistic)
    (M : List (List (XR FP.binary64))) (hM : M ≠ [])
    (ts : List (Tree (XR FP.binary64) C)) (hts : m.trees = .binary ts) (hn : ts.length ≤ 2 ^ 51)
    (os : List (Nat → ℝ))
    (h : List.Forall₂ (fun t o => TreeReturns (.ofMat M) M.length t fun i => .fin (o i)) ts os)
    (hr : ∀ o ∈ os, ∀ i < M.length, FP.binary64.rnd (o i) = (o i : EReal))
    (hb : ∀ i < M.length, (os.map fun o => |o i|).sum ≤ 2 ^ (1000 : ℤ)) :
    ∃ Q : List (List ℝ), m.predictProba (.ofMat M) = .ok (Q.map fun q => q.map XR.fin) ∧
      Q.length = M.length ∧ ∀ i < M.length, Near 2
        (ts.length * (2 : ℝ) ^ (-52 : ℤ) * (os.map fun o => |o i|).sum / 4 + (2 : ℝ) ^ (-50 : ℤ))
        (Q.getD i []) (logisticPair (os.map fun o => o i).sum) := by
  have hs := FP.binary64_sound
  obtain ⟨S, hS, hw⟩ := C82_xgb m M ts hts hn os h hr
  have hfin : ∀ i < M.length, ∃ v : ℝ, S i = .fin v := by
    intro i hi
    obtain ⟨S', hS', hw'⟩ : ∃ S' : XR FP.binary64, S i = S' ∧
        S' = ((os.map fun o => o i).map XR.fin).foldl Arith.add (.fin 0 : XR FP.binary64) := by
      refine ⟨_, rfl, ?_⟩
      have h' : List.Forall₂ (TreeReturns (.ofMat M) M.length) ts
          (os.map fun o (i : Nat) => (XR.fin (o i) : XR FP.binary64)) := by
        rw [List.forall₂_map_right_iff]
        exact h
      have e : m.predictBinary (.ofMat M) = .ok ((List.range M.length).map fun i =>
          (os.map fun o (i : Nat) => (XR.fin (o i) : XR FP.binary64)).foldl
            (fun a o => a +ₚ o i) (ofInt 0)) := by
        simp only [Xgb.predictBinary, len_ofMat, py_ok_bind, hts, replicate_eq_range_map,
          foldl_addTree h']
      rw [hS] at e
      have e := congrArg (fun l => l[i]?) (Except.ok.inj e)
      simp only [List.getElem?_map, List.getElem?_range hi, Option.map_some, Option.some.injEq] at e
      rw [e, XR.ofInt_zero hs, List.foldl_map, List.map_map, List.foldl_map]
      rfl
    rw [hS', hw']
    have hlen : ((os.map fun o => o i)).length ≤ 2 ^ 51 := by
      rw [List.length_map, ← h.length_eq]; exact hn
    obtain ⟨s, hs1, -, -⟩ := foldl_finite hs FP.binary64_accurate rnd_two_pow_1023
      (os.map fun o => o i) (by
        intro x hx
        obtain ⟨o, ho, rfl⟩ := List.mem_map.1 hx
        exact hr o ho i hi) 0 hs.zero (by
        have h2 : (1 + (2 : ℝ) ^ (-53 : ℤ)) ^ (os.map fun o => o i).length ≤ 2 := by
          have := (gam64 hlen).2
          unfold gam at this
          generalize (1 + (2 : ℝ) ^ (-53 : ℤ)) ^ (os.map fun o => o i).length = g at *
          linarith
        have h3 := hb i hi
        rw [abs_zero, zero_add, List.map_map]
        have h5 : (0 : ℝ) ≤ (os.map fun o => |o i|).sum := List.sum_nonneg fun x hx => by
          obtain ⟨o, -, rfl⟩ := List.mem_map.1 hx; exact abs_nonneg _
        calc _ ≤ 2 * (2 : ℝ) ^ (1000 : ℤ) := mul_le_mul h2 h3 h5 (by norm_num)
          _ = 2 ^ (1001 : ℤ) := by rw [← zpow_one_add₀ (by norm_num)]; norm_num
          _ ≤ _ := B64.pow_mono (by norm_num))
    exact ⟨s, hs1⟩
  choose! v hv using hfin
  have hrow : ∀ i < M.length, ∃ (a : XR FP.binary64) (q : List ℝ),
      expit (.fin (v i) : XR FP.binary64) = .ok a ∧ [ofInt 1 -ₚ a, a] = q.map XR.fin ∧ Near 2
        (ts.length * (2 : ℝ) ^ (-52 : ℤ) * (os.map fun o => |o i|).sum / 4 + (2 : ℝ) ^ (-50 : ℤ))
        q (logisticPair (os.map fun o => o i).sum) := by
    intro i hi
    have := hw i hi (v i) (hv i hi)
    unfold Within64 at this
    rw [Nat.cast_zero, zero_mul, add_zero] at this
    exact pair_error64 this
  have : Nonempty (XR FP.binary64) := ⟨.nan⟩
  choose! a q hq using hrow
  refine ⟨(List.range M.length).map q, ?_, by simp, ?_⟩
  · simp only [Xgb.predictProba, checkArray_ofMat hM, py_ok_bind, hobj, hS]
    rw [mapM_map', mapM_ok_map (g := a) fun i hi => by
      rw [hv i (List.mem_range.1 hi)]; exact (hq i (List.mem_range.1 hi)).1, py_ok_bind, List.map_map,
      List.map_map]
    simp only [py_pure, Except.ok.injEq]
    exact List.map_congr_left fun i hi => (hq i (List.mem_range.1 hi)).2.1
  · intro i hi
    simpa [hi] using (hq i hi).2.2

/-- **C83**, gradient boosting with binary deviance: each probability is the logistic function of the
exact additive model, up to a quarter of the raw score's error bound and `2⁻⁵⁰`, when the raw scores
are finite. -/
theorem C83_gb_binomial (g : GB (XR FP.binary64) C) (hl : g.loss = .binomial)
    (M : List (List (XR FP.binary64))) (hM : M ≠ [])
    (hw : Rect g.nFeatures M) (hS : g.estimators ≠ [])
    (hS51 : g.estimators.length + 1 ≤ 2 ^ 51) (hlen : ∀ st ∈ g.estimators, st.length = 1)
    (lr : ℝ) (hlr : g.learningRate = .fin lr) (I : Nat → ℝ)
    (hI : (g.initProba (.ofMat M) >>= g.loss.initRaw) = .ok (mat M.length 1 fun i _ => .fin (I i)))
    (hIr : ∀ i < M.length, FP.binary64.rnd (I i) = (I i : EReal))
    (T : Nat → Nat → ℝ)
    (hT : ∀ s (hs : s < g.estimators.length) (hc : 0 < (g.estimators[s]).length),
      (g.estimators[s])[0] (.ofMat M) = .ok ((List.range M.length).map fun i => .fin (T s i)))
    (V : Nat → ℝ) (hV : g.rawPredict (.ofMat M) = .ok (mat M.length 1 fun i _ => .fin (V i))) :
    ∃ Q : List (List ℝ), g.predictProba (.ofMat M) = .ok (Q.map fun q => q.map XR.fin) ∧
      Q.length = M.length ∧ ∀ i < M.length, Near 2
        (((g.estimators.length + 1) * (2 : ℝ) ^ (-52 : ℤ) *
          (|I i| + ∑ s ∈ Finset.range g.estimators.length, |T s i * lr|) +
          g.estimators.length * (2 : ℝ) ^ (-1074 : ℤ)) / 4 + (2 : ℝ) ^ (-50 : ℤ))
        (Q.getD i []) (logisticPair (boosted (I i) lr g.estimators.length fun s => T s i)) := by
  obtain ⟨R, hR, hB⟩ := C82_boosting g M hM hw 1 one_pos hS hS51 hlen lr hlr (fun i _ => I i) hI
    (fun i hi _ _ => hIr i hi) (fun s _ i => T s i) (by
      intro s hs c hc
      have : c = 0 := by rw [hlen _ (List.getElem_mem hs)] at hc; omega
      subst this
      exact hT s hs hc)
  have hRV : ∀ i < M.length, R i 0 = .fin (V i) := by
    intro i hi
    rw [hV] at hR
    have h1 := congrArg (fun M => (M[i]?).bind fun r => r[0]?) (Except.ok.inj hR)
    simpa [mat, hi] using h1.symm
  have hrow : ∀ i < M.length, ∃ (q : List ℝ),
      g.loss.probaRow [(.fin (V i) : XR FP.binary64)] = .ok (q.map XR.fin) ∧ Near 2
        (((g.estimators.length + 1) * (2 : ℝ) ^ (-52 : ℤ) *
          (|I i| + ∑ s ∈ Finset.range g.estimators.length, |T s i * lr|) +
          g.estimators.length * (2 : ℝ) ^ (-1074 : ℤ)) / 4 + (2 : ℝ) ^ (-50 : ℤ))
        q (logisticPair (boosted (I i) lr g.estimators.length fun s => T s i)) := by
    intro i hi
    have := hB i hi 0 one_pos (V i) (hRV i hi)
    unfold Within64 at this
    rw [Nat.cast_add, Nat.cast_one] at this
    obtain ⟨a, q, ha, hq, hN⟩ := pair_error64 this
    exact ⟨q, by simp [hl, Loss.probaRow, ha, hq], hN⟩
  choose! q hq using hrow
  refine ⟨(List.range M.length).map q, ?_, by simp, ?_⟩
  · simp only [GB.predictProba, hV, py_ok_bind]
    have hne : M.length ≠ 0 := by simpa using hM
    rw [Loss.rawToProba_rowwise g.loss (by simpa [mat] using hM) (by
      intro r hr
      simp only [mat, List.mem_map] at hr
      obtain ⟨x, hx, rfl⟩ := hr
      rw [hl]; rfl)]
    unfold mat
    rw [mapM_map', List.map_map]
    exact mapM_ok_map fun i hi => (hq i (List.mem_range.1 hi)).1
  · intro i hi
    simpa [hi] using (hq i hi).2

/-- Non-vacuity: two features, two classes, a sparse request whose exact score is 0; the probability
of the second class is one half up to `2⁻⁴⁹`. -/
example : ∃ q : List ℝ, (⟨[[.fin 1, .fin 0]], ["a", "b"], some [.fin 0], some "ovr", none, none⟩ :
      Linear (XR FP.binary64) String).predictProba (.sparse [[(1, .fin 1)]] (some 2) .float) =
        .ok [q.map XR.fin] ∧ |q.getD 1 0 - 1 / 2| ≤ 2 ^ (-49 : ℤ) := by
  have hreal : (⟨[[.fin 1, .fin 0]], ["a", "b"], some [.fin 0], some "ovr", none, none⟩ :
      Linear (XR FP.binary64) String).IsReal 2 1 [[1, 0]] [0] :=
    ⟨rfl, by intro r hr; simp at hr; subst hr; rfl, rfl, rfl, rfl, by norm_num,
      by intro y hy; simp at hy; subst hy; exact FP.binary64_sound.zero⟩
  have hden : Denotes (.fin 0) (.sparse [[(1, .fin 1)]] (some 2) .float : Arr (XR FP.binary64)) 2
      ([[0, 1]].map fun x => x.map XR.fin) := by
    have := Denotes.sparse (z := (.fin 0 : XR FP.binary64)) (ds := [[(1, .fin 1)]]) (w := 2)
      (dt := .float) (by simp) (by
        intro d hd
        simp at hd
        subst hd
        exact ⟨by simp, by intro p hp; simp at hp; subst hp; norm_num⟩)
    have e : [[((1 : Int), (.fin 1 : XR FP.binary64))]].map (Spec.dense (.fin 0) 2) =
        [[0, 1]].map fun x => x.map XR.fin := by
      simp [Spec.dense, Spec.entry, List.range_succ]
    rwa [e] at this
  obtain ⟨Q, h1, h2⟩ := C83_logistic_binary _ rfl 2 (by norm_num) _ _ hreal "a" "b" rfl _ _ hden (by
    intro x hx c hc
    simp at hx
    subst hx
    have : c = 0 := by omega
    subst this
    have e5 : (0 : ℝ) ≤ 2 ^ (1000 : ℤ) := (B64.pow_pos' _).le
    generalize (2 : ℝ) ^ (1000 : ℤ) = p at *
    simpa [Finset.sum_range_succ] using e5)
  cases h2 with
  | @cons x q _ _ ha hb =>
    cases hb
    refine ⟨q, h1, ?_⟩
    have := ha.2 1 (by norm_num)
    have e : (2 : ℝ) ^ (-1074 : ℤ) ≤ 2 ^ (-53 : ℤ) := B64.pow_mono (by norm_num)
    have e' : (2 : ℝ) ^ (-49 : ℤ) = 16 * 2 ^ (-53 : ℤ) := by norm_num
    have e2 : (2 : ℝ) ^ (-50 : ℤ) = 8 * 2 ^ (-53 : ℤ) := by norm_num
    rw [e']
    rw [e2] at this
    simp only [linScore, scoreErr64, Finset.sum_range_succ, Finset.sum_range_zero, logisticPair,
      List.getD_cons_zero, List.getD_cons_succ, Spec.sigmoid] at this
    generalize (2 : ℝ) ^ (-1074 : ℤ) = p at *
    norm_num at this e ⊢
    linarith

/-- Non-vacuity of the conditions on several classes: three scores accurate to `2⁻⁵⁰`. -/
example : ∃ (δ : ℝ), δ ≤ 1 ∧ ∀ x ∈ ([[1]] : List (List ℝ)),
    (∀ c < 3, scoreErr64 1 [[1], [2], [3]] [0, 0, 0] x c ≤ δ ∧
      linScore 1 [[1], [2], [3]] [0, 0, 0] x c ≤ 599) ∧
    ∃ c < 3, -599 ≤ linScore 1 [[1], [2], [3]] [0, 0, 0] x c := by
  refine ⟨1, le_rfl, ?_⟩
  intro x hx
  simp at hx
  subst hx
  have e : (2 : ℝ) ^ (-1074 : ℤ) ≤ 2 ^ (-53 : ℤ) := B64.pow_mono (by norm_num)
  refine ⟨?_, 0, by norm_num, by norm_num [linScore]⟩
  intro c hc
  simp only [linScore, scoreErr64, Finset.sum_range_succ, Finset.sum_range_zero]
  generalize (2 : ℝ) ^ (-1074 : ℤ) = p at *
  rcases (show c = 0 ∨ c = 1 ∨ c = 2 by omega) with rfl | rfl | rfl <;>
    · norm_num at e ⊢
      linarith

end PurePredict
