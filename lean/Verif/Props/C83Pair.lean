import Verif.Props.C83
/-
C83: accuracy of the probabilities of a multinomial logistic regression with two classes, the softmax of minus the score and the score.
-/
namespace PurePredict
open Spec Linear
variable {C : Type}

theorem softmax_pair (s : ℝ) {c : Nat} (hc : c < 2) : softmax 2 (fun j => [-s, s].getD j 0) c = logisticPair (2 * s) c := by
  have h1 : Real.exp (-(2 * s)) = Real.exp (-s) * Real.exp (-s) := by rw [← Real.exp_add]; congr 1; ring
  have h2 : Real.exp s = (Real.exp (-s))⁻¹ := by rw [← Real.exp_neg, neg_neg]
  have hp := Real.exp_pos (-s)
  rcases (show c = 0 ∨ c = 1 by omega) with rfl | rfl <;>
    simp only [softmax, logisticPair, Spec.sigmoid, Finset.sum_range_succ, Finset.sum_range_zero, List.getD_cons_zero, List.getD_cons_succ, h1, h2] <;>
    generalize Real.exp (-s) = e at hp ⊢ <;> simp <;> field_simp <;> ring

theorem logisticPair_lip (s t : ℝ) (c : Nat) : |logisticPair s c - logisticPair t c| ≤ |s - t| / 4 := by
  unfold logisticPair
  split
  · have := sigmoid_lip t s
    rw [abs_sub_comm t s] at this
    rwa [show 1 - Spec.sigmoid s - (1 - Spec.sigmoid t) = Spec.sigmoid t - Spec.sigmoid s by ring]
  · exact sigmoid_lip s t

/-- **C83**, multinomial logistic regression with two classes: the probabilities are those of twice the score. -/
theorem C83_multinomial_binary (m : Linear (XR FP.binary64) C) (ho : m.isOvr = .ok false)
    (w : Nat) (hw : w + 1 ≤ 2 ^ 52) (W : List (List ℝ)) (b : List ℝ) (h : m.IsReal w 1 W b) (c0 c1 : C) (hc : m.classes = [c0, c1])
    (X : Arr (XR FP.binary64)) (R : List (List ℝ))
    (hX : Denotes (.fin 0) X w (R.map fun x => x.map XR.fin)) (hmod : Moderate w 1 W b R)
    (hR : ∀ x ∈ R, |linScore w W b x 0| + scoreErr64 w W b x 0 ≤ 600) :
    ∃ Q : List (List ℝ), m.predictProba X = .ok (Q.map fun q => q.map XR.fin) ∧
      List.Forall₂ (fun x q => Near 2 (scoreErr64 w W b x 0 / 2 + 3 * (2 : ℝ) ^ (-51 : ℤ)) q
        (logisticPair (2 * linScore w W b x 0))) R Q := by
  obtain ⟨V, -, hV, hF, -⟩ := C60_total_binary m w hw W b h c0 c1 hc X R hX hmod
  have key : ∀ (R : List (List ℝ)) (V : List ℝ), (∀ x ∈ R, |linScore w W b x 0| + scoreErr64 w W b x 0 ≤ 600) →
      List.Forall₂ (fun (x : List ℝ) (v : ℝ) => |v - linScore w W b x 0| ≤ scoreErr64 w W b x 0) R V →
      ∃ Q : List (List ℝ), ((V.map (XR.fin (fp := FP.binary64))).mapM fun a => sfmax [Arith.neg a, a]) = .ok (Q.map fun q => q.map XR.fin) ∧
        List.Forall₂ (fun x q => Near 2 (scoreErr64 w W b x 0 / 2 + 3 * (2 : ℝ) ^ (-51 : ℤ)) q
          (logisticPair (2 * linScore w W b x 0))) R Q := by
    intro R V hR hF
    induction hF with
    | nil => exact ⟨[], rfl, .nil⟩
    | @cons x v R V h1 _ ih =>
      obtain ⟨Q, hQ, hN⟩ := ih fun y hy => hR y (by simp [hy])
      have hx := hR x (by simp)
      have hv : |v| ≤ 600 := by
        have := abs_add_le (v - linScore w W b x 0) (linScore w W b x 0)
        rw [sub_add_cancel] at this
        linarith
      have hv := abs_le.1 hv
      have ht : Tame [-v, v] := by
        refine ⟨by intro y hy; simp at hy; rcases hy with rfl | rfl <;> linarith, v, by simp, by linarith⟩
      obtain ⟨q, hq, hql, hqe⟩ := sfmax_error64 ht (by norm_num)
      refine ⟨q :: Q, ?_, .cons ?_ hN⟩
      · have hq' : sfmax [Arith.neg (XR.fin v), (XR.fin v : XR FP.binary64)] = .ok (q.map XR.fin) := hq
        rw [List.map_cons, mapM_cons', hq', py_ok_bind, hQ, py_ok_bind, py_pure]; rfl
      · refine ⟨hql, fun j hj => ?_⟩
        have e1 := hqe j hj
        have e0 := softmax_pair v hj
        have e2 := logisticPair_lip (2 * v) (2 * linScore w W b x 0) j
        have e3 : |2 * v - 2 * linScore w W b x 0| ≤ 2 * scoreErr64 w W b x 0 := by
          rw [← mul_sub, abs_mul, abs_of_pos (by norm_num : (0 : ℝ) < 2)]
          linarith
        simp only [List.length_cons, List.length_nil, Nat.zero_add, Nat.reduceAdd] at e1
        rw [e0] at e1
        have := abs_add_le (q.getD j 0 - logisticPair (2 * v) j) (logisticPair (2 * v) j - logisticPair (2 * linScore w W b x 0) j)
        rw [sub_add_sub_cancel] at this
        push_cast at e1
        rw [show (2 : ℝ) + 1 = 3 by norm_num] at e1
        have e4 : |2 * v - 2 * linScore w W b x 0| / 4 ≤ scoreErr64 w W b x 0 / 2 := by linarith only [e3]
        refine this.trans ((add_le_add e1 (e2.trans e4)).trans (le_of_eq (add_comm _ _)))
  obtain ⟨Q, hQ, hN⟩ := key R V hR hF
  refine ⟨Q, ?_, hN⟩
  simp only [Linear.predictProba, ho, hV, py_ok_bind]
  rw [if_neg (by simp)]
  exact hQ

/-- The score x - y on the record (3, 1), multinomial: probabilities of the score 4. -/
example : ∃ q : List ℝ, (⟨[[.fin 1, .fin (-1)]], ["a", "b"], some [.fin 0], some "multinomial", none, none⟩ :
      Linear (XR FP.binary64) String).predictProba (.ofMat [[.fin 3, .fin 1]]) = .ok [q.map XR.fin] ∧
    Near 2 (scoreErr64 2 [[1, -1]] [0] [3, 1] 0 / 2 + 3 * (2 : ℝ) ^ (-51 : ℤ)) q (logisticPair 4) := by
  have hreal : (⟨[[.fin 1, .fin (-1)]], ["a", "b"], some [.fin 0], some "multinomial", none, none⟩ :
      Linear (XR FP.binary64) String).IsReal 2 1 [[1, -1]] [0] :=
    ⟨rfl, by intro r hr; simp at hr; subst hr; rfl, rfl, rfl, rfl, by norm_num,
      by intro y hy; simp at hy; subst hy; exact FP.binary64_sound.zero⟩
  have h4 : (4 : ℝ) ≤ 2 ^ (1000 : ℤ) := by
    have : (2 : ℝ) ^ (2 : ℤ) ≤ 2 ^ (1000 : ℤ) := B64.pow_mono (by norm_num)
    have e : (2 : ℝ) ^ (2 : ℤ) = 4 := by norm_num
    rwa [e] at this
  have e : (2 : ℝ) ^ (-1074 : ℤ) ≤ 2 ^ (-53 : ℤ) := B64.pow_mono (by norm_num)
  obtain ⟨Q, h1, h2⟩ := C83_multinomial_binary _ rfl 2 (by norm_num) _ _ hreal "a" "b" rfl (.ofMat [[.fin 3, .fin 1]]) [[3, 1]] (.dense (by simp) (by simp)) (by
    intro x hx c hc
    simp at hx
    subst hx
    obtain rfl : c = 0 := by omega
    generalize (2 : ℝ) ^ (1000 : ℤ) = p at *
    simp [Finset.sum_range_succ]
    linarith) (by
    intro x hx
    simp at hx
    subst hx
    simp only [linScore, scoreErr64, Finset.sum_range_succ, Finset.sum_range_zero]
    generalize (2 : ℝ) ^ (-1074 : ℤ) = p at *
    norm_num [abs_of_pos] at e ⊢
    linarith)
  cases h2 with
  | @cons x q _ _ ha hb =>
    cases hb
    refine ⟨q, h1, ?_⟩
    have : 2 * linScore 2 [[1, -1]] [0] [3, 1] 0 = 4 := by norm_num [linScore, Finset.sum_range_succ]
    rwa [this] at ha

end PurePredict
