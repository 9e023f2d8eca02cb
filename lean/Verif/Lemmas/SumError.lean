import Verif.Py.FPError
import Verif.Lemmas.Rounded
/-
Forward error of floating point sums and inner products.
-/
namespace PurePredict
open scoped Classical

namespace XR
variable {fp : FP}

theorem round_eq_fin {r v : ℝ} : (round r : XR fp) = fin v ↔ fp.rnd r = (v : EReal) := by
  constructor
  · intro h
    have := congrArg toE h
    rwa [toE_round] at this
  · intro h
    simp [round, h]

/-- A finite sum has finite operands. -/
theorem add_eq_fin {x y : XR fp} {v : ℝ} (h : x +ₚ y = fin v) :
    ∃ a b, x = fin a ∧ y = fin b ∧ fp.rnd (a + b) = (v : EReal) := by
  have h : XR.add x y = fin v := h
  cases x <;> cases y <;> simp only [XR.add, reduceCtorEq] at h
  exact ⟨_, _, rfl, rfl, round_eq_fin.1 h⟩

theorem mul_eq_fin {x y : ℝ} {v : ℝ} (h : (fin x : XR fp) *ₚ fin y = fin v) :
    fp.rnd (x * y) = (v : EReal) := round_eq_fin.1 h

/-- A finite left-to-right sum has finite terms. -/
theorem foldl_eq_fin {l : List (XR fp)} {s : XR fp} {v : ℝ} (h : l.foldl Arith.add s = fin v) :
    (∃ a, s = fin a) ∧ ∃ r : List ℝ, l = r.map fin := by
  induction l generalizing s with
  | nil => exact ⟨⟨v, h⟩, [], rfl⟩
  | cons x l ih =>
    obtain ⟨⟨a, ha⟩, r, hr⟩ := ih h
    obtain ⟨p, q, hp, hq, -⟩ := add_eq_fin ha
    exact ⟨⟨p, hp⟩, q :: r, by rw [hr, hq]; rfl⟩

theorem pySum_eq_fin {l : List (XR fp)} {v : ℝ} (h : pySum l = fin v) :
    ∃ r : List ℝ, l = r.map fin := (foldl_eq_fin h).2

end XR

/-- Relative error after `k` roundings. -/
noncomputable def gam (u : ℝ) (k : Nat) : ℝ := (1 + u) ^ k - 1

theorem gam_nonneg {u : ℝ} (h : 0 ≤ u) (k : Nat) : 0 ≤ gam u k :=
  sub_nonneg.2 (one_le_pow₀ (by linarith))

theorem gam_mono {u : ℝ} (h : 0 ≤ u) {k l : Nat} (hk : k ≤ l) : gam u k ≤ gam u l :=
  sub_le_sub_right (pow_le_pow_right₀ (by linarith) hk) 1

theorem gam_succ (u : ℝ) (k : Nat) : gam u (k + 1) = u + (1 + u) * gam u k := by
  unfold gam; ring

/-- For the sizes that occur the relative error is about `k u`. -/
theorem gam_le {u : ℝ} (h : 0 ≤ u) (k : Nat) (hk : k * u ≤ 1 / 2) : gam u k ≤ 2 * (k * u) := by
  have h1 : (1 + u) ^ k * (1 - k * u) ≤ 1 := by
    have h2 : 1 - k * u ≤ (1 - u) ^ k := by
      by_cases hu : u ≤ 2
      · have := one_add_mul_le_pow (a := -u) (by linarith) k
        calc 1 - k * u = 1 + k * (-u) := by ring
          _ ≤ _ := this
          _ = _ := by ring
      · have hk0 : k = 0 := by
          by_contra hne
          have : (1 : ℝ) ≤ k := by exact_mod_cast Nat.one_le_iff_ne_zero.2 hne
          have : 1 * 2 ≤ k * u := mul_le_mul this (by linarith) (by norm_num) (by linarith)
          linarith
        subst hk0; simp
    by_cases hk0 : k = 0
    · subst hk0; simp
    have hu1 : u ≤ 1 := by
      have : (1 : ℝ) ≤ k := by exact_mod_cast Nat.one_le_iff_ne_zero.2 hk0
      nlinarith
    calc (1 + u) ^ k * (1 - k * u) ≤ (1 + u) ^ k * (1 - u) ^ k :=
          mul_le_mul_of_nonneg_left h2 (by positivity)
      _ = ((1 + u) * (1 - u)) ^ k := (mul_pow _ _ _).symm
      _ ≤ 1 := pow_le_one₀ (mul_nonneg (by linarith) (by linarith)) (by nlinarith)
  unfold gam
  have h0 : (0 : ℝ) ≤ k * u := by positivity
  have h3 : 1 ≤ (1 + u) ^ k := one_le_pow₀ (by linarith)
  nlinarith

theorem gam_add (u : ℝ) (k l : Nat) : gam u (k + l) = gam u k + gam u l + gam u k * gam u l := by
  unfold gam; rw [pow_add]; ring

section error
variable {fp : FP} {u η : ℝ}

theorem foldl_error (hs : fp.Sound) (ha : fp.Accurate u η) (l : List ℝ)
    (hl : ∀ x ∈ l, fp.rnd x = (x : EReal)) (a s : ℝ) (hra : fp.rnd a = (a : EReal))
    (h : (l.map XR.fin : List (XR fp)).foldl Arith.add (.fin a) = .fin s) :
    fp.rnd s = (s : EReal) ∧
    |s - (a + l.sum)| ≤ gam u l.length * (|a| + (l.map abs).sum) := by
  have hu := ha.u_nonneg
  induction l generalizing a with
  | nil =>
    simp only [List.map_nil, List.foldl_nil, XR.fin_inj] at h
    subst h
    exact ⟨hra, by simp [gam]⟩
  | cons x l ih =>
    rw [List.map_cons, List.foldl_cons] at h
    obtain ⟨⟨a', ha'⟩, -⟩ := XR.foldl_eq_fin h
    rw [ha'] at h
    obtain ⟨p, q, hp, hq, hr⟩ := XR.add_eq_fin ha'
    cases hp; cases hq
    obtain ⟨h1, h2⟩ := ih (fun y hy => hl y (by simp [hy])) a' (hs.idem _ _ hr) h
    refine ⟨h1, ?_⟩
    have h3 := ha.add a x a' hra (hl x (by simp)) hr
    simp only [List.map_cons, List.sum_cons, List.length_cons]
    set T := (l.map abs).sum
    have hT : 0 ≤ T := List.sum_nonneg fun y hy => by
      obtain ⟨z, -, rfl⟩ := List.mem_map.1 hy; exact abs_nonneg z
    have hax := abs_add_le a x
    have ha'b : |a'| ≤ (1 + u) * (|a| + |x|) := by
      have : |a'| ≤ |a' - (a + x)| + |a + x| := by
        have := abs_add_le (a' - (a + x)) (a + x)
        simpa using this
      nlinarith [abs_nonneg (a + x)]
    have hg := gam_nonneg hu l.length
    have hg1 : gam u l.length ≤ gam u (l.length + 1) := gam_mono hu (Nat.le_succ _)
    calc |s - (a + (x + l.sum))| ≤ |s - (a' + l.sum)| + |a' - (a + x)| := by
          have := abs_add_le (s - (a' + l.sum)) (a' - (a + x))
          calc _ = |(s - (a' + l.sum)) + (a' - (a + x))| := by ring_nf
            _ ≤ _ := this
      _ ≤ gam u l.length * (|a'| + T) + u * |a + x| := add_le_add h2 h3
      _ ≤ gam u l.length * ((1 + u) * (|a| + |x|) + T) + u * (|a| + |x|) :=
          add_le_add (mul_le_mul_of_nonneg_left (by linarith) hg)
            (mul_le_mul_of_nonneg_left hax hu)
      _ = gam u (l.length + 1) * (|a| + |x|) + gam u l.length * T := by rw [gam_succ]; ring
      _ ≤ gam u (l.length + 1) * (|a| + |x|) + gam u (l.length + 1) * T :=
          add_le_add le_rfl (mul_le_mul_of_nonneg_right hg1 hT)
      _ = _ := by ring

/-- **Error of Python's `sum`** on floats: `n - 1` roundings. -/
theorem pySum_error (hs : fp.Sound) (ha : fp.Accurate u η) (l : List ℝ)
    (hl : ∀ x ∈ l, fp.rnd x = (x : EReal)) (s : ℝ)
    (h : pySum (l.map XR.fin : List (XR fp)) = .fin s) :
    fp.rnd s = (s : EReal) ∧ |s - l.sum| ≤ gam u (l.length - 1) * (l.map abs).sum := by
  unfold pySum at h
  rw [XR.ofInt_zero hs] at h
  cases l with
  | nil =>
    simp only [List.map_nil, List.foldl_nil, XR.fin_inj] at h
    subst h
    exact ⟨hs.zero, by simp⟩
  | cons x l =>
    have hx := hl x (by simp)
    rw [List.map_cons, List.foldl_cons] at h
    have h0 : (.fin 0 : XR fp) +ₚ .fin x = .fin x := by
      show XR.round (0 + x) = _
      rw [zero_add]
      exact XR.round_eq_fin.2 hx
    rw [h0] at h
    exact foldl_error hs ha l (fun y hy => hl y (by simp [hy])) x s hx h

theorem abs_sum_le (l : List ℝ) : |l.sum| ≤ (l.map abs).sum := by
  induction l with
  | nil => simp
  | cons x l ih =>
    simp only [List.sum_cons, List.map_cons]
    exact (abs_add_le _ _).trans (by linarith)

/-- Terms that are each off by `u |t| + η`. -/
theorem terms_error (t v : List ℝ) (h : List.Forall₂ (fun t v => |v - t| ≤ u * |t| + η) t v) :
    |v.sum - t.sum| ≤ u * (t.map abs).sum + t.length * η ∧
    (v.map abs).sum ≤ (1 + u) * (t.map abs).sum + t.length * η := by
  induction h with
  | nil => simp
  | @cons a b t v h _ ih =>
    obtain ⟨h1, h2⟩ := ih
    simp only [List.map_cons, List.sum_cons, List.length_cons]
    push_cast
    constructor
    · have := abs_add_le (b - a) (v.sum - t.sum)
      have e : b + v.sum - (a + t.sum) = (b - a) + (v.sum - t.sum) := by ring
      rw [e]
      linarith
    · have : |b| ≤ |b - a| + |a| := by
        have := abs_add_le (b - a) a
        simpa using this
      linarith

theorem sum_terms_error (hs : fp.Sound) (ha : fp.Accurate u η) (t v : List ℝ)
    (hv : ∀ x ∈ v, fp.rnd x = (x : EReal))
    (h : List.Forall₂ (fun t v => |v - t| ≤ u * |t| + η) t v) (s : ℝ)
    (hsum : pySum (v.map XR.fin : List (XR fp)) = .fin s) :
    fp.rnd s = (s : EReal) ∧
    |s - t.sum| ≤ gam u t.length * (t.map abs).sum + (1 + u) ^ t.length * (t.length * η) := by
  have hu := ha.u_nonneg
  have hη := ha.eta_nonneg
  obtain ⟨h1, h2⟩ := pySum_error hs ha v hv s hsum
  obtain ⟨h3, h4⟩ := terms_error t v h
  refine ⟨h1, ?_⟩
  have hlen : v.length = t.length := h.length_eq.symm
  rw [hlen] at h2
  set A := (t.map abs).sum
  have hA : 0 ≤ A := List.sum_nonneg fun y hy => by
    obtain ⟨z, -, rfl⟩ := List.mem_map.1 hy; exact abs_nonneg z
  cases hn : t.length with
  | zero =>
    rw [List.length_eq_zero_iff] at hn
    subst hn
    cases h
    simpa [A] using h2
  | succ n =>
    rw [hn] at h2 h3 h4
    simp only [Nat.add_sub_cancel] at h2
    have hg := gam_nonneg hu n
    set N : ℝ := ((n + 1 : Nat) : ℝ) * η
    have hN : 0 ≤ N := mul_nonneg (Nat.cast_nonneg _) hη
    have e : s - t.sum = (s - v.sum) + (v.sum - t.sum) := by ring
    rw [e]
    refine (abs_add_le _ _).trans ?_
    have h5 : gam u n * (v.map abs).sum ≤ gam u n * ((1 + u) * A + N) :=
      mul_le_mul_of_nonneg_left h4 hg
    have h6 : (1 + u) ^ n ≤ (1 + u) ^ (n + 1) := pow_le_pow_right₀ (by linarith) (Nat.le_succ _)
    have h7 : (gam u n + 1) * N ≤ (1 + u) ^ (n + 1) * N := by
      refine mul_le_mul_of_nonneg_right ?_ hN
      unfold gam; linarith
    rw [gam_succ]
    nlinarith

/-- **Error of a sum of products** of floats. -/
theorem products_error (hs : fp.Sound) (ha : fp.Accurate u η) (t : List (ℝ × ℝ)) (s : ℝ)
    (h : pySum (t.map fun p => (.fin p.1 : XR fp) *ₚ .fin p.2) = .fin s) :
    fp.rnd s = (s : EReal) ∧
    |s - (t.map fun p => p.1 * p.2).sum| ≤
      gam u t.length * (t.map fun p => |p.1 * p.2|).sum + (1 + u) ^ t.length * (t.length * η) := by
  obtain ⟨v, hv⟩ := XR.pySum_eq_fin h
  rw [hv] at h
  have hF : List.Forall₂ (fun (t v : ℝ) => fp.rnd t = (v : EReal)) (t.map fun p => p.1 * p.2) v := by
    clear h
    induction t generalizing v with
    | nil => cases v with
      | nil => exact .nil
      | cons => simp at hv
    | cons p t ih =>
      cases v with
      | nil => simp at hv
      | cons a v =>
        simp only [List.map_cons, List.cons.injEq] at hv ⊢
        exact .cons (XR.mul_eq_fin hv.1) (ih v hv.2)
  have hrep : ∀ x ∈ v, fp.rnd x = (x : EReal) := by
    intro x hx
    clear h hv
    generalize t.map (fun p => p.1 * p.2) = t at hF
    induction hF with
    | nil => simp at hx
    | cons h _ ih =>
      rcases List.mem_cons.1 hx with rfl | hx
      · exact hs.idem _ _ h
      · exact ih hx
  have := sum_terms_error hs ha _ v hrep (hF.imp fun t v h => ha.rel t v h) s h
  rwa [List.length_map, List.map_map] at this

/-- No overflow below a representable bound. -/
theorem rnd_finite (hs : fp.Sound) {M : ℝ} (hM : fp.rnd M = (M : EReal)) {t : ℝ} (ht : |t| ≤ M) :
    ∃ v : ℝ, fp.rnd t = (v : EReal) := by
  obtain ⟨h1, h2⟩ := abs_le.1 ht
  have h3 : fp.rnd t ≤ (M : EReal) := hM ▸ hs.mono h2
  have h4 : ((-M : ℝ) : EReal) ≤ fp.rnd t := by
    have := hs.mono h1
    rw [hs.neg, hM] at this
    exact_mod_cast this
  induction hr : fp.rnd t using EReal.rec with
  | bot => rw [hr] at h4; simp at h4
  | top => rw [hr] at h3; simp at h3
  | coe v => exact ⟨v, rfl⟩

/-- A sum whose terms are small enough is finite. -/
theorem foldl_finite (hs : fp.Sound) (ha : fp.Accurate u η) {M : ℝ} (hM : fp.rnd M = (M : EReal))
    (l : List ℝ) (hl : ∀ x ∈ l, fp.rnd x = (x : EReal)) (a : ℝ) (hra : fp.rnd a = (a : EReal))
    (hb : (1 + u) ^ l.length * (|a| + (l.map abs).sum) ≤ M) :
    ∃ s, (l.map XR.fin).foldl Arith.add (.fin a : XR fp) = .fin s ∧ fp.rnd s = (s : EReal) ∧
      |s| ≤ (1 + u) ^ l.length * (|a| + (l.map abs).sum) := by
  have hu := ha.u_nonneg
  induction l generalizing a with
  | nil => exact ⟨a, rfl, hra, by simp⟩
  | cons x l ih =>
    simp only [List.map_cons, List.sum_cons, List.length_cons] at hb ⊢
    set T := (l.map abs).sum
    have hT : 0 ≤ T := List.sum_nonneg fun y hy => by
      obtain ⟨z, -, rfl⟩ := List.mem_map.1 hy; exact abs_nonneg z
    have h1 : (1 : ℝ) ≤ (1 + u) ^ (l.length + 1) := one_le_pow₀ (by linarith)
    have hp : (0 : ℝ) ≤ (1 + u) ^ l.length := by positivity
    have hax := abs_add_le a x
    have hnn : 0 ≤ |a| + (|x| + T) := by positivity
    obtain ⟨a', ha'⟩ := rnd_finite hs hM (t := a + x) (by nlinarith)
    have h3 := ha.add a x a' hra (hl x (by simp)) ha'
    have ha'b : |a'| ≤ (1 + u) * (|a| + |x|) := by
      have : |a'| ≤ |a' - (a + x)| + |a + x| := by
        have := abs_add_le (a' - (a + x)) (a + x)
        simpa using this
      nlinarith [abs_nonneg (a + x)]
    have hle : (1 + u) ^ l.length * (|a'| + T) ≤ (1 + u) ^ (l.length + 1) * (|a| + (|x| + T)) := by
      calc (1 + u) ^ l.length * (|a'| + T)
          ≤ (1 + u) ^ l.length * ((1 + u) * (|a| + (|x| + T))) := by
            refine mul_le_mul_of_nonneg_left ?_ hp
            nlinarith
        _ = _ := by ring
    obtain ⟨s, hs1, hs2, hs3⟩ := ih (fun y hy => hl y (by simp [hy])) a' (hs.idem _ _ ha')
      (hle.trans hb)
    refine ⟨s, ?_, hs2, hs3.trans hle⟩
    rw [List.foldl_cons]
    have : (.fin a : XR fp) +ₚ .fin x = .fin a' := XR.round_eq_fin.2 ha'
    rw [this]
    exact hs1

/-- A sum of products is finite when the products are small enough. -/
theorem products_finite (hs : fp.Sound) (ha : fp.Accurate u η) {M : ℝ} (hM : fp.rnd M = (M : EReal))
    (t : List (ℝ × ℝ))
    (hb : (1 + u) ^ (t.length + 1) * ((t.map fun p => |p.1 * p.2|).sum + t.length * η) ≤ M) :
    ∃ s, pySum (t.map fun p => (.fin p.1 : XR fp) *ₚ .fin p.2) = .fin s ∧ fp.rnd s = (s : EReal) ∧
      |s| ≤ (1 + u) ^ (t.length + 1) * ((t.map fun p => |p.1 * p.2|).sum + t.length * η) := by
  have hu := ha.u_nonneg
  have hη := ha.eta_nonneg
  set A := (t.map fun p => |p.1 * p.2|).sum
  have hA : 0 ≤ A := List.sum_nonneg fun y hy => by
    obtain ⟨z, -, rfl⟩ := List.mem_map.1 hy; exact abs_nonneg _
  have hN : 0 ≤ (t.length : ℝ) * η := mul_nonneg (Nat.cast_nonneg _) hη
  have h1 : (1 : ℝ) ≤ (1 + u) ^ (t.length + 1) := one_le_pow₀ (by linarith)
  have hone : ∀ p ∈ t, ∃ v : ℝ, fp.rnd (p.1 * p.2) = (v : EReal) := by
    intro p hp
    refine rnd_finite hs hM ?_
    have : |p.1 * p.2| ≤ A := List.single_le_sum (fun y hy => by
      obtain ⟨z, -, rfl⟩ := List.mem_map.1 hy; exact abs_nonneg _) _ (List.mem_map.2 ⟨p, hp, rfl⟩)
    nlinarith
  obtain ⟨v, hv, hF⟩ : ∃ v : List ℝ, t.map (fun p => (.fin p.1 : XR fp) *ₚ .fin p.2) = v.map XR.fin ∧
      List.Forall₂ (fun (t v : ℝ) => fp.rnd t = (v : EReal)) (t.map fun p => p.1 * p.2) v := by
    clear hb A hA hN h1
    induction t with
    | nil => exact ⟨[], rfl, .nil⟩
    | cons p t ih =>
      obtain ⟨a, ha'⟩ := hone p (by simp)
      obtain ⟨v, h2, h3⟩ := ih fun q hq => hone q (by simp [hq])
      refine ⟨a :: v, ?_, .cons ha' h3⟩
      have : (.fin p.1 : XR fp) *ₚ .fin p.2 = .fin a := XR.round_eq_fin.2 ha'
      simp [this, h2]
  have hrep : ∀ x ∈ v, fp.rnd x = (x : EReal) := by
    intro x hx
    clear hv
    generalize t.map (fun p => p.1 * p.2) = t at hF
    induction hF with
    | nil => simp at hx
    | cons h _ ih =>
      rcases List.mem_cons.1 hx with rfl | hx
      · exact hs.idem _ _ h
      · exact ih hx
  have hlen : v.length = t.length := by simpa using hF.length_eq.symm
  obtain ⟨-, h4⟩ := terms_error _ v (hF.imp fun t v h => ha.rel t v h)
  rw [List.length_map, List.map_map] at h4
  have h4 : (v.map abs).sum ≤ (1 + u) * A + t.length * η := h4
  have hle : (1 + u) ^ v.length * (|(0 : ℝ)| + (v.map abs).sum) ≤
      (1 + u) ^ (t.length + 1) * (A + t.length * η) := by
    rw [hlen, abs_zero, zero_add, pow_succ]
    have hp : (0 : ℝ) ≤ (1 + u) ^ t.length := by positivity
    rw [mul_assoc]
    refine mul_le_mul_of_nonneg_left ?_ hp
    nlinarith
  obtain ⟨s, h5, h6, h7⟩ := foldl_finite hs ha hM v hrep 0 hs.zero (hle.trans hb)
  refine ⟨s, ?_, h6, h7.trans hle⟩
  rw [hv]
  unfold pySum
  rw [XR.ofInt_zero hs]
  exact h5

end error
end PurePredict
