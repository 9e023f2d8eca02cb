import Verif.Lemmas.SumOne
import Verif.Lemmas.LinearExact
import Verif.Spec.Pipeline
import Verif.Spec.Accuracy
/-
Rounding error of linear scores.
-/
namespace PurePredict
open Spec

/-- A linear model whose parameters are finite floats. -/
structure Linear.IsReal {fp : FP} {C : Type} (m : Linear (XR fp) C) (w k : Nat) (W : List (List ℝ))
    (b : List ℝ) : Prop where
  coef : m.coef = W.map fun r => r.map XR.fin
  rect : Rect w W
  rows : W.length = k
  intercept : m.intercept = some (b.map XR.fin)
  len : b.length = k
  pos : 0 < k
  rep : ∀ y ∈ b, fp.rnd y = (y : EReal)

/-- The row object represents the record `x`. -/
inductive RowDenotes {fp : FP} (w : Nat) (x : List ℝ) : Row (XR fp) → Prop
  | list : x.length = w → RowDenotes w x (.list (x.map XR.fin))
  | dict {d : Dict Int (XR fp)} : ValidRow w d → dense (.fin 0) w d = x.map XR.fin →
      RowDenotes w x (.dict d)

variable {fp : FP} {u η : ℝ} {C : Type}

theorem zipWith_abs_sum {w : Nat} {x y : List ℝ} (hx : x.length = w) (hy : y.length = w) :
    (List.zipWith (fun a b => |a * b|) x y).sum = ∑ i ∈ Finset.range w, |x.getD i 0 * y.getD i 0| := by
  rw [← list_sum_range]
  congr 1
  apply List.ext_getElem
  · simp [hx, hy]
  · intro i h1 h2
    have hi : i < w := by simpa using h2
    simp [List.getElem?_eq_getElem (show i < x.length by omega),
      List.getElem?_eq_getElem (show i < y.length by omega)]

theorem validRow_length {F : Type} {w : Nat} {d : Dict Int F} (h : ValidRow w d) : d.length ≤ w := by
  have h1 : (d.map fun p => p.1.toNat).Nodup := by
    have := h.1
    rw [List.Nodup, List.pairwise_map] at this ⊢
    refine this.imp_of_mem ?_
    intro p q hp hq hne he
    have := h.2 p hp
    have := h.2 q hq
    omega
  have h2 : (d.map fun p => p.1.toNat) ⊆ List.range w := by
    intro n hn
    obtain ⟨p, hp, rfl⟩ := List.mem_map.1 hn
    have := h.2 p hp
    simp; omega
  have := (List.Nodup.subperm h1 h2).length_le
  simpa using this

/-- The inner product of one record, list or dict: the products it sums. -/
theorem dot_row_terms {w : Nat} {x : List ℝ} {row : Row (XR fp)} (hr : RowDenotes w x row)
    {y : List ℝ} (hy : y.length = w) :
    ∃ t : List (ℝ × ℝ), t.length ≤ w ∧
      (match row with
        | .dict a => dotDict a (y.map XR.fin)
        | .list a => .ok (dotList a (y.map XR.fin))
        | .scalar _ => .error .typeError) =
        .ok (pySum (t.map fun p => (.fin p.1 : XR fp) *ₚ .fin p.2)) ∧
      (t.map fun p => p.1 * p.2).sum = ∑ i ∈ Finset.range w, x.getD i 0 * y.getD i 0 ∧
      (t.map fun p => |p.1 * p.2|).sum = ∑ i ∈ Finset.range w, |x.getD i 0 * y.getD i 0| := by
  cases hr with
  | list hx =>
    refine ⟨x.zip y, by simp [hx, hy], ?_, ?_, ?_⟩
    · simp only [dotList, List.zip_eq_zipWith, List.map_zipWith, List.zipWith_map]
    · rw [← zipWith_sum_range hx hy, List.zip_eq_zipWith, List.map_zipWith]
    · rw [← zipWith_abs_sum hx hy, List.zip_eq_zipWith, List.map_zipWith]
  | @dict d hd hden =>
    simp only
    rw [dotDict_valid hd (by simpa using hy) (.fin 0)]
    have hent : ∀ i < w, entry (.fin 0) d i = (.fin (x.getD i 0) : XR fp) := by
      intro i hi
      have hx : x.length = w := by
        have := congrArg List.length hden
        simpa [dense] using this.symm
      have := congrArg (fun l => l[i]?) hden
      simp only [dense, List.getElem?_map, List.getElem?_range hi, Option.map_some,
        List.getElem?_eq_getElem (show i < x.length by omega), Option.some.injEq] at this
      rw [this]
      simp [List.getElem?_eq_getElem (show i < x.length by omega)]
    have hval : ∀ p ∈ d, p.2 = (.fin (x.getD p.1.toNat 0) : XR fp) := by
      intro p hp
      have h0 := hd.2 p hp
      rw [← hent p.1.toNat (by omega)]
      have hf : d.find? (fun q => decide (q.1 = ((p.1.toNat : Nat) : Int))) = some p := by
        have hk : ((p.1.toNat : Nat) : Int) = p.1 := by omega
        rw [hk]
        have hnd := hd.1
        clear hden hent hd
        induction d with
        | nil => simp at hp
        | cons q d ih =>
          rw [List.map_cons, List.nodup_cons] at hnd
          rcases List.mem_cons.1 hp with rfl | hp'
          · simp
          · have hne : q.1 ≠ p.1 := fun e => hnd.1 (e ▸ List.mem_map.2 ⟨p, hp', rfl⟩)
            rw [List.find?_cons, decide_eq_false hne]
            exact ih hp' hnd.2
      unfold entry
      rw [hf]
      rfl
    let d0 : Dict Int ℝ := d.map fun p => (p.1, x.getD p.1.toNat 0)
    have hd0 : ValidRow w d0 := by
      refine ⟨?_, ?_⟩
      · have : d0.map Prod.fst = d.map Prod.fst := by simp [d0]
        rw [this]; exact hd.1
      · intro p hp
        obtain ⟨q, hq, rfl⟩ := List.mem_map.1 hp
        exact hd.2 q hq
    have hent0 : ∀ i < w, entry 0 d0 i = x.getD i 0 := by
      intro i hi
      by_cases hm : ∃ p ∈ d, p.1 = (i : Int)
      · obtain ⟨p, hp, hpi⟩ := hm
        have hp0 : ((i : Int), x.getD i 0) ∈ d0 := by
          refine List.mem_map.2 ⟨p, hp, ?_⟩
          rw [hpi]; simp
        have hnd := hd0.1
        clear_value d0
        clear hd0 hent hval
        induction d0 with
        | nil => simp at hp0
        | cons q d0 ih =>
          rw [List.map_cons, List.nodup_cons] at hnd
          rcases List.mem_cons.1 hp0 with rfl | hp'
          · exact entry_cons_self rfl
          · have hne : q.1 ≠ (i : Int) := fun e => hnd.1 (e ▸ List.mem_map.2 ⟨_, hp', rfl⟩)
            rw [entry_cons_of_ne hne]
            exact ih hp' hnd.2
      · have h1 : entry 0 d0 i = 0 := entry_not_mem fun q hq e => by
          obtain ⟨p, hp, rfl⟩ := List.mem_map.1 hq
          exact hm ⟨p, hp, e⟩
        have h2 : entry (.fin 0) d i = (.fin 0 : XR fp) := entry_not_mem fun q hq e => hm ⟨q, hq, e⟩
        rw [hent i hi] at h2
        rw [h1]
        exact (XR.fin_inj.1 h2).symm
    have hsum : ∀ f : ℝ → ℝ → ℝ, f 0 = (fun _ => 0) →
        (d0.map fun p => f p.2 (y.getD p.1.toNat 0)).sum =
          ∑ i ∈ Finset.range w, f (x.getD i 0) (y.getD i 0) := by
      intro f hf
      have e : ∀ e0 : Dict Int ℝ, ValidRow w e0 →
          (e0.map fun p => f p.2 (y.getD p.1.toNat 0)).sum =
            ∑ i ∈ Finset.range w, f (entry 0 e0 i) (y.getD i 0) := by
        intro e0 he0
        induction e0 with
        | nil => simp [entry, hf]
        | cons p e0 ih =>
          obtain ⟨h0, h1⟩ := he0.2 p (by simp)
          have hk : p.1 = ((p.1.toNat : Nat) : Int) := by omega
          have hne : ∀ q ∈ e0, q.1 ≠ p.1 := by
            intro q hq h
            have := List.nodup_cons.1 he0.1
            exact this.1 (List.mem_map.2 ⟨q, hq, h⟩)
          have hz : entry (0 : ℝ) e0 p.1.toNat = 0 :=
            entry_not_mem fun q hq h => hne q hq (h.trans hk.symm)
          rw [List.map_cons, List.sum_cons, ih (ValidRow.tail he0)]
          have hmem : p.1.toNat ∈ Finset.range w := by simp; omega
          rw [← Finset.add_sum_erase _ _ hmem, ← Finset.add_sum_erase _ _ hmem]
          rw [entry_cons_self hk, hz, hf]
          have : ∑ i ∈ (Finset.range w).erase p.1.toNat, f (entry 0 (p :: e0) i) (y.getD i 0) =
              ∑ i ∈ (Finset.range w).erase p.1.toNat, f (entry 0 e0 i) (y.getD i 0) := by
            apply Finset.sum_congr rfl
            intro i hi
            rw [entry_cons_of_ne]
            intro h
            have hx' := (Finset.mem_erase.1 hi).1
            omega
          rw [this]
          ring
      rw [e d0 hd0]
      apply Finset.sum_congr rfl
      intro i hi
      rw [hent0 i (Finset.mem_range.1 hi)]
    -- the computed products
    have hprod : d.map (fun p => p.2 *ₚ (y.map XR.fin).getD p.1.toNat (.fin 0)) =
        d0.map fun p => (.fin p.2 : XR fp) *ₚ .fin (y.getD p.1.toNat 0) := by
      rw [List.map_map]
      apply List.map_congr_left
      intro p hp
      have hlt : p.1.toNat < y.length := by have := hd.2 p hp; omega
      simp only [Function.comp]
      rw [hval p hp]
      simp [List.getElem?_eq_getElem hlt]
    refine ⟨d0.map fun p => (p.2, y.getD p.1.toNat 0), ?_, ?_, ?_, ?_⟩
    · rw [List.length_map]; exact validRow_length hd0
    · rw [hprod]; clear_value d0; rw [List.map_map]; rfl
    · clear_value d0; rw [List.map_map]; exact hsum (fun a b => a * b) (by funext; simp)
    · clear_value d0; rw [List.map_map]; exact hsum (fun a b => |a * b|) (by funext; simp)

/-- Error of one inner product, list or dict record. -/
theorem dot_row_error (hs : fp.Sound) (ha : fp.Accurate u η) {w : Nat} {x : List ℝ}
    {row : Row (XR fp)} (hr : RowDenotes w x row) {y : List ℝ} (hy : y.length = w) {s : ℝ}
    (h : (match row with
      | .dict a => dotDict a (y.map XR.fin)
      | .list a => .ok (dotList a (y.map XR.fin))
      | .scalar _ => .error .typeError) = .ok (.fin s : XR fp)) :
    fp.rnd s = (s : EReal) ∧
    |s - ∑ i ∈ Finset.range w, x.getD i 0 * y.getD i 0| ≤
      gam u w * ∑ i ∈ Finset.range w, |x.getD i 0 * y.getD i 0| + (1 + u) ^ w * (w * η) := by
  have hu := ha.u_nonneg
  have hη := ha.eta_nonneg
  obtain ⟨t, hlen, ht, h1, h2⟩ := dot_row_terms hr hy
  rw [ht] at h
  obtain ⟨h3, h4⟩ := products_error hs ha t s (Except.ok.inj h)
  rw [h1, h2] at h4
  refine ⟨h3, h4.trans (add_le_add ?_ ?_)⟩
  · exact mul_le_mul_of_nonneg_right (gam_mono hu hlen)
      (Finset.sum_nonneg fun _ _ => abs_nonneg _)
  · refine mul_le_mul (pow_le_pow_right₀ (by linarith) hlen)
      (mul_le_mul_of_nonneg_right (by exact_mod_cast hlen) hη)
      (mul_nonneg (Nat.cast_nonneg _) hη) (by positivity)

/-- The inner product is finite when the products are small enough. -/
theorem dot_row_finite (hs : fp.Sound) (ha : fp.Accurate u η) {M : ℝ} (hM : fp.rnd M = (M : EReal))
    {w : Nat} {x : List ℝ} {row : Row (XR fp)} (hr : RowDenotes w x row) {y : List ℝ}
    (hy : y.length = w)
    (hb : (1 + u) ^ (w + 1) * (∑ i ∈ Finset.range w, |x.getD i 0 * y.getD i 0| + w * η) ≤ M) :
    ∃ s : ℝ, (match row with
      | .dict a => dotDict a (y.map XR.fin)
      | .list a => .ok (dotList a (y.map XR.fin))
      | .scalar _ => .error .typeError) = .ok (.fin s : XR fp) ∧
    |s| ≤ (1 + u) ^ (w + 1) * (∑ i ∈ Finset.range w, |x.getD i 0 * y.getD i 0| + w * η) := by
  have hu := ha.u_nonneg
  have hη := ha.eta_nonneg
  obtain ⟨t, hlen, ht, h1, h2⟩ := dot_row_terms hr hy
  have hA : 0 ≤ ∑ i ∈ Finset.range w, |x.getD i 0 * y.getD i 0| :=
    Finset.sum_nonneg fun _ _ => abs_nonneg _
  have hle : (1 + u) ^ (t.length + 1) * ((t.map fun p => |p.1 * p.2|).sum + t.length * η) ≤
      (1 + u) ^ (w + 1) * (∑ i ∈ Finset.range w, |x.getD i 0 * y.getD i 0| + w * η) := by
    rw [h2]
    have : (t.length : ℝ) * η ≤ w * η := mul_le_mul_of_nonneg_right (by exact_mod_cast hlen) hη
    refine mul_le_mul (pow_le_pow_right₀ (by linarith) (by omega)) (by linarith)
      (add_nonneg hA (mul_nonneg (Nat.cast_nonneg _) hη)) (by positivity)
  obtain ⟨s, h3, -, h4⟩ := products_finite hs ha hM t (hle.trans hb)
  exact ⟨s, by rw [ht, h3], h4.trans hle⟩

/-- Every finite score of a row is within `scoreErr` of the exact score. -/
theorem rowScores_error (hs : fp.Sound) (ha : fp.Accurate u η) {m : Linear (XR fp) C} {w k : Nat}
    {W : List (List ℝ)} {b : List ℝ} (h : m.IsReal w k W b) {x : List ℝ} {row : Row (XR fp)}
    (hr : RowDenotes w x row) {s : List (XR fp)} (hsc : m.rowScores row = .ok s) :
    s.length = k ∧ ∀ c < k, ∀ v, s[c]? = some (.fin v) →
      |v - linScore w W b x c| ≤ scoreErr u η w W b x c := by
  have hu := ha.u_nonneg
  have hη := ha.eta_nonneg
  have hlen : s.length = k := by
    rw [Linear.rowScores_length h.intercept hsc, h.coef]
    simp [h.rows, h.len]
  refine ⟨hlen, ?_⟩
  intro c hc v hv
  simp only [Linear.rowScores, h.intercept, attr, py_ok_bind, h.coef] at hsc
  obtain ⟨d, hd, hsc⟩ := bind_ok_iff.1 hsc
  simp only [py_pure, Except.ok.injEq] at hsc
  have hdl : d.length = k := by rw [dot_length hd]; simp [h.rows]
  have hcb : c < b.length := by rw [h.len]; exact hc
  have hcW : c < W.length := by rw [h.rows]; exact hc
  have hcd : c < d.length := by rw [hdl]; exact hc
  rw [← hsc, List.getElem?_zipWith, List.getElem?_eq_getElem hcd, List.getElem?_map,
    List.getElem?_eq_getElem hcb] at hv
  simp only [Option.map_some, Option.some.injEq] at hv
  obtain ⟨p, q, hp, hq, hpq⟩ := XR.add_eq_fin hv
  have hq := XR.fin_inj.1 hq
  subst hq
  have hdc := mapM_getElem hd c (by simpa using hcW) hcd
  rw [List.getElem_map, hp] at hdc
  obtain ⟨h1, h2⟩ := dot_row_error hs ha hr (h.rect _ (List.getElem_mem hcW))
    (by cases row <;> exact hdc)
  have h3 := ha.add p b[c] v h1 (h.rep _ (List.getElem_mem hcb)) hpq
  have eW : W.getD c [] = W[c] := by simp [List.getElem?_eq_getElem hcW]
  have eb : b.getD c 0 = b[c] := by simp [List.getElem?_eq_getElem hcb]
  unfold linScore scoreErr
  rw [eW, eb]
  set D := ∑ i ∈ Finset.range w, x.getD i 0 * (W[c]).getD i 0
  set A := ∑ i ∈ Finset.range w, |x.getD i 0 * (W[c]).getD i 0|
  have hA : 0 ≤ A := Finset.sum_nonneg fun _ _ => abs_nonneg _
  have hDA : |D| ≤ A := Finset.abs_sum_le_sum_abs _ _
  have hg := gam_nonneg hu w
  have hg1 : gam u (w + 1) = u + (1 + u) * gam u w := gam_succ u w
  have hN : 0 ≤ (w : ℝ) * η := mul_nonneg (Nat.cast_nonneg _) hη
  have hP : (0 : ℝ) ≤ (1 + u) ^ w := by positivity
  have e : v - (D + b[c]) = (v - (p + b[c])) + (p - D) := by ring
  have h4 : |p + b[c]| ≤ |p - D| + A + |b[c]| := by
    have e2 : p + b[c] = (p - D) + D + b[c] := by ring
    rw [e2]
    have := abs_add_le ((p - D) + D) b[c]
    have := abs_add_le (p - D) D
    linarith
  rw [e]
  refine (abs_add_le _ _).trans ?_
  have h5 : |v - (p + b[c])| ≤ u * (|p - D| + A + |b[c]|) :=
    h3.trans (mul_le_mul_of_nonneg_left h4 hu)
  have h6 : (1 + u) * |p - D| ≤ (1 + u) * (gam u w * A + (1 + u) ^ w * (w * η)) :=
    mul_le_mul_of_nonneg_left h2 (by linarith)
  have h7 : u * |b[c]| ≤ gam u (w + 1) * |b[c]| := by
    refine mul_le_mul_of_nonneg_right ?_ (abs_nonneg _)
    rw [hg1]; nlinarith
  have e3 : (1 + u) ^ (w + 1) - 1 = gam u (w + 1) := rfl
  rw [e3]
  have e4 : (1 + u) ^ (w + 1) * (w * η) = (1 + u) * ((1 + u) ^ w * (w * η)) := by ring
  rw [e4]
  have e5 : gam u (w + 1) * (A + |b[c]|) = u * A + (1 + u) * (gam u w * A) + gam u (w + 1) * |b[c]| := by
    rw [hg1]; ring
  rw [e5]
  linarith

/-- A row whose products are small enough has finite scores. -/
theorem rowScores_finite (hs : fp.Sound) (ha : fp.Accurate u η) {M : ℝ}
    (hM : fp.rnd M = (M : EReal)) {m : Linear (XR fp) C} {w k : Nat}
    {W : List (List ℝ)} {b : List ℝ} (h : m.IsReal w k W b) {x : List ℝ} {row : Row (XR fp)}
    (hr : RowDenotes w x row)
    (hb : ∀ c < k, (1 + u) ^ (w + 1) *
      (∑ i ∈ Finset.range w, |x.getD i 0 * (W.getD c []).getD i 0| + w * η) + |b.getD c 0| ≤ M) :
    ∃ v : List ℝ, m.rowScores row = .ok (v.map XR.fin) := by
  have key : ∀ (W' : List (List ℝ)) (b' : List ℝ), W'.length = b'.length → Rect w W' →
      (∀ c < W'.length, (1 + u) ^ (w + 1) *
        (∑ i ∈ Finset.range w, |x.getD i 0 * (W'.getD c []).getD i 0| + w * η) + |b'.getD c 0| ≤ M) →
      ∃ (d : List (XR fp)) (v : List ℝ), dot row (W'.map fun r => r.map XR.fin) = .ok d ∧
        List.zipWith (· +ₚ ·) d (b'.map XR.fin) = v.map XR.fin := by
    intro W'
    induction W' with
    | nil =>
      intro b' _ _ _
      exact ⟨[], [], rfl, rfl⟩
    | cons y W' ih =>
      intro b' hl hrect hbd
      cases b' with
      | nil => simp at hl
      | cons b0 b' =>
        obtain ⟨d, v, h1, h2⟩ := ih b' (by simpa using hl) (fun r hr' => hrect r (by simp [hr']))
          (fun c hc => by simpa using hbd (c + 1) (by simpa using hc))
        have h0 := hbd 0 (by simp)
        simp only [List.getD_cons_zero] at h0
        have hb0 := abs_nonneg b0
        obtain ⟨s, h3, h4⟩ := dot_row_finite hs ha hM hr (hrect y (by simp)) (by linarith)
        obtain ⟨z, hz⟩ := rnd_finite hs hM (t := s + b0) (by
          have := abs_add_le s b0
          linarith)
        refine ⟨.fin s :: d, z :: v, ?_, ?_⟩
        · unfold dot at h1 ⊢
          rw [List.map_cons, mapM_cons', h1]
          cases row with
          | list a => simp only at h3 ⊢; rw [h3]; rfl
          | dict a => simp only at h3 ⊢; rw [h3]; rfl
          | scalar a => cases h3
        · have : (.fin s : XR fp) +ₚ .fin b0 = .fin z := XR.round_eq_fin.2 hz
          simp [this, h2]
  obtain ⟨d, v, h1, h2⟩ := key W b (by rw [h.rows, h.len]) h.rect (by rw [h.rows]; exact hb)
  refine ⟨v, ?_⟩
  simp only [Linear.rowScores, h.intercept, attr, py_ok_bind, h.coef]
  rw [h1]
  simp only [py_ok_bind, py_pure]
  rw [← h2]

section double
open Linear

theorem Denotes.accepts {m : Linear (XR fp) C} {w k : Nat} {W : List (List ℝ)} {b : List ℝ}
    (h : m.IsReal w k W b) {X : Arr (XR fp)} {R : List (List ℝ)}
    (hX : Denotes (.fin 0) X w (R.map fun x => x.map XR.fin)) :
    ∃ rs, m.Accepts X rs ∧ List.Forall₂ (RowDenotes w) R rs := by
  have hc : m.coef ≠ [] := by
    rw [h.coef]; intro e
    have := congrArg List.length e
    have := h.pos
    have := h.rows
    simp_all
  have hcw : Rect w m.coef := by
    rw [h.coef]; intro r hr
    obtain ⟨r', hr', rfl⟩ := List.mem_map.1 hr
    simpa using h.rect r' hr'
  generalize hM : R.map (fun x => x.map (XR.fin (fp := fp))) = M at hX
  cases hX with
  | dense h1 h2 =>
    subst hM
    refine ⟨_, accepts_dense hc hcw h1 h2, ?_⟩
    rw [List.map_map, List.forall₂_map_right_iff, List.forall₂_same]
    intro x hx
    exact .list (by simpa using h2 _ (List.mem_map.2 ⟨x, hx, rfl⟩))
  | @sparse ds _ dt h1 h2 =>
    refine ⟨_, accepts_sparse hc hcw h1 dt, ?_⟩
    rw [List.forall₂_map_right_iff]
    clear h1
    induction ds generalizing R with
    | nil =>
      cases R with
      | nil => exact .nil
      | cons => simp at hM
    | cons d ds ih =>
      cases R with
      | nil => simp at hM
      | cons x R =>
        simp only [List.map_cons, List.cons.injEq] at hM
        exact .cons (.dict (h2 d (by simp)) hM.1.symm) (ih (fun e he => h2 e (List.mem_cons_of_mem _ he)) hM.2)

/-- The general bound is at most the closed form in double precision. -/
theorem scoreErr_le_64 {w : Nat} (hw : w + 1 ≤ 2 ^ 52) (W : List (List ℝ)) (b x : List ℝ) (c : Nat) :
    scoreErr ((2 : ℝ) ^ (-53 : ℤ)) ((2 : ℝ) ^ (-1075 : ℤ)) w W b x c ≤ scoreErr64 w W b x c := by
  unfold scoreErr scoreErr64
  have hu : (0 : ℝ) ≤ (2 : ℝ) ^ (-53 : ℤ) := by positivity
  have hw' : ((w + 1 : ℕ) : ℝ) ≤ 2 ^ 52 := by exact_mod_cast hw
  have hk : ((w + 1 : ℕ) : ℝ) * (2 : ℝ) ^ (-53 : ℤ) ≤ 1 / 2 := by
    calc ((w + 1 : ℕ) : ℝ) * (2 : ℝ) ^ (-53 : ℤ) ≤ 2 ^ 52 * (2 : ℝ) ^ (-53 : ℤ) :=
          mul_le_mul_of_nonneg_right hw' hu
      _ = 1 / 2 := by norm_num
  have hg := gam_le hu _ hk
  have e1 : gam ((2 : ℝ) ^ (-53 : ℤ)) (w + 1) ≤ (w + 1) * (2 : ℝ) ^ (-52 : ℤ) := by
    refine hg.trans (le_of_eq ?_)
    push_cast
    norm_num
    try ring
  have e2 : (1 + (2 : ℝ) ^ (-53 : ℤ)) ^ (w + 1) ≤ 2 := by
    have : (1 + (2 : ℝ) ^ (-53 : ℤ)) ^ (w + 1) = 1 + gam ((2 : ℝ) ^ (-53 : ℤ)) (w + 1) := by
      unfold gam; ring
    rw [this]
    generalize (2 : ℝ) ^ (-53 : ℤ) = v at *
    linarith
  refine add_le_add (mul_le_mul_of_nonneg_right e1 (add_nonneg
    (Finset.sum_nonneg fun _ _ => abs_nonneg _) (abs_nonneg _))) ?_
  have e3 : (2 : ℝ) * (2 : ℝ) ^ (-1075 : ℤ) = (2 : ℝ) ^ (-1074 : ℤ) := by
    rw [← zpow_one_add₀ (by norm_num)]; norm_num
  have h0 : (0 : ℝ) ≤ w * (2 : ℝ) ^ (-1075 : ℤ) := by positivity
  calc (1 + (2 : ℝ) ^ (-53 : ℤ)) ^ (w + 1) * (w * (2 : ℝ) ^ (-1075 : ℤ))
      ≤ 2 * (w * (2 : ℝ) ^ (-1075 : ℤ)) := mul_le_mul_of_nonneg_right e2 h0
    _ = w * (2 * (2 : ℝ) ^ (-1075 : ℤ)) := by ring
    _ = w * (2 : ℝ) ^ (-1074 : ℤ) := by rw [e3]

/-- Finite scores for all rows of a moderate request. -/
theorem scores_finite {m : Linear (XR FP.binary64) C} {w k : Nat} (hw : w + 1 ≤ 2 ^ 52)
    {W : List (List ℝ)} {b : List ℝ} (h : m.IsReal w k W b) {R : List (List ℝ)}
    (hmod : Moderate w k W b R) {rs : List (Row (XR FP.binary64))}
    (hrs : List.Forall₂ (RowDenotes w) R rs) :
    ∃ V : List (List ℝ), rs.mapM m.rowScores = .ok (V.map fun r => r.map XR.fin) := by
  induction hrs with
  | nil => exact ⟨[], rfl⟩
  | @cons x row R rs h1 _ ih =>
    obtain ⟨V, hV⟩ := ih fun y hy => hmod y (by simp [hy])
    obtain ⟨v, hv⟩ := rowScores_finite FP.binary64_sound FP.binary64_accurate rnd_two_pow_1023 h h1
      (by
        intro c hc
        have h2 := hmod x (by simp) c hc
        have h3 := abs_nonneg (b.getD c 0)
        have hu : (0 : ℝ) ≤ (2 : ℝ) ^ (-53 : ℤ) := by positivity
        have hw' : ((w + 1 : ℕ) : ℝ) ≤ 2 ^ 52 := by exact_mod_cast hw
        have hk : ((w + 1 : ℕ) : ℝ) * (2 : ℝ) ^ (-53 : ℤ) ≤ 1 / 2 := by
          calc ((w + 1 : ℕ) : ℝ) * (2 : ℝ) ^ (-53 : ℤ) ≤ 2 ^ 52 * (2 : ℝ) ^ (-53 : ℤ) :=
                mul_le_mul_of_nonneg_right hw' hu
            _ = 1 / 2 := by norm_num
        have hg := gam_le hu _ hk
        have e2 : (1 + (2 : ℝ) ^ (-53 : ℤ)) ^ (w + 1) ≤ 2 := by
          have : (1 + (2 : ℝ) ^ (-53 : ℤ)) ^ (w + 1) = 1 + gam ((2 : ℝ) ^ (-53 : ℤ)) (w + 1) := by
            unfold gam; ring
          rw [this]
          generalize (2 : ℝ) ^ (-53 : ℤ) = v at *
          linarith
        have e3 : (w : ℝ) * (2 : ℝ) ^ (-1075 : ℤ) ≤ 1 := by
          have h4 : (w : ℝ) ≤ 2 ^ (52 : ℤ) := by
            have : (w : ℝ) ≤ ((w + 1 : ℕ) : ℝ) := by push_cast; linarith
            exact_mod_cast this.trans hw'
          calc (w : ℝ) * (2 : ℝ) ^ (-1075 : ℤ) ≤ 2 ^ (52 : ℤ) * (2 : ℝ) ^ (-1075 : ℤ) :=
                mul_le_mul_of_nonneg_right h4 (by positivity)
            _ = 2 ^ (-1023 : ℤ) := by rw [← B64.pow_add']; norm_num
            _ ≤ 2 ^ (0 : ℤ) := B64.pow_mono (by norm_num)
            _ = 1 := by simp
        have e4 : (4 : ℝ) * 2 ^ (1000 : ℤ) ≤ 2 ^ (1023 : ℤ) := by
          have : (4 : ℝ) = 2 ^ (2 : ℤ) := by norm_num
          rw [this, ← B64.pow_add']
          exact B64.pow_mono (by norm_num)
        have e5 : (1 : ℝ) ≤ 2 ^ (1000 : ℤ) := by
          have : (2 : ℝ) ^ (0 : ℤ) ≤ 2 ^ (1000 : ℤ) := B64.pow_mono (by norm_num)
          simpa using this
        have hA : 0 ≤ ∑ i ∈ Finset.range w, |x.getD i 0 * (W.getD c []).getD i 0| :=
          Finset.sum_nonneg fun _ _ => abs_nonneg _
        have e6 : (0 : ℝ) ≤ (w : ℝ) * (2 : ℝ) ^ (-1075 : ℤ) := by positivity
        generalize (2 : ℝ) ^ (1000 : ℤ) = p at *
        generalize (2 : ℝ) ^ (1023 : ℤ) = q at *
        generalize (w : ℝ) * (2 : ℝ) ^ (-1075 : ℤ) = n at *
        generalize (1 + (2 : ℝ) ^ (-53 : ℤ)) ^ (w + 1) = g at *
        nlinarith)
    exact ⟨v :: V, by rw [mapM_cons', hv, hV]; rfl⟩

end double
end PurePredict
