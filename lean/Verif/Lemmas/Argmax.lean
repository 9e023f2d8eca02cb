import Verif.Lemmas.XR
/-
The built-in `max` and `l.index(max(l))`.
-/
namespace PurePredict

namespace Spec
/-- `i` is the first position of a maximal element of `l`. -/
def IsFirstMax {α : Type} [LinearOrder α] (l : List α) (i : Nat) : Prop :=
  ∃ h : i < l.length, (∀ j (hj : j < l.length), l[j] ≤ l[i]) ∧
    ∀ j (hj : j < i), l[j]'(hj.trans h) < l[i]

theorem IsFirstMax.unique {α : Type} [LinearOrder α] {l : List α} {i j : Nat}
    (hi : IsFirstMax l i) (hj : IsFirstMax l j) : i = j := by
  obtain ⟨hi1, hi2, hi3⟩ := hi
  obtain ⟨hj1, hj2, hj3⟩ := hj
  rcases lt_trichotomy i j with h | h | h
  · exact absurd (hj3 i h) (not_lt.2 (hi2 j hj1))
  · exact h
  · exact absurd (hi3 j h) (not_lt.2 (hj2 i hi1))
end Spec

open Spec

variable {F : Type} [Arith F] {α : Type} [LinearOrder α]

/-- The Python comparisons on the elements of `l` are those of a linear order under `key`. -/
structure OrdOn (key : F → α) (l : List F) : Prop where
  lt : ∀ x ∈ l, ∀ y ∈ l, (x <ₚ y) = decide (key x < key y)
  eq : ∀ x ∈ l, ∀ y ∈ l, (x ==ₚ y) = decide (key x = key y)

/-- Invariant of the `max` scan: the candidate is the first maximum of the prefix. -/
theorem maxScan_spec (key : F → α) (done rest : List F) (b : Nat)
    (h : OrdOn key (done ++ rest)) (hb : b < done.length)
    (hmax : IsFirstMax (done.map key) b) :
    ∃ j, ∃ hj : j < (done ++ rest).length,
      maxScan rest done.length (b, done[b]) = (j, (done ++ rest)[j]) ∧
      IsFirstMax ((done ++ rest).map key) j := by
  induction rest generalizing done b with
  | nil =>
    refine ⟨b, by simpa using hb, ?_, by simpa using hmax⟩
    simp [maxScan]
  | cons x rest ih =>
    have happ : done ++ x :: rest = (done ++ [x]) ++ rest := by simp
    have hlt : (done[b] <ₚ x) = decide (key done[b] < key x) :=
      h.lt _ (by simp) _ (by simp)
    obtain ⟨hm1, hm2, hm3⟩ := hmax
    simp only [maxScan]
    by_cases hc : key done[b] < key x
    · have hif : (if (done[b] <ₚ x) = true then (done.length, x) else (b, done[b]))
          = (done.length, x) := by rw [hlt, if_pos (by simpa using hc)]
      have hlen : done.length < (done ++ [x]).length := by simp
      have hx : (done ++ [x])[done.length] = x := by simp
      have := ih (done ++ [x]) done.length (by rwa [← happ]) hlen (by
        refine ⟨by simp, ?_, ?_⟩
        · intro j hj
          simp only [List.getElem_map, hx]
          have hj' : j < done.length + 1 := by simpa using hj
          by_cases hjd : j < done.length
          · rw [List.getElem_append_left hjd]
            have := hm2 j (by simpa using hjd)
            simp only [List.getElem_map] at this
            exact (lt_of_le_of_lt this hc).le
          · have : j = done.length := by omega
            subst this
            rw [hx]
        · intro j hj
          simp only [List.getElem_map, hx]
          rw [List.getElem_append_left hj]
          have := hm2 j (by simpa using hj)
          simp only [List.getElem_map] at this
          exact lt_of_le_of_lt this hc)
      obtain ⟨j, hj, h1, h2⟩ := this
      refine ⟨j, by rw [happ]; exact hj, ?_, by rw [happ]; exact h2⟩
      rw [hif]
      simp only [hx, List.length_append, List.length_cons, List.length_nil, zero_add] at h1
      rw [h1]
      simp
    · have hif : (if (done[b] <ₚ x) = true then (done.length, x) else (b, done[b]))
          = (b, done[b]) := by rw [hlt, if_neg (by simpa using hc)]
      have hb' : b < (done ++ [x]).length := by simp; omega
      have hbx : (done ++ [x])[b] = done[b] := List.getElem_append_left hb
      have := ih (done ++ [x]) b (by rwa [← happ]) hb' (by
        refine ⟨by simp; omega, ?_, ?_⟩
        · intro j hj
          simp only [List.getElem_map, hbx]
          have hj' : j < done.length + 1 := by simpa using hj
          by_cases hjd : j < done.length
          · rw [List.getElem_append_left hjd]
            have := hm2 j (by simpa using hjd)
            simpa only [List.getElem_map] using this
          · have : j = done.length := by omega
            subst this
            simpa using not_lt.1 hc
        · intro j hj
          simp only [List.getElem_map, hbx]
          have hjd : j < done.length := by omega
          rw [List.getElem_append_left hjd]
          have := hm3 j hj
          simpa only [List.getElem_map] using this)
      obtain ⟨j, hj, h1, h2⟩ := this
      refine ⟨j, by rw [happ]; exact hj, ?_, by rw [happ]; exact h2⟩
      rw [hif]
      simp only [hbx, List.length_append, List.length_cons, List.length_nil, zero_add] at h1
      rw [h1]
      simp

theorem OrdOn.map_id {key : F → α} {l : List F} (h : OrdOn key l) : OrdOn key ([] ++ l) := by
  simpa using h

theorem pyMaxPos_spec (key : F → α) {l : List F} (h : OrdOn key l) (hl : l ≠ []) :
    ∃ j, ∃ hj : j < l.length, pyMaxPos l = .ok (j, l[j]) ∧ IsFirstMax (l.map key) j := by
  cases l with
  | nil => exact absurd rfl hl
  | cons x xs =>
    have := maxScan_spec key [x] xs 0 (by simpa using h) (by simp) (by
      refine ⟨by simp, ?_, ?_⟩
      · intro j hj
        have : j = 0 := by simpa using hj
        subst this; rfl
      · intro j hj; omega)
    obtain ⟨j, hj, h1, h2⟩ := this
    refine ⟨j, by simpa using hj, ?_, by simpa using h2⟩
    simp only [List.length_cons, List.length_nil, zero_add, List.getElem_cons_zero] at h1
    simp only [pyMaxPos, h1]
    simp

/-- `l.index(max(l))` returns the first position of a maximal element. -/
theorem argmax_spec (key : F → α) {l : List F} (h : OrdOn key l) (hl : l ≠ []) :
    ∃ i, argmax l = .ok i ∧ IsFirstMax (l.map key) i := by
  obtain ⟨j, hj, h1, h2⟩ := pyMaxPos_spec key h hl
  refine ⟨j, ?_, h2⟩
  simp only [argmax, h1, py_ok_bind]
  have hnone : (l.take j).findIdx? (fun x => x ==ₚ l[j]) = none := by
    rw [List.findIdx?_eq_none_iff]
    intro x hx
    obtain ⟨i, hi, rfl⟩ := List.getElem_of_mem hx
    have hij : i < j := by
      have : i < (l.take j).length := hi
      rw [List.length_take] at this; omega
    rw [List.getElem_take, h.eq _ (List.getElem_mem _) _ (List.getElem_mem _)]
    obtain ⟨_, _, hlt⟩ := h2
    have := hlt i hij
    simp only [List.getElem_map] at this
    simpa using ne_of_lt this
  rw [hnone]
  rfl

theorem argmax_iff (key : F → α) {l : List F} (h : OrdOn key l) {i : Nat} :
    argmax l = .ok i ↔ IsFirstMax (l.map key) i := by
  constructor
  · intro hi
    have hl : l ≠ [] := by rintro rfl; simp [argmax, pyMaxPos] at hi
    obtain ⟨j, hj, hm⟩ := argmax_spec key h hl
    rw [hj] at hi
    cases hi
    exact hm
  · intro hm
    have hl : l ≠ [] := by rintro rfl; obtain ⟨h, -⟩ := hm; simp at h
    obtain ⟨j, hj, hm'⟩ := argmax_spec key h hl
    rw [hj, hm'.unique hm]

theorem pyMax_spec (key : F → α) {l : List F} (h : OrdOn key l) (hl : l ≠ []) :
    ∃ m ∈ l, pyMax l = .ok m ∧ ∀ x ∈ l, key x ≤ key m := by
  obtain ⟨j, hj, h1, h2⟩ := pyMaxPos_spec key h hl
  refine ⟨l[j], List.getElem_mem _, by simp [pyMax, h1], ?_⟩
  intro x hx
  obtain ⟨i, hi, rfl⟩ := List.getElem_of_mem hx
  obtain ⟨_, hle, _⟩ := h2
  have := hle i (by simpa using hi)
  simpa only [List.getElem_map] using this

theorem argmax_nil : argmax ([] : List F) = .error .valueError := rfl

theorem argmax_lt {l : List F} {i : Nat} (h : argmax l = .ok i) : i < l.length := by
  have hscan : ∀ (xs : List F) (pos : Nat) (b : Nat × F), b.1 < pos →
      (maxScan xs pos b).1 < pos + xs.length := by
    intro xs
    induction xs with
    | nil => intro pos b hb; simpa [maxScan] using hb
    | cons x xs ih =>
      intro pos b hb
      simp only [maxScan, List.length_cons]
      have := ih (pos + 1) (if (b.2 <ₚ x) = true then (pos, x) else b) (by split <;> first | (simp; done) | (simp; omega))
      omega
  cases l with
  | nil => simp [argmax_nil] at h
  | cons x xs =>
    simp only [argmax, pyMaxPos, py_ok_bind] at h
    have hlt := hscan xs 1 (0, x) (by simp)
    generalize hm : maxScan xs 1 (0, x) = jm at h hlt
    obtain ⟨j, m⟩ := jm
    simp only at h hlt
    split at h
    · rename_i i' hi
      simp only [py_pure, Except.ok.injEq] at h
      subst h
      have := (List.findIdx?_eq_some_iff_getElem.1 hi).1
      rw [List.length_take] at this
      omega
    · simp only [py_pure, Except.ok.injEq] at h
      subst h
      simp only [List.length_cons]; omega

theorem argmax_total {l : List F} (h : l ≠ []) : ∃ i, argmax l = .ok i := by
  cases l with
  | nil => exact absurd rfl h
  | cons x xs =>
    simp only [argmax, pyMaxPos, py_ok_bind]
    split <;> exact ⟨_, rfl⟩

namespace XR
variable {fp : FP}

/-- Order embedding of the non-NaN floats. -/
noncomputable def toE : XR fp → EReal
  | fin r => (r : EReal)
  | pinf => ⊤
  | ninf => ⊥
  | nan => ⊥

theorem ordOn_toE {l : List (XR fp)} (h : XR.nan ∉ l) : OrdOn toE l := by
  constructor
  · intro x hx y hy
    cases x <;> cases y <;> simp_all [Arith.lt, XR.lt, toE]
  · intro x hx y hy
    cases x <;> cases y <;> simp_all [Arith.eq, XR.eq, toE]

end XR

/-- Real value of a finite float. -/
noncomputable def XR.toReal {fp : FP} : XR fp → ℝ
  | fin r => r
  | _ => 0

theorem ordOn_fins (l : List ℝ) : OrdOn (XR.toReal) (fins l) := by
  constructor
  · intro x hx y hy
    obtain ⟨a, _, rfl⟩ := List.mem_map.1 hx
    obtain ⟨b, _, rfl⟩ := List.mem_map.1 hy
    exact decide_eq_decide.2 Iff.rfl
  · intro x hx y hy
    obtain ⟨a, _, rfl⟩ := List.mem_map.1 hx
    obtain ⟨b, _, rfl⟩ := List.mem_map.1 hy
    exact decide_eq_decide.2 Iff.rfl

@[simp] theorem map_toReal_fins (l : List ℝ) : (fins l).map XR.toReal = l := by
  rw [fins, List.map_map]
  exact List.map_id l

/-- `l.index(max(l))` on finite reals. -/
theorem argmax_fins {l : List ℝ} {i : Nat} :
    argmax (fins l) = .ok i ↔ IsFirstMax l i := by
  rw [argmax_iff XR.toReal (ordOn_fins l), map_toReal_fins]

end PurePredict
