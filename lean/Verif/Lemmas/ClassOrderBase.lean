import Verif.Spec.ClassOrder
import Verif.Props.C104
/-
Rows and columns in another order.
-/
namespace PurePredict
open Spec
variable {α β γ δ : Type}

/-! ### Two runs that fail together -/

section
variable {R : α → β → Prop} {S : γ → δ → Prop}

theorem Spec.Alongside.bind {a : Py α} {b : Py β} {f : α → Py γ} {g : β → Py δ} (h : Alongside R a b)
    (hf : ∀ x y, R x y → Alongside S (f x) (g y)) : Alongside S (a >>= f) (b >>= g) := by
  cases h with
  | fail => exact .fail
  | done h => exact hf _ _ h

theorem Spec.Alongside.mapM {l : List α} {l' : List β} {f : α → Py γ} {g : β → Py δ} (h : List.Forall₂ R l l')
    (hf : ∀ x y, R x y → Alongside S (f x) (g y)) : Alongside (List.Forall₂ S) (l.mapM f) (l'.mapM g) := by
  induction h with
  | nil => exact .done .nil
  | cons h _ ih =>
    rw [mapM_cons', mapM_cons']
    exact (hf _ _ h).bind fun u v huv => ih.bind fun us vs hus => .done (.cons huv hus)

theorem Spec.Alongside.mono {R' : α → β → Prop} {a : Py α} {b : Py β} (h : Alongside R a b) (hR : ∀ x y, R x y → R' x y) : Alongside R' a b := by
  cases h with
  | fail => exact .fail
  | done h => exact .done (hR _ _ h)

theorem Spec.Alongside.same (p : Py α) : Alongside Eq p p := by
  cases p with
  | error e => exact .fail
  | ok a => exact .done rfl

/-- the same computation first -/
theorem Spec.Alongside.after (p : Py α) {f : α → Py γ} {g : α → Py δ} (h : ∀ x, p = .ok x → Alongside S (f x) (g x)) : Alongside S (p >>= f) (p >>= g) := by
  cases hp : p with
  | error e => exact .fail
  | ok a => exact h a hp
end

/-! ### Rearranged lists -/

theorem Spec.Rearranged.mapM {w : Nat} {π : List Nat} (hp : π.Perm (List.range w)) {x y : List α} (h : Rearranged w π x y) (f : α → Py β) :
    Alongside (Rearranged w π) (x.mapM f) (y.mapM f) := by
  cases hx : x.mapM f with
  | error e =>
    obtain ⟨a, ha, he⟩ := mapM_eq_error hx
    obtain ⟨e', h'⟩ := mapM_error ((h.perm hp).mem_iff.2 ha) he
    rw [h']
    exact .fail
  | ok bs =>
    have hb := mapM_ok_iff.1 hx
    have : ∃ cs, y.mapM f = .ok cs ∧ List.Forall₂ (fun i c => bs[i]? = some c) π cs := by
      obtain ⟨-, h⟩ := h
      clear hp
      induction h with
      | nil => exact ⟨[], rfl, .nil⟩
      | @cons i a π y h1 _ ih =>
        obtain ⟨cs, e, hc⟩ := ih
        obtain ⟨hi, hxi⟩ := List.getElem?_eq_some_iff.1 h1
        have hi' : i < bs.length := by rw [mapM_length hx]; exact hi
        have ha := mapM_getElem hx i hi hi'
        rw [hxi] at ha
        exact ⟨bs[i] :: cs, by rw [mapM_cons', ha, e]; rfl, .cons (List.getElem?_eq_getElem hi') hc⟩
    obtain ⟨cs, e, hc⟩ := this
    rw [e]
    exact .done ⟨by rw [mapM_length hx]; exact h.1, hc⟩

theorem Spec.Rearranged.len {w : Nat} {π : List Nat} (hp : π.Perm (List.range w)) {x y : List α} (h : Rearranged w π x y) : y.length = w := by
  rw [h.length, hp.length_eq, List.length_range]

theorem rearranged_range {w : Nat} {π : List Nat} (hp : π.Perm (List.range w)) : Rearranged w π (List.range w) π := by
  refine ⟨List.length_range, ?_⟩
  have : ∀ i ∈ π, i < w := fun i hi => List.mem_range.1 (hp.mem_iff.1 hi)
  clear hp
  induction π with
  | nil => exact .nil
  | cons i π ih => exact .cons (List.getElem?_range (this i (by simp))) (ih fun j hj => this j (by simp [hj]))

theorem mapM_range_get (l : List α) (f : α → Py β) (g : Nat → Py β) (h : ∀ j a, l[j]? = some a → g j = f a) : (List.range l.length).mapM g = l.mapM f := by
  induction l generalizing g with
  | nil => rfl
  | cons a l ih =>
    rw [List.length_cons, List.range_succ_eq_map, mapM_cons', mapM_cons', mapM_map', h 0 a rfl, ih (fun j => g (j + 1)) fun j b hb => h (j + 1) b (by simpa using hb)]

/-- computed position by position, at the original positions -/
theorem mapM_range_reordered {w : Nat} {π : List Nat} (hp : π.Perm (List.range w)) (f g : Nat → Py β) (h : ∀ j i, π[j]? = some i → g j = f i) :
    Alongside (Rearranged w π) ((List.range w).mapM f) ((List.range w).mapM g) := by
  have e : (List.range w).mapM g = π.mapM f := by
    rw [← mapM_range_get π f g h, hp.length_eq, List.length_range]
  rw [e]
  exact (rearranged_range hp).mapM hp f

theorem pyGet_reordered {w : Nat} {π : List Nat} {x y : List α} (h : Rearranged w π x y) {j i : Nat} (hj : π[j]? = some i) : pyGet y (j : Int) = pyGet x (i : Int) := by
  obtain ⟨hj', rfl⟩ := List.getElem?_eq_some_iff.1 hj
  have h3 : j < y.length := by rw [h.length]; exact hj'
  have hx := forall₂_get h.2 hj' h3
  obtain ⟨hi, he⟩ := List.getElem?_eq_some_iff.1 hx
  rw [pyGet_lt h3, pyGet_lt hi, he]

theorem minLen_le_mem {A : List (List α)} {r : List α} (h : r ∈ A) : minLen A ≤ r.length := by
  induction A with
  | nil => simp at h
  | cons a A ih =>
    cases A with
    | nil => simp at h; subst h; exact Nat.le_refl _
    | cons b A =>
      show min a.length (minLen (b :: A)) ≤ r.length
      rcases List.mem_cons.1 h with rfl | h
      · exact Nat.min_le_left _ _
      · exact (Nat.min_le_right _ _).trans (ih h)

theorem minLen_mem {A : List (List α)} (h : A ≠ []) : ∃ r ∈ A, minLen A = r.length := by
  induction A with
  | nil => exact absurd rfl h
  | cons a A ih =>
    cases A with
    | nil => exact ⟨a, by simp, rfl⟩
    | cons b A =>
      obtain ⟨r, hr, e⟩ := ih (by simp)
      show ∃ r ∈ a :: b :: A, min a.length (minLen (b :: A)) = r.length
      rcases Nat.le_total a.length (minLen (b :: A)) with h | h
      · exact ⟨a, by simp, Nat.min_eq_left h⟩
      · exact ⟨r, List.mem_cons_of_mem _ hr, (Nat.min_eq_right h).trans e⟩

theorem minLen_perm {A B : List (List α)} (h : A.Perm B) : minLen A = minLen B := by
  by_cases hA : A = []
  · subst hA
    rw [h.nil_eq]
  · have hB : B ≠ [] := fun e => hA (by subst e; exact h.eq_nil)
    obtain ⟨r, hr, e1⟩ := minLen_mem hA
    obtain ⟨s, hs, e2⟩ := minLen_mem hB
    refine Nat.le_antisymm ?_ ?_
    · rw [e2]; exact minLen_le_mem (h.mem_iff.2 hs)
    · rw [e1]; exact minLen_le_mem (h.mem_iff.1 hr)

/-- columns in another order: rows in another order -/
theorem zipStar_reordered {w : Nat} {π : List Nat} (hp : π.Perm (List.range w)) {A B : List (List α)} (h : Rearranged w π A B) :
    List.Forall₂ (Rearranged w π) (zipStar A) (zipStar B) := by
  unfold zipStar
  rw [minLen_perm (h.perm hp)]
  have hlt : ∀ j ∈ List.range (minLen A), ∀ r ∈ A, j < r.length := fun j hj r hr =>
    Nat.lt_of_lt_of_le (List.mem_range.1 hj) (minLen_le_mem hr)
  have key : ∀ j ∈ List.range (minLen A), Rearranged w π (A.filterMap fun r => r[j]?) (B.filterMap fun r => r[j]?) := by
    intro j hj
    have e : ∀ {l : List (List α)} (hl : ∀ r ∈ l, j < r.length) (i : Nat), (l.filterMap fun r => r[j]?)[i]? = l[i]?.bind fun r => r[j]? := by
      intro l
      induction l with
      | nil => intro _ i; rfl
      | cons r l ih =>
        intro hl i
        rw [List.filterMap_cons, List.getElem?_eq_getElem (hl r (by simp))]
        cases i with
        | zero => simp [hl r (by simp)]
        | succ i => exact ih (fun s hs => hl s (by simp [hs])) i
    have el : ∀ {l : List (List α)} (hl : ∀ r ∈ l, j < r.length), (l.filterMap fun r => r[j]?).length = l.length := by
      intro l
      induction l with
      | nil => intro _; rfl
      | cons r l ih =>
        intro hl
        rw [List.filterMap_cons, List.getElem?_eq_getElem (hl r (by simp))]
        simp [ih fun s hs => hl s (by simp [hs])]
    have hA := hlt j hj
    have hB : ∀ r ∈ B, j < r.length := fun r hr => hA r (h.mem hr)
    refine ⟨by rw [el hA]; exact h.1, ?_⟩
    obtain ⟨-, h⟩ := h
    clear hp hlt hj
    induction h with
    | nil => exact .nil
    | @cons i b π B h1 _ ih =>
      rw [List.filterMap_cons, List.getElem?_eq_getElem (hB b (by simp))]
      refine .cons ?_ (ih fun r hr => hB r (by simp [hr]))
      rw [e hA, h1]
      exact List.getElem?_eq_getElem (hB b (by simp))
  revert key
  generalize List.range (minLen A) = l
  intro key
  induction l with
  | nil => exact .nil
  | cons j l ih => exact .cons (key j (by simp)) (ih fun i hi => key i (by simp [hi]))

/-! ### Matrices -/

variable {w : Nat} {π : List Nat}

/-- the rows of a matrix in another order of the columns -/
abbrev Rows (w : Nat) (π : List Nat) : List (List α) → List (List α) → Prop := List.Forall₂ (Rearranged w π)

theorem rows_rect {M N : List (List α)} (h : Rows w π M N) : Rect w M := by
  induction h with
  | nil => exact fun r hr => by simp at hr
  | cons h _ ih =>
    intro r hr
    rcases List.mem_cons.1 hr with rfl | hr
    · exact h.1
    · exact ih r hr

theorem rows_rect' (hp : π.Perm (List.range w)) {M N : List (List α)} (h : Rows w π M N) : Rect w N := by
  induction h with
  | nil => exact fun r hr => by simp at hr
  | cons h _ ih =>
    intro r hr
    rcases List.mem_cons.1 hr with rfl | hr
    · exact h.len hp
    · exact ih r hr

theorem rows_zipWith {M N : List (List α)} {A B : List (List β)} (f : α → β → γ) (h : Rows w π M N) (h' : Rows w π A B) :
    Rows w π (M.zipWith (List.zipWith f) A) (N.zipWith (List.zipWith f) B) := by
  induction h generalizing A B with
  | nil => simp
  | cons h _ ih =>
    cases h' with
    | nil => simp
    | cons h1 h2 => exact .cons (h.zipWith h1 f) (ih h2)

theorem width_rows (hp : π.Perm (List.range w)) {M N : List (List Ex)} (h : Rows w π M N) : (Arr.ofMat N).width = (Arr.ofMat M).width := by
  by_cases hM : M = []
  · subst hM
    cases h
    rfl
  · have hN : N ≠ [] := by rintro rfl; cases h; exact hM rfl
    rw [width_ofMat hM (rows_rect h), width_ofMat hN (rows_rect' hp h)]

theorem shape_rows (hp : π.Perm (List.range w)) {M N : List (List Ex)} (h : Rows w π M N) : (Arr.ofMat N).shape = (Arr.ofMat M).shape := by
  by_cases hM : M = []
  · subst hM
    cases h
    rfl
  · have hN : N ≠ [] := by rintro rfl; cases h; exact hM rfl
    rw [shape_ofMat hM (rows_rect h), shape_ofMat hN (rows_rect' hp h), h.length_eq]

theorem operate2d_shapes {F : Type} [Arith F] (A B : List (List F)) (f : F → F → F) : operate2d (.ofMat A) (.ofMat B) f =
    ((Arr.ofMat A).shape >>= fun a => (Arr.ofMat B).shape >>= fun b => if a != b then .error .valueError else .ok (A.zipWith (List.zipWith f) B)) := by
  simp only [operate2d, issparse_ofMat, Bool.or_self, Bool.false_eq_true, if_false, rows_ofMat, py_ok_bind]
  congr 1
  funext a
  congr 1
  funext b
  split
  · rfl
  · induction A generalizing B with
    | nil => rfl
    | cons r A ih =>
      cases B with
      | nil => rfl
      | cons s B =>
        simp only [List.map_cons, List.zip_cons_cons, mapM_cons', List.zipWith_cons_cons]
        rw [ih B]
        rfl

theorem operate2d_rows (hp : π.Perm (List.range w)) {A A' B B' : List (List Ex)} (h : Rows w π A A') (h' : Rows w π B B') (f : Ex → Ex → Ex) :
    Alongside (Rows w π) (operate2d (.ofMat A) (.ofMat B) f) (operate2d (.ofMat A') (.ofMat B') f) := by
  rw [operate2d_shapes, operate2d_shapes, shape_rows hp h, shape_rows hp h']
  refine .after _ fun a _ => .after _ fun b _ => ?_
  split
  · exact .fail
  · exact .done (rows_zipWith f h h')

theorem apply2d_rows (hp : π.Perm (List.range w)) {A B : List (List Ex)} (h : Rows w π A B) (f : Ex → Py Ex) :
    Alongside (Rows w π) (apply2d (.ofMat A) f) (apply2d (.ofMat B) f) := by
  rw [apply2d_ofMat, apply2d_ofMat]
  exact .mapM h fun x y hxy => hxy.mapM hp f

theorem mapRows (hp : π.Perm (List.range w)) {A B : List (List Ex)} (h : Rows w π A B) (f : Ex → Py Ex) :
    Alongside (Rows w π) (A.mapM fun a => a.mapM f) (B.mapM fun a => a.mapM f) :=
  .mapM h fun x y hxy => hxy.mapM hp f

/-! ### Links -/

theorem sum_reordered (hp : π.Perm (List.range w)) {x y : List Ex} (h : Rearranged w π x y) : pySum y = pySum x := sum_perm anyOrder_exact (h.perm hp)

theorem sfmax_reordered (hp : π.Perm (List.range w)) {x y : List Ex} (h : Rearranged w π x y) : Alongside (Rearranged w π) (sfmax x) (sfmax y) := by
  refine (h.mapM hp _).bind fun a b hab => ?_
  rw [sum_reordered hp hab]
  exact hab.mapM hp _

theorem normRow_reordered (hp : π.Perm (List.range w)) {x y : List Ex} (h : Rearranged w π x y) :
    Alongside (Rearranged w π) (Linear.normRow x) (Linear.normRow y) := by
  unfold Linear.normRow
  rw [sum_reordered hp h]
  exact h.mapM hp _

theorem logNormalize_reordered (hp : π.Perm (List.range w)) {x y : List Ex} (h : Rearranged w π x y) :
    Alongside (Rearranged w π) (logNormalize x) (logNormalize y) := by
  unfold logNormalize
  refine (h.mapM hp _).bind fun a b hab => ?_
  rw [sum_reordered hp hab]
  exact .after _ fun l _ => .done (h.map _)

end PurePredict
