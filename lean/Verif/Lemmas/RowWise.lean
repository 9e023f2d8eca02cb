import Verif.Spec.Batch
import Verif.Lemmas.Basic
/-
Row-wise processing: two computations agree on success (`OkEq`), and what it means for an
estimator to treat every record on its own.
-/
namespace PurePredict
variable {α β γ : Type}

/-- Same results; when they raise, the exception may differ. -/
def OkEq (a b : Py α) : Prop := ∀ c, a = .ok c ↔ b = .ok c

theorem OkEq.refl (a : Py α) : OkEq a a := fun _ => Iff.rfl
theorem OkEq.symm {a b : Py α} (h : OkEq a b) : OkEq b a := fun c => (h c).symm
theorem OkEq.trans {a b c : Py α} (h : OkEq a b) (h' : OkEq b c) : OkEq a c :=
  fun d => (h d).trans (h' d)
theorem OkEq.of_eq {a b : Py α} (h : a = b) : OkEq a b := h ▸ OkEq.refl a

theorem OkEq.bind {a a' : Py α} {f f' : α → Py β} (h : OkEq a a')
    (hf : ∀ x, a = .ok x → OkEq (f x) (f' x)) : OkEq (a >>= f) (a' >>= f') := by
  intro c
  rw [bind_ok_iff, bind_ok_iff]
  constructor
  · rintro ⟨x, hx, hc⟩; exact ⟨x, (h x).1 hx, (hf x hx c).1 hc⟩
  · rintro ⟨x, hx, hc⟩
    have hx' := (h x).2 hx
    exact ⟨x, hx', (hf x hx' c).2 hc⟩

theorem OkEq.mapM {f g : α → Py β} {l : List α} (h : ∀ x ∈ l, OkEq (f x) (g x)) :
    OkEq (l.mapM f) (l.mapM g) := by
  intro c
  rw [mapM_ok_iff, mapM_ok_iff]
  induction l generalizing c with
  | nil => cases c <;> simp
  | cons x l ih =>
    cases c with
    | nil => simp
    | cons y ys =>
      rw [List.forall₂_cons, List.forall₂_cons, h x (by simp) y,
        ih (fun z hz => h z (by simp [hz]))]

/-- Two passes over the rows succeed with the same result as one pass. -/
theorem OkEq.mapM_comp (f : α → Py β) (g : β → Py γ) (l : List α) :
    OkEq (l.mapM f >>= fun ys => ys.mapM g) (l.mapM fun x => f x >>= g) := by
  intro c
  rw [bind_ok_iff]
  constructor
  · rintro ⟨ys, h1, h2⟩; exact mapM_bind_mapM h1 h2
  · intro h
    induction l generalizing c with
    | nil => exact ⟨[], by simp, by simpa using h⟩
    | cons x l ih =>
      obtain ⟨z, zs, hz, hzs, rfl⟩ := mapM_cons_ok.1 h
      obtain ⟨y, hy, hyz⟩ := bind_ok_iff.1 hz
      obtain ⟨ys, h1, h2⟩ := ih zs hzs
      exact ⟨y :: ys, mapM_cons_ok.2 ⟨y, ys, hy, h1, rfl⟩, mapM_cons_ok.2 ⟨z, zs, hyz, h2, rfl⟩⟩

theorem OkEq.mapM_map (f : α → Py β) (g : β → γ) (l : List α) :
    OkEq (l.mapM f >>= fun ys => .ok (ys.map g)) (l.mapM fun x => do return g (← f x)) := by
  have := OkEq.mapM_comp f (fun y => (Except.ok (g y) : Py γ)) l
  simpa using this

/-- If processing `A`, `B` and their concatenation is row-wise with the same row function, the
result of the concatenation is the concatenation of the results. -/
theorem batch_append {A B : List α} {g : α → Py β} {fA fB fAB : Py (List β)}
    (hA : OkEq fA (A.mapM g)) (hB : OkEq fB (B.mapM g)) (hAB : OkEq fAB ((A ++ B).mapM g))
    (c : List β) :
    fAB = .ok c ↔ ∃ a b, fA = .ok a ∧ fB = .ok b ∧ c = a ++ b := by
  rw [hAB c, mapM_append', bind_ok_iff]
  constructor
  · rintro ⟨a, ha, h⟩
    obtain ⟨b, hb, h⟩ := bind_ok_iff.1 h
    exact ⟨a, b, (hA a).2 ha, (hB b).2 hb, by simpa using h.symm⟩
  · rintro ⟨a, b, ha, hb, rfl⟩
    exact ⟨a, (hA a).1 ha, by simp [(hB b).1 hb]⟩


theorem forall₂_congr_mem {α β : Type} {R S : α → β → Prop} {l : List α}
    (h : ∀ x ∈ l, ∀ y, R x y ↔ S x y) (c : List β) : List.Forall₂ R l c ↔ List.Forall₂ S l c := by
  induction l generalizing c with
  | nil => cases c <;> simp
  | cons x l ih =>
    cases c with
    | nil => simp
    | cons y c =>
      rw [List.forall₂_cons, List.forall₂_cons, h x (by simp), ih fun z hz => h z (by simp [hz])]

/-- Row-wise functions are batch independent. -/
theorem BatchIndependent.of_rowwise {ρ β : Type} {P : ρ → Prop} {f : List ρ → Py (List β)}
    {g : ρ → Py β} (h : ∀ A : List ρ, A ≠ [] → (∀ r ∈ A, P r) → OkEq (f A) (A.mapM g)) :
    Spec.BatchIndependent P f := by
  constructor
  · intro A B hA hB hPA hPB c
    refine batch_append (h A hA hPA) (h B hB hPB) (h (A ++ B) (by simp [hA]) ?_) c
    intro r hr
    rcases List.mem_append.1 hr with hr | hr
    · exact hPA r hr
    · exact hPB r hr
  · intro A hA hP c
    rw [h A hA hP c, mapM_ok_iff]
    apply forall₂_congr_mem
    intro r hr y
    rw [h [r] (by simp) (by simpa using hP r hr) [y], mapM_ok_iff]
    simp

/-- The result for the only record of a one-record batch. -/
def single {β : Type} (r : Py (List β)) : Py β := do
  match ← r with
  | [y] => .ok y
  | _ => .error .typeError

theorem single_ok {β : Type} {r : Py (List β)} {y : β} : single r = .ok y ↔ r = .ok [y] := by
  cases r with
  | error e => simp [single]
  | ok l =>
    match l with
    | [] => simp [single]
    | [a] => simp [single]
    | a :: b :: l => simp [single]

/-- Batch independent functions are row-wise. -/
theorem Spec.BatchIndependent.rowwise {ρ β : Type} {P : ρ → Prop} {f : List ρ → Py (List β)}
    (h : Spec.BatchIndependent P f) {A : List ρ} (hA : A ≠ []) (hP : ∀ r ∈ A, P r) :
    OkEq (f A) (A.mapM fun r => single (f [r])) := by
  intro c
  rw [h.2 A hA hP c, mapM_ok_iff]
  simp only [single_ok]

/-- Post-processing the result record by record preserves batch independence. -/
theorem Spec.BatchIndependent.bind_mapM {ρ β γ : Type} {P : ρ → Prop} {f : List ρ → Py (List β)}
    (h : Spec.BatchIndependent P f) {k : List β → Py (List γ)} {g : β → Py γ}
    (hk : ∀ A, A ≠ [] → (∀ r ∈ A, P r) → ∀ ys, f A = .ok ys → OkEq (k ys) (ys.mapM g)) :
    Spec.BatchIndependent P fun A => f A >>= k := by
  apply BatchIndependent.of_rowwise (g := fun r => single (f [r]) >>= g)
  intro A hA hP
  refine OkEq.trans (OkEq.bind (h.rowwise hA hP) fun ys hys => hk A hA hP ys hys) ?_
  exact OkEq.mapM_comp _ _ _

theorem Spec.BatchIndependent.congr {ρ β : Type} {P : ρ → Prop} {f f' : List ρ → Py (List β)}
    (h : Spec.BatchIndependent P f)
    (he : ∀ A, A ≠ [] → (∀ r ∈ A, P r) → OkEq (f' A) (f A)) : Spec.BatchIndependent P f' :=
  BatchIndependent.of_rowwise fun A hA hP => (he A hA hP).trans (h.rowwise hA hP)

/-- Successful results entry by entry. -/
theorem Spec.BatchIndependent.ok_range_iff {ρ β : Type} {P : ρ → Prop} {f : List ρ → Py (List β)}
    (h : Spec.BatchIndependent P f) {A : List ρ} (hA : A ≠ []) (hP : ∀ r ∈ A, P r)
    {n : Nat} (hn : n = A.length) {y : Nat → β} :
    f A = .ok ((List.range n).map y) ↔ ∀ i (hi : i < A.length), f [A[i]] = .ok [y i] := by
  subst hn
  rw [h.2 A hA hP, List.forall₂_iff_get]
  constructor
  · rintro ⟨_, h2⟩ i hi
    simpa using h2 i hi (by simpa using hi)
  · intro h2
    refine ⟨by simp, fun i h1 _ => ?_⟩
    simpa using h2 i h1

/-- A function that always raises is (vacuously) batch independent. -/
theorem BatchIndependent.of_error {ρ β : Type} {P : ρ → Prop} {f : List ρ → Py (List β)}
    (h : ∀ A : List ρ, A ≠ [] → (∀ r ∈ A, P r) → ∃ e, f A = .error e) :
    Spec.BatchIndependent P f := by
  apply BatchIndependent.of_rowwise (g := fun _ => (.error .typeError : Py β))
  intro A hA hP c
  obtain ⟨e, he⟩ := h A hA hP
  obtain ⟨r, hr⟩ := List.exists_mem_of_ne_nil A hA
  obtain ⟨e', he'⟩ := mapM_error (f := fun _ : ρ => (.error .typeError : Py β)) hr rfl
  rw [he, he']
  simp

end PurePredict
