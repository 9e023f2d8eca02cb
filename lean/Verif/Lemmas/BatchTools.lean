import Verif.Lemmas.TreeBatch
import Verif.Lemmas.Mat
/-
Combinators for batch independence: pairs, columns, row maps before the batch, constants.
-/
namespace PurePredict
open Spec
variable {ρ β γ δ : Type}

theorem forall₂_single_zip {f : List ρ → Py (List β)} {g : List ρ → Py (List γ)} {A : List ρ}
    {p : List β} {q : List γ}
    (h1 : List.Forall₂ (fun r y => f [r] = .ok [y]) A p)
    (h2 : List.Forall₂ (fun r y => g [r] = .ok [y]) A q) :
    List.Forall₂ (fun r (y : β × γ) => f [r] = .ok [y.1] ∧ g [r] = .ok [y.2]) A (p.zip q) := by
  induction h1 generalizing q with
  | nil => cases h2; simp
  | cons h _ ih =>
    cases h2 with
    | cons h' h2 => exact List.Forall₂.cons ⟨h, h'⟩ (ih h2)

theorem forall₂_single_unzip {f : List ρ → Py (List β)} {g : List ρ → Py (List γ)} {A : List ρ}
    {c : List (β × γ)}
    (h : List.Forall₂ (fun r (y : β × γ) => f [r] = .ok [y.1] ∧ g [r] = .ok [y.2]) A c) :
    List.Forall₂ (fun r y => f [r] = .ok [y]) A (c.map Prod.fst) ∧
    List.Forall₂ (fun r y => g [r] = .ok [y]) A (c.map Prod.snd) := by
  induction h with
  | nil => simp
  | cons h _ ih => exact ⟨List.Forall₂.cons h.1 ih.1, List.Forall₂.cons h.2 ih.2⟩

theorem zip_fst_snd (c : List (β × γ)) : (c.map Prod.fst).zip (c.map Prod.snd) = c := by
  induction c with
  | nil => rfl
  | cons x c ih => simp [ih]

/-- Computing two batch results side by side. -/
theorem Spec.BatchIndependent.pair {P : ρ → Prop} {f : List ρ → Py (List β)}
    {g : List ρ → Py (List γ)} (hf : BatchIndependent P f) (hg : BatchIndependent P g) :
    BatchIndependent P fun A => (do
      let p ← f A
      let q ← g A
      (.ok (p.zip q) : Py (List (β × γ)))) := by
  apply BatchIndependent.of_rowwise (g := fun r => do
    let y ← single (f [r])
    let z ← single (g [r])
    (.ok (y, z) : Py (β × γ)))
  intro A hA hP c
  have hrow : ∀ r (y : β × γ), (do
    let y ← single (f [r])
    let z ← single (g [r])
    (.ok (y, z) : Py (β × γ))) = .ok y ↔ f [r] = .ok [y.1] ∧ g [r] = .ok [y.2] := by
    intro r y
    rw [bind_ok_iff]
    constructor
    · rintro ⟨a, ha, h⟩
      obtain ⟨b, hb, h⟩ := bind_ok_iff.1 h
      cases h
      exact ⟨single_ok.1 ha, single_ok.1 hb⟩
    · rintro ⟨h1, h2⟩
      exact ⟨y.1, single_ok.2 h1, bind_ok_iff.2 ⟨y.2, single_ok.2 h2, rfl⟩⟩
  rw [mapM_ok_iff]
  simp only [hrow]
  constructor
  · intro h
    obtain ⟨p, hp, h⟩ := bind_ok_iff.1 h
    obtain ⟨q, hq, h⟩ := bind_ok_iff.1 h
    cases h
    exact forall₂_single_zip ((hf.2 A hA hP p).1 hp) ((hg.2 A hA hP q).1 hq)
  · intro h
    obtain ⟨h1, h2⟩ := forall₂_single_unzip h
    rw [(hf.2 A hA hP _).2 h1, py_ok_bind, (hg.2 A hA hP _).2 h2, py_ok_bind, zip_fst_snd]

/-- Combining two batch results entry by entry. -/
theorem Spec.BatchIndependent.zipWith {P : ρ → Prop} {f : List ρ → Py (List β)}
    {g : List ρ → Py (List γ)} (hf : BatchIndependent P f) (hg : BatchIndependent P g)
    (op : β → γ → δ) :
    BatchIndependent P fun A => (do
      let p ← f A
      let q ← g A
      (.ok (List.zipWith op p q) : Py (List δ))) := by
  have := Spec.BatchIndependent.bind_mapM (hf.pair hg)
    (k := fun c => .ok (c.map fun y => op y.1 y.2)) (g := fun y => .ok (op y.1 y.2))
    (fun A _ _ ys _ => OkEq.of_eq (mapM_ok_map fun _ _ => rfl).symm)
  refine this.congr fun A _ _ => OkEq.of_eq ?_
  cases f A with
  | error e => rfl
  | ok p =>
    cases g A with
    | error e => rfl
    | ok q =>
      simp only [py_ok_bind, List.zip, List.map_zipWith]

/-- Preparing every record before a batch independent step. -/
theorem Spec.BatchIndependent.comap {σ : Type} {P : ρ → Prop} {Q : σ → Prop}
    {f : List σ → Py (List β)} (hf : BatchIndependent Q f) {h : ρ → Py σ}
    (hQ : ∀ r, P r → ∀ s, h r = .ok s → Q s) :
    BatchIndependent P fun A => A.mapM h >>= f := by
  apply BatchIndependent.of_rowwise (g := fun r => h r >>= fun s => single (f [s]))
  intro A hA hP
  refine OkEq.trans (OkEq.bind (OkEq.refl _) (f' := fun ss => ss.mapM fun s => single (f [s]))
    fun ss hss => ?_) (OkEq.mapM_comp _ _ _)
  apply hf.rowwise
  · intro e
    subst e
    have := mapM_length hss
    exact hA (List.length_eq_zero_iff.1 (by simpa using this.symm))
  · intro s hs
    obtain ⟨r, hr, h'⟩ := mapM_mem hss hs
    exact hQ r (hP r hr) s h'

/-- A computation that does not look at the records first. -/
theorem Spec.BatchIndependent.of_const {σ : Type} {P : ρ → Prop} (c : Py σ)
    {f : σ → List ρ → Py (List β)} (hf : ∀ s, c = .ok s → BatchIndependent P (f s)) :
    BatchIndependent P fun A => c >>= fun s => f s A := by
  cases hc : c with
  | error e => exact BatchIndependent.of_error fun _ _ _ => ⟨e, rfl⟩
  | ok s => simpa only [py_ok_bind] using hf s hc

/-- Computing a list of columns and reading the rows across. -/
theorem Spec.BatchIndependent.columns {P : ρ → Prop} {ι : Type} (is : List ι)
    {f : ι → List ρ → Py (List β)} (hf : ∀ i ∈ is, BatchIndependent P (f i)) :
    BatchIndependent P fun A => (do
      let cols ← is.mapM fun i => f i A
      (List.range A.length).mapM fun (j : Nat) => cols.mapM fun c => pyGet c (j : Int)) := by
  apply BatchIndependent.of_rowwise (g := fun r => is.mapM fun i => single (f i [r]))
  intro A hA hP c
  induction is generalizing c with
  | nil =>
    simp only [mapM_nil', py_ok_bind]
    rw [mapM_ok_iff, mapM_ok_iff]
    constructor
    · intro h
      rw [List.forall₂_iff_get] at h ⊢
      simp only [List.length_range] at h
      refine ⟨h.1, fun i h1 h2 => ?_⟩
      exact h.2 i (by simpa using h1) h2
    · intro h
      rw [List.forall₂_iff_get] at h ⊢
      refine ⟨by simpa using h.1, fun i h1 h2 => ?_⟩
      exact h.2 i (by simpa using h1) h2
  | cons i is ih =>
    have ih' := ih fun i hi => hf i (by simp [hi])
    have hi := (hf i (by simp)).2 A hA hP
    have hrow : ∀ (col : List β) (cols : List (List β)), col.length = A.length →
        ∀ c, ((List.range A.length).mapM fun (j : Nat) =>
          (col :: cols).mapM fun c => pyGet c (j : Int)) = .ok c ↔
          ∃ t, ((List.range A.length).mapM fun (j : Nat) =>
            cols.mapM fun c => pyGet c (j : Int)) = .ok t ∧ c = List.zipWith List.cons col t := by
      intro col cols hl c
      constructor
      · intro h
        have hlen := mapM_length h
        refine ⟨c.map List.tail, ?_, ?_⟩
        · rw [mapM_ok_iff, List.forall₂_iff_get]
          refine ⟨by simpa using hlen.symm, ?_⟩
          intro j h1 h2
          have := mapM_getElem h j h1 (by simpa using h2)
          obtain ⟨x, xs, -, hxs, he⟩ := mapM_cons_ok.1 this
          simp only [List.get_eq_getElem, List.getElem_map, he, List.tail_cons]
          exact hxs
        · apply List.ext_getElem
          · simp at hlen; simp [hl, hlen]
          · intro j h1 h2
            have := mapM_getElem h j (by rw [← hlen]; exact h1) h1
            obtain ⟨x, xs, hx, hxs, he⟩ := mapM_cons_ok.1 this
            have hj : j < col.length := by simp at hlen; omega
            rw [List.getElem_range, pyGet_lt hj] at hx
            cases hx
            simp [he]
      · rintro ⟨t, ht, rfl⟩
        have hlen := mapM_length ht
        rw [mapM_ok_iff, List.forall₂_iff_get]
        refine ⟨by simp at hlen; simp [hl, hlen], ?_⟩
        intro j h1 h2
        have hj : j < col.length := by simpa [hl] using h1
        have := mapM_getElem ht j h1 (by rw [hlen]; exact h1)
        rw [mapM_cons_ok]
        refine ⟨col[j], t[j]'(by rw [hlen]; exact h1), ?_, ?_, by simp⟩
        · simp [pyGet_lt hj]
        · simpa using this
    constructor
    · intro h
      obtain ⟨cols', hcols', h⟩ := bind_ok_iff.1 h
      obtain ⟨col, cols, hcol, hcols, rfl⟩ := mapM_cons_ok.1 hcols'
      have hF := (hi col).1 hcol
      obtain ⟨t, ht, rfl⟩ := (hrow col cols hF.length_eq.symm c).1 h
      have := (ih' t).1 (by rw [hcols, py_ok_bind, ht])
      rw [mapM_ok_iff, List.forall₂_iff_get] at this ⊢
      rw [List.forall₂_iff_get] at hF
      refine ⟨by simp [← hF.1, ← this.1], ?_⟩
      intro j h1 h2
      have e1 := hF.2 j h1 (by rw [← hF.1]; exact h1)
      have e2 := this.2 j h1 (by rw [← this.1]; exact h1)
      rw [mapM_cons_ok]
      exact ⟨_, _, single_ok.2 e1, e2, by simp⟩
    · intro h
      have hlen := mapM_length h
      have hnn : ∀ j (hj : j < A.length), ∃ x xs, c[j]'(by rw [hlen]; exact hj) = x :: xs ∧
          f i [A[j]] = .ok [x] ∧ (is.mapM fun i => single (f i [A[j]])) = .ok xs := by
        intro j hj
        have := mapM_getElem h j hj (by rw [hlen]; exact hj)
        obtain ⟨x, xs, hx, hxs, he⟩ := mapM_cons_ok.1 this
        exact ⟨x, xs, he, single_ok.1 hx, hxs⟩
      have : Nonempty β := by
        obtain ⟨x, -⟩ := hnn 0 (List.length_pos_iff.2 hA)
        exact ⟨x⟩
      choose! x xs he hx hxs using hnn
      have hcol : f i A = .ok ((List.range A.length).map x) := by
        rw [hi, List.forall₂_iff_get]
        refine ⟨by simp, fun j h1 h2 => ?_⟩
        simpa using hx j h1
      have hrest := (ih' ((List.range A.length).map xs)).2 (by
        rw [mapM_ok_iff, List.forall₂_iff_get]
        refine ⟨by simp, fun j h1 h2 => ?_⟩
        simpa using hxs j h1)
      obtain ⟨cols, hcols, hrest⟩ := bind_ok_iff.1 hrest
      rw [mapM_cons', hcol, py_ok_bind, hcols]
      simp only [py_ok_bind, py_pure]
      refine (hrow _ _ (by simp) c).2 ⟨_, hrest, ?_⟩
      apply List.ext_getElem
      · simp [hlen]
      · intro j h1 h2
        simp [he j (by rw [← hlen]; exact h1)]

/-- Adding the contributions of a list of batch independent parts. -/
theorem Spec.BatchIndependent.foldlM_zipWith {P : ρ → Prop} {ι : Type} (op : β → γ → β)
    {f : ι → List ρ → Py (List γ)} (is : List ι) (hf : ∀ i ∈ is, BatchIndependent P (f i))
    {f0 : List ρ → Py (List β)} (h0 : BatchIndependent P f0) :
    BatchIndependent P fun A => f0 A >>= fun p =>
      is.foldlM (fun acc i => do return List.zipWith op acc (← f i A)) p := by
  induction is generalizing f0 with
  | nil =>
    refine h0.congr fun A _ _ => OkEq.of_eq ?_
    cases f0 A <;> rfl
  | cons i is ih =>
    have h1 := ih (fun j hj => hf j (by simp [hj])) (h0.zipWith (hf i (by simp)) op)
    refine h1.congr fun A _ _ => OkEq.of_eq ?_
    cases f0 A with
    | error e => rfl
    | ok p =>
      simp only [py_ok_bind, List.foldlM_cons]
      cases f i A with
      | error e => rfl
      | ok q => rfl

end PurePredict
