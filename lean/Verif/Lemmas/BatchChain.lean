import Verif.Spec.Presentations
import Verif.Lemmas.TransformBatch
import Verif.Props.C41
/-
Batch independence through a chain of steps.
-/
namespace PurePredict
open Spec

/-- Batch independent functions compose. -/
theorem Spec.BatchIndependent.comp {ρ σ β : Type} {P : ρ → Prop} {Q : σ → Prop}
    {g : List ρ → Py (List σ)} {h : List σ → Py (List β)} (hg : BatchIndependent P g)
    (hQ : ∀ A, A ≠ [] → (∀ r ∈ A, P r) → ∀ c, g A = .ok c → ∀ y ∈ c, Q y)
    (hh : BatchIndependent Q h) : BatchIndependent P fun A => g A >>= h := by
  refine hg.bind_mapM (g := fun s => single (h [s])) fun A hA hP ys hys => ?_
  refine hh.rowwise ?_ (hQ A hA hP ys hys)
  rintro rfl
  have := (hg.2 A hA hP []).1 hys
  cases this
  exact hA rfl

/-- A batch and its result have the same number of records. -/
theorem Spec.BatchIndependent.length {ρ β : Type} {P : ρ → Prop} {g : List ρ → Py (List β)}
    (hg : BatchIndependent P g) {A : List ρ} (hA : A ≠ []) (hP : ∀ r ∈ A, P r) {c : List β}
    (h : g A = .ok c) : c.length = A.length :=
  ((hg.2 A hA hP c).1 h).length_eq.symm

/-- A chain of record-by-record steps is record by record. -/
theorem Spec.BatchChain.runs {D L P : Type} {A B : Form D} {fs : List (D → Py D)}
    (h : BatchChain A fs B) {ss : List (String × Option (Est D L P))} (hs : HasTransforms ss fs) :
    RecordByRecord A B (Pipeline.applyAll ss) := by
  induction h generalizing ss with
  | nil A =>
    cases hs
    refine ⟨fun xs => .ok xs, BatchIndependent.ident, fun xs hxs => ⟨fun y => ?_, fun c hc => ?_⟩⟩
    · simp [Pipeline.applyAll, eq_comm]
    · cases hc; exact hxs.2
  | @cons A B C f fs h1 _ ih =>
    cases hs with
    | @cons s _ ss _ hsf hss =>
      obtain ⟨n, e⟩ := s
      obtain ⟨e', he, hf⟩ := hsf
      obtain rfl : e = some e' := he
      obtain ⟨g1, b1, r1⟩ := h1
      obtain ⟨g2, b2, r2⟩ := ih hss
      have hne : ∀ xs, A.Batch xs → ∀ c, g1 xs = .ok c → B.Batch c := by
        intro xs hxs c hc
        refine ⟨?_, (r1 xs hxs).2 c hc⟩
        intro e
        have := b1.length hxs.1 hxs.2 hc
        rw [e] at this
        exact hxs.1 (List.length_eq_zero_iff.1 this.symm)
      refine ⟨fun xs => g1 xs >>= g2,
        b1.comp (fun xs h h' c hc => (hne xs ⟨h, h'⟩ c hc).2) b2, fun xs hxs => ⟨fun y => ?_, ?_⟩⟩
      · have e : Pipeline.applyAll ((n, some e') :: ss) (A.emb xs) =
            (f (A.emb xs) >>= Pipeline.applyAll ss) := by simp [Pipeline.applyAll, hf]
        rw [e, bind_ok_iff]
        constructor
        · rintro ⟨z, hz, hy⟩
          obtain ⟨c, hc, rfl⟩ := ((r1 xs hxs).1 z).1 hz
          obtain ⟨d, hd, rfl⟩ := ((r2 c (hne xs hxs c hc)).1 y).1 hy
          exact ⟨d, bind_ok_iff.2 ⟨c, hc, hd⟩, rfl⟩
        · rintro ⟨d, hd, rfl⟩
          obtain ⟨c, hc, hd⟩ := bind_ok_iff.1 hd
          exact ⟨B.emb c, ((r1 xs hxs).1 _).2 ⟨c, hc, rfl⟩,
            ((r2 c (hne xs hxs c hc)).1 _).2 ⟨d, hd, rfl⟩⟩
      · intro d hd
        obtain ⟨c, hc, hd⟩ := bind_ok_iff.1 hd
        exact (r2 c (hne xs hxs c hc)).2 d hd

/-- Reading the results of a chain record by record. -/
theorem Spec.RecordByRecord.then {D E β : Type} {A : Form D} {B : Form E} {f : D → Py E}
    (h : RecordByRecord A B f) {g : E → Py (List β)}
    (hg : BatchIndependent B.Ok fun xs => g (B.emb xs)) :
    BatchIndependent A.Ok fun xs => f (A.emb xs) >>= g := by
  obtain ⟨g1, b1, r1⟩ := h
  refine (b1.comp (fun xs h h' => (r1 xs ⟨h, h'⟩).2) hg).congr fun xs h h' c => ?_
  rw [bind_ok_iff, bind_ok_iff]
  constructor
  · rintro ⟨z, hz, hc⟩
    obtain ⟨d, hd, rfl⟩ := ((r1 xs ⟨h, h'⟩).1 z).1 hz
    exact ⟨d, hd, hc⟩
  · rintro ⟨d, hd, hc⟩
    exact ⟨_, ((r1 xs ⟨h, h'⟩).1 _).2 ⟨d, hd, rfl⟩, hc⟩

variable {F : Type} [Arith F]

omit [Arith F] in
theorem ofMat_inj {A B : List (List F)} (e : Arr.ofMat A = Arr.ofMat B) : A = B := by
  have e' : (.ofMat A : Arr F).rows = (.ofMat B : Arr F).rows := by rw [e]
  rw [rows_ofMat, rows_ofMat] at e'
  have e2 : A.map Row.list = B.map Row.list := by injection e'
  exact List.map_injective_iff.2 (fun a b h => by injection h) e2

/-- A transformer whose rows are computed record by record and whose results are dense matrices of
one width. -/
theorem recordByRecord_dense {D : Type} {A : Form D} {f : D → Py (Arr F)} {w : Nat}
    (hb : BatchIndependent A.Ok fun xs => rowsOf (f (A.emb xs)))
    (hk : ∀ xs, A.Batch xs → ∀ y, f (A.emb xs) = .ok y → ∃ M, y = .ofMat M ∧ Rect w M) :
    RecordByRecord A (.denseOf F w) f := by
  have key : ∀ M : List (List F), (M.map Row.list).mapM Row.asList = (.ok M : Py _) := by
    intro M
    rw [mapM_map']
    exact (mapM_ok_map (g := id) fun _ _ => rfl).trans (by simp)
  have hg : ∀ xs, A.Batch xs → ∀ c, (rowsOf (f (A.emb xs)) >>= fun rs => rs.mapM Row.asList) = .ok c ↔
      f (A.emb xs) = .ok (.ofMat c) := by
    intro xs hxs c
    rw [rowsOf, bind_assoc, bind_ok_iff]
    constructor
    · rintro ⟨y, hy, hc⟩
      obtain ⟨M, rfl, -⟩ := hk xs hxs y hy
      rw [rows_ofMat, py_ok_bind, key] at hc
      cases hc; exact hy
    · intro hy
      exact ⟨_, hy, by rw [rows_ofMat, py_ok_bind, key]⟩
  refine ⟨fun xs => rowsOf (f (A.emb xs)) >>= fun rs => rs.mapM Row.asList,
    hb.bind_mapM fun _ _ _ _ _ => OkEq.refl _, fun xs hxs => ⟨fun y => ?_, fun c hc => ?_⟩⟩
  · constructor
    · intro hy
      obtain ⟨M, rfl, -⟩ := hk xs hxs y hy
      exact ⟨M, (hg xs hxs M).2 hy, rfl⟩
    · rintro ⟨c, hc, rfl⟩
      exact (hg xs hxs c).1 hc
  · have := (hg xs hxs c).1 hc
    obtain ⟨M, e, hM⟩ := hk xs hxs _ this
    have : c = M := ofMat_inj e
    subst this
    exact hM

/-- The same for sparse results of one size. -/
theorem recordByRecord_sparse {D : Type} {A : Form D} {f : D → Py (Arr F)} {w : Nat} {dt : DType}
    (hb : BatchIndependent A.Ok fun xs => rowsOf (f (A.emb xs)))
    (hk : ∀ xs, A.Batch xs → ∀ y, f (A.emb xs) = .ok y → ∃ ds, y = .sparse ds (some w) dt) :
    RecordByRecord A (.sparseOf F w dt) f := by
  let unp : Row F → Py (Dict Int F) := fun r => match r with
    | .dict d => .ok d
    | _ => .error .typeError
  have key : ∀ ds : List (Dict Int F), (ds.map Row.dict).mapM unp = (.ok ds : Py _) := by
    intro M
    rw [mapM_map']
    exact (mapM_ok_map (g := id) fun _ _ => rfl).trans (by simp)
  have hr : ∀ ds : List (Dict Int F), (Arr.sparse ds (some w) dt).rows = .ok (ds.map Row.dict) :=
    fun ds => rfl
  have hg : ∀ xs, A.Batch xs → ∀ c, (rowsOf (f (A.emb xs)) >>= fun rs => rs.mapM unp) = .ok c ↔
      f (A.emb xs) = .ok (.sparse c (some w) dt) := by
    intro xs hxs c
    rw [rowsOf, bind_assoc, bind_ok_iff]
    constructor
    · rintro ⟨y, hy, hc⟩
      obtain ⟨M, rfl⟩ := hk xs hxs y hy
      rw [hr, py_ok_bind, key] at hc
      cases hc; exact hy
    · intro hy
      exact ⟨_, hy, by rw [hr, py_ok_bind, key]⟩
  refine ⟨fun xs => rowsOf (f (A.emb xs)) >>= fun rs => rs.mapM unp,
    hb.bind_mapM fun _ _ _ _ _ => OkEq.refl _, fun xs hxs => ⟨fun y => ?_, fun c hc => ?_⟩⟩
  · constructor
    · intro hy
      obtain ⟨M, rfl⟩ := hk xs hxs y hy
      exact ⟨M, (hg xs hxs M).2 hy, rfl⟩
    · rintro ⟨c, hc, rfl⟩
      exact (hg xs hxs c).1 hc
  · exact fun _ _ => trivial

end PurePredict
