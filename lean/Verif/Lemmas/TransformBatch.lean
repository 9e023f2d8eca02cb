import Verif.Lemmas.BatchTools
import Verif.Lemmas.Encode
import Verif.Lemmas.Impute
import Verif.Lemmas.Normalize
import Verif.Props.C28
import Verif.Props.C29
import Verif.Props.C30
import Verif.Props.C31
import Verif.Model.Preprocessing
import Verif.Model.Text
import Verif.Model.Hash
import Verif.Lemmas.Hasher
/-
Transformers treat the records of a batch independently.
-/
namespace PurePredict
open Spec
variable {F : Type} [Arith F]

/-- The rows of a transformer's result. -/
def rowsOf (r : Py (Arr F)) : Py (List (Row F)) := r >>= Arr.rows

theorem BatchIndependent.ident {ρ : Type} {P : ρ → Prop} :
    BatchIndependent P fun A : List ρ => (.ok A : Py (List ρ)) :=
  BatchIndependent.of_rowwise (g := fun r => .ok r) fun A _ _ =>
    OkEq.of_eq ((mapM_ok_map (g := id) fun _ _ => rfl).trans (by simp)).symm

theorem BatchIndependent.ok_map {ρ β : Type} {P : ρ → Prop} (g : ρ → β) :
    BatchIndependent P fun A : List ρ => (.ok (A.map g) : Py (List β)) :=
  BatchIndependent.of_rowwise (g := fun r => .ok (g r)) fun A _ _ =>
    OkEq.of_eq (by rw [mapM_ok_map (g := g) fun _ _ => rfl])

theorem Spec.BatchIndependent.then_map {ρ β γ : Type} {P : ρ → Prop} {f : List ρ → Py (List β)}
    (h : BatchIndependent P f) (g : β → γ) :
    BatchIndependent P fun A => f A >>= fun ys => (.ok (ys.map g) : Py (List γ)) :=
  h.bind_mapM (g := fun y => .ok (g y)) fun _ _ _ ys _ =>
    OkEq.of_eq (mapM_ok_map fun _ _ => rfl).symm

/-! ### Scalers -/

theorem columnwise_batch {ρ : Type} {P : ρ → Prop} {f : List ρ → Py (List (Row F))}
    (h : BatchIndependent P f) (p : List F) (op : F → F → Py F) :
    BatchIndependent P fun A => f A >>= columnwise p op :=
  h.bind_mapM fun _ _ _ _ _ => OkEq.refl _

theorem checkArray_dense {A : List (List F)} (hA : A ≠ []) (h : HandleSparse) :
    checkArray (Arr.ofMat A) h = .ok (.list (A.map Row.list)) := checkArray_ofMat hA h

theorem rows_list (rs : List (Row F)) : (Arr.list rs).rows = .ok rs := rfl

theorem StandardScaler.transform_dense (s : StandardScaler F) {A : List (List F)} (hA : A ≠ []) :
    rowsOf (s.transform (.ofMat A)) =
      ((if s.withMean then notNone s.mean >>= fun m =>
          columnwise m (fun a b => .ok (a -ₚ b)) (A.map Row.list) else .ok (A.map Row.list)) >>=
        fun rs => if s.withStd then notNone s.scale >>= fun sc => columnwise sc Arith.div rs
          else .ok rs) := by
  obtain ⟨wm, ws, sc, mn⟩ := s
  simp only [rowsOf, StandardScaler.transform, checkArray_dense hA, py_ok_bind, rows_list]
  cases wm <;> cases ws <;>
    simp only [Bool.false_eq_true, if_false, if_true, py_pure, py_ok_bind, bind_assoc, rows_list,
      bind_pure]
  · cases notNone sc with
    | error e => rfl
    | ok v => simp only [py_ok_bind]; cases columnwise v Arith.div (A.map Row.list) <;> rfl
  · congr 1; funext m
    congr 1; funext rs
    congr 1; funext v
    cases columnwise v Arith.div rs <;> rfl

theorem optional_batch {ρ : Type} {P : ρ → Prop} {f : List ρ → Py (List (Row F))}
    (h : BatchIndependent P f) (c : Bool) (p : Option (List F)) (op : F → F → Py F) :
    BatchIndependent P fun A => f A >>= fun rs =>
      if c then notNone p >>= fun v => columnwise v op rs else .ok rs := by
  cases c with
  | false => exact h.congr fun A _ _ => OkEq.of_eq (by cases f A <;> rfl)
  | true =>
    cases p with
    | none =>
      refine BatchIndependent.of_error fun A _ _ => ?_
      cases f A with
      | error e => exact ⟨e, rfl⟩
      | ok x => exact ⟨.typeError, rfl⟩
    | some sc => exact columnwise_batch h sc _

theorem StandardScaler.dense_batch (s : StandardScaler F) :
    BatchIndependent (fun _ => True) fun A => rowsOf (s.transform (.ofMat A)) := by
  have h0 : BatchIndependent (fun _ => True) fun A : List (List F) =>
    (.ok (A.map Row.list) : Py (List (Row F))) := BatchIndependent.ok_map _
  have h1 := optional_batch (optional_batch h0 s.withMean s.mean fun a b => .ok (a -ₚ b))
    s.withStd s.scale Arith.div
  exact h1.congr fun A hA _ => OkEq.of_eq (s.transform_dense hA)

theorem scaleDicts_batch (sc : Option (List F)) (size : Option Nat) (dt : DType) :
    BatchIndependent (fun _ => True) fun A : List (Dict Int F) =>
      (do let rs ← scaleDicts sc A
          rowsOf (sparseList (.list (rs.map Row.dict)) size (some dt)) : Py (List (Row F))) := by
  have h1 : BatchIndependent (fun _ => True) fun A : List (Dict Int F) => scaleDicts sc A :=
    BatchIndependent.of_rowwise fun A _ _ => OkEq.refl _
  refine (h1.then_map Row.dict).congr fun A hA hP => ?_
  refine OkEq.bind (OkEq.refl _) fun rs hrs => OkEq.of_eq ?_
  have : rs ≠ [] := by
    intro e; subst e
    exact hA (List.length_eq_zero_iff.1 (by simpa using (mapM_length hrs).symm))
  rw [sparseList_dicts this]
  rfl

theorem StandardScaler.sparse_batch (s : StandardScaler F) (size : Option Nat) (dt : DType) :
    BatchIndependent (fun _ => True) fun A => rowsOf (s.transform (.sparse A size dt)) := by
  obtain ⟨wm, ws, sc, mn⟩ := s
  cases wm with
  | true => exact BatchIndependent.of_error fun A _ _ => ⟨.valueError, rfl⟩
  | false =>
    cases sc with
    | none => exact BatchIndependent.ok_map Row.dict
    | some v =>
      refine (scaleDicts_batch (some v) size dt).congr fun A _ _ => OkEq.of_eq ?_
      simp only [rowsOf, StandardScaler.transform, checkArray, py_ok_bind, Bool.false_eq_true,
        if_false, bind_assoc]

theorem MaxAbsScaler.dense_batch (s : MaxAbsScaler F) :
    BatchIndependent (fun _ => True) fun A => rowsOf (s.transform (.ofMat A)) := by
  have h0 : BatchIndependent (fun _ => True) fun A : List (List F) =>
    (.ok (A.map Row.list) : Py (List (Row F))) := BatchIndependent.ok_map _
  have h1 : BatchIndependent (fun _ => True) fun A : List (List F) =>
      notNone s.scale >>= fun m => columnwise m Arith.div (A.map Row.list) :=
    Spec.BatchIndependent.of_const _ fun m _ => columnwise_batch h0 m _
  refine h1.congr fun A hA _ => OkEq.of_eq ?_
  simp only [rowsOf, MaxAbsScaler.transform, checkArray_dense hA, py_ok_bind, rows_list, bind_assoc]
  congr 1; funext v
  cases columnwise v Arith.div (A.map Row.list) <;> rfl

theorem MaxAbsScaler.sparse_batch (s : MaxAbsScaler F) (size : Option Nat) (dt : DType) :
    BatchIndependent (fun _ => True) fun A => rowsOf (s.transform (.sparse A size dt)) := by
  refine (scaleDicts_batch s.scale size dt).congr fun A _ _ => OkEq.of_eq ?_
  simp only [rowsOf, MaxAbsScaler.transform, checkArray, py_ok_bind, bind_assoc]

theorem MinMaxScaler.dense_batch (s : MinMaxScaler F) :
    BatchIndependent (fun _ => True) fun A => rowsOf (s.transform (.ofMat A)) := by
  have h1 : BatchIndependent (fun _ => True) fun A : List (List F) => A.mapM fun r => (do
      let sc ← notNone s.scale
      (List.range sc.length).mapM fun (i : Nat) => do
        return ((← (Row.list r).getItem (i : Int)) *ₚ (← pyGet sc (i : Int)))
          +ₚ (← pyGet (← notNone s.min) (i : Int)) : Py (List F)) :=
    BatchIndependent.of_rowwise fun A _ _ => OkEq.refl _
  refine (h1.then_map Row.list).congr fun A hA _ => OkEq.of_eq ?_
  simp only [rowsOf, MinMaxScaler.transform, issparse_ofMat, Bool.false_eq_true, if_false,
    checkArray_ofMat hA, py_ok_bind, rows_ofMat, bind_assoc]
  rw [mapM_map']
  rfl

/-! ### Normalizer -/

/-- The norm of one dense row. -/
def denseNorm (n : Norm) (r : List F) : Py F :=
  match n with
  | .l1 => .ok (pySum (r.map Arith.abs))
  | .l2 => Arith.sqrt (pySum (List.zipWith Arith.mul r r))
  | .max => pyMax r
  | .bad => .error .valueError

theorem mulRows_self (r : List F) :
    mulRows r.length (.list r) (.list r) = .ok (List.zipWith Arith.mul r r) := by
  unfold mulRows
  have hg : ∀ i, i < r.length → (do
      return (← (Row.list r).getItem (i : Int)) *ₚ (← (Row.list r).getItem (i : Int)) : Py F) =
      .ok ((List.zipWith Arith.mul r r).getD i (ofInt 0)) := by
    intro i hi
    have e : (Row.list r).getItem (i : Int) = .ok r[i] := pyGet_lt hi
    simp only [e, py_ok_bind, py_pure]
    simp [List.getD_eq_getElem?_getD, hi]
  rw [range_mapM hg]
  congr 1
  apply List.ext_getElem
  · simp
  · intro i h1 h2
    simp only [List.length_map, List.length_range] at h1
    simp [List.getD_eq_getElem?_getD, h1]

theorem denseNorms_batch (n : Norm) (w : Nat) :
    BatchIndependent (fun r : List F => r.length = w) fun A => denseNorms n (.ofMat A) := by
  apply BatchIndependent.of_rowwise (g := denseNorm n)
  intro A hA hw
  cases n with
  | l1 =>
    simp only [denseNorms, apply2d_ofMat]
    rw [mapM_ok_map (g := fun a : List F => a.map Arith.abs) fun a _ => mapM_ok_map fun _ _ => rfl,
      py_ok_bind, applyAxis2d_ofMat, mapM_map']
    exact OkEq.refl _
  | l2 =>
    have hm : matmultSameDim (.ofMat A) (.ofMat A) =
        .ok (.ofMat (A.map fun r => List.zipWith Arith.mul r r)) := by
      have hsh := shape_ofMat hA (w := w) hw
      have e : matmultSameDim (.ofMat A) (.ofMat A) = (do
          let rs ← (List.zip (A.map Row.list) (A.map Row.list)).mapM fun p => mulRows w p.1 p.2
          return .ofMat rs) := by
        simp only [matmultSameDim, hsh, py_ok_bind, bne_self_eq_false, Bool.false_eq_true, if_false]
        rfl
      rw [e]
      have hz : List.zip (A.map Row.list) (A.map Row.list) = A.map fun r => (Row.list r, Row.list r) := by
        clear hA hw hsh e
        induction A with
        | nil => rfl
        | cons r A ih => simpa using ih
      rw [hz, mapM_map', mapM_ok_map (g := fun r => List.zipWith Arith.mul r r)]
      · rfl
      · intro r hr
        rw [← hw r hr]
        exact mulRows_self r
    simp only [denseNorms, rowNorms, hm, py_ok_bind]
    show OkEq ((applyAxis2d (.ofMat _) _) >>= _) _
    rw [applyAxis2d_ofMat, mapM_map', mapM_ok_map (g := fun r => pySum (List.zipWith Arith.mul r r))
      fun _ _ => rfl, py_ok_bind, mapM_map']
    exact OkEq.refl _
  | max =>
    simp only [denseNorms, applyAxis2d_ofMat]
    exact OkEq.refl _
  | bad =>
    obtain ⟨r, hr⟩ := List.exists_mem_of_ne_nil A hA
    have := mapM_error_same (f := denseNorm (F := F) .bad) hr (e := .valueError) rfl
      fun _ _ e he => by cases he; rfl
    rw [this]
    exact OkEq.refl _


/-- Dividing a dense row by its norm. -/
def divRow (p : List F × F) : Py (Row F) := do
  return .list (← p.1.mapM fun a => a /ₚ (if p.2 ==ₚ ofInt 0 then ofInt 1 else p.2))

theorem normalizer_dense_eq (n : Norm) (hn : n ≠ .bad) {A : List (List F)} (hA : A ≠ []) :
    OkEq (rowsOf (normalizerTransform n (.ofMat A)))
      ((do let p ← (.ok A : Py (List (List F)))
           let q ← denseNorms n (.ofMat A)
           (.ok (p.zip q) : Py (List (List F × F)))) >>= fun c => c.mapM divRow) := by
  have e : normalizeRows (.ofMat A : Arr F) n = (do
      let norms := handleZeros (← denseNorms n (.ofMat A))
      let rs' ← (List.zip (← (Arr.ofMat A : Arr F).rows) norms).mapM fun p => do
        (← p.1.iter).mapM fun a => a /ₚ p.2
      return (.ofMat rs', norms)) := rfl
  simp only [rowsOf, normalizerTransform, normalizePure, normalizePure', issparse_ofMat,
    Bool.and_false, Bool.false_eq_true, if_false, hn, checkArray_ofMat hA, py_ok_bind,
    show ((1 : Int) == 0) = false from rfl, show ((1 : Int) == 1) = true from rfl, Bool.or_true,
    Bool.not_true, py_pure, Bool.false_and, e, bind_assoc, rows_ofMat]
  refine OkEq.bind (OkEq.refl _) fun q hq => ?_
  have hz : List.zip (A.map Row.list) (handleZeros q) =
      (A.zip q).map fun p => ((Row.list p.1 : Row F), if p.2 ==ₚ ofInt 0 then ofInt 1 else p.2) := by
    rw [handleZeros, List.zip_map]
    rfl
  rw [hz, mapM_map']
  refine OkEq.trans (OkEq.of_eq ?_) (OkEq.mapM_map (fun p : List F × F =>
    p.1.mapM fun a => a /ₚ (if p.2 ==ₚ ofInt 0 then ofInt 1 else p.2)) Row.list (A.zip q))
  congr 1

theorem normalizer_dense_batch (n : Norm) (w : Nat) :
    BatchIndependent (fun r : List F => r.length = w) fun A =>
      rowsOf (normalizerTransform n (.ofMat A)) := by
  by_cases hn : n = .bad
  · subst hn
    refine BatchIndependent.of_error fun A hA _ => ⟨.valueError, ?_⟩
    simp only [rowsOf, normalizerTransform, checkArray_ofMat hA, py_ok_bind, normalizePure,
      normalizePure', issparse_ofMat, Bool.and_false, Bool.false_eq_true, if_false, if_true,
      py_error_bind]
  · have h := (BatchIndependent.ident (P := fun r : List F => r.length = w)).pair
      (denseNorms_batch n w)
    exact (h.bind_mapM (k := fun c => c.mapM divRow) fun _ _ _ _ _ => OkEq.refl _).congr
      fun A hA _ => normalizer_dense_eq n hn hA

/-- The norm of one sparse row. -/
def sparseNorm (n : Norm) (d : Dict Int F) : Py F :=
  match n with
  | .l1 => .ok (pySum (d.values.map Arith.abs))
  | .l2 => Arith.sqrt (pySum (mulDicts d d).values)
  | .max => pyMax (d.values ++ [ofInt 0])
  | .bad => .error .valueError

theorem zipWith_self {α β : Type} (f : α → α → β) (l : List α) :
    List.zipWith f l l = l.map fun a => f a a := by
  induction l with
  | nil => rfl
  | cons a l ih => simp [ih]

theorem sparseNorms_rowwise (n : Norm) (size : Option Nat) (dt : DType) {A : List (Dict Int F)}
    (hA : A ≠ []) : OkEq (sparseNorms n (.sparse A size dt) A) (A.mapM (sparseNorm n)) := by
  cases n with
  | l1 => exact OkEq.of_eq (mapM_ok_map fun _ _ => rfl).symm
  | l2 =>
    have hm : matmultSameDim (.sparse A size dt : Arr F) (.sparse A size dt) =
        .ok (.sparse (A.map fun d => mulDicts d d) size dt) := by
      obtain ⟨d, A, rfl⟩ := List.exists_cons_of_ne_nil hA
      simp only [matmultSameDim, shape_sparse_cons, py_ok_bind, bne_self_eq_false,
        Bool.false_eq_true, if_false, zipWith_self]
      rw [sparseList_dicts (by simp)]
    simp only [sparseNorms, rowNorms, hm, py_ok_bind, py_pure]
    rw [List.map_map, mapM_map']
    exact OkEq.refl _
  | max => exact OkEq.refl _
  | bad =>
    obtain ⟨r, hr⟩ := List.exists_mem_of_ne_nil A hA
    rw [mapM_error_same (f := sparseNorm (F := F) .bad) hr (e := .valueError) rfl
      fun _ _ e he => by cases he; rfl]
    exact OkEq.refl _

/-- Dividing a sparse row by its norm. -/
def divDict (p : Dict Int F × F) : Py (Dict Int F) :=
  p.1.mapM fun kv => do return (kv.1, ← kv.2 /ₚ (if p.2 ==ₚ ofInt 0 then ofInt 1 else p.2))

theorem normalizeSparse_eq (n : Norm) (hn : n ≠ .bad) (size : Option Nat) (dt : DType)
    {A : List (Dict Int F)} (hA : A ≠ []) :
    OkEq (rowsOf (normalizePure (.sparse A size dt) n))
      (A.mapM fun d => do return Row.dict (← divDict (d, ← sparseNorm n d))) := by
  simp only [rowsOf, normalizePure, normalizePure', Arr.issparse, Bool.and_true, Bool.false_eq_true,
    if_false, hn, checkArray, py_ok_bind, show ((1 : Int) == 0) = false from rfl,
    show ((1 : Int) == 1) = true from rfl, Bool.or_true, Bool.not_true, py_pure, Bool.and_false,
    Bool.false_and, normalizeRows, bind_assoc]
  refine OkEq.trans (OkEq.bind (sparseNorms_rowwise n size dt hA) fun q hq => OkEq.refl _) ?_
  intro c
  rw [bind_ok_iff]
  have hz : ∀ q : List F, List.zip A (handleZeros q) =
      (A.zip q).map fun p => (p.1, if p.2 ==ₚ ofInt 0 then ofInt 1 else p.2) := by
    intro q
    conv_lhs => rw [← List.map_id A, handleZeros, List.zip_map]
    rfl
  have hfin : ∀ rs : List (Dict Int F), rs ≠ [] →
      ((sparseList (.list (rs.map Row.dict)) size (some dt) : Py (Arr F)) >>= fun a =>
        (Except.ok (a, ([] : List F)) : Py _) >>= fun y => y.1.rows) = .ok (rs.map Row.dict) := by
    intro rs hrs
    rw [sparseList_dicts hrs]
    rfl
  have key : ∀ q : List F, q.length = A.length → ∀ c,
      ((List.zip A (handleZeros q)).mapM (fun p =>
        p.1.mapM fun kv => kv.2 /ₚ p.2 >>= fun a => (Except.ok (kv.1, a) : Py (Int × F))) >>= fun rs' =>
          (sparseList (.list (rs'.map Row.dict)) size (some dt) : Py (Arr F)) >>= fun a =>
            (Except.ok (a, handleZeros q) : Py (Arr F × List F)) >>= fun y => y.1.rows) = .ok c ↔
        (A.zip q).mapM (fun p => do return Row.dict (← divDict p)) = .ok c := by
    intro q hq c
    rw [hz, mapM_map']
    rw [← OkEq.mapM_map (fun p : Dict Int F × F => divDict p) Row.dict (A.zip q) c, bind_ok_iff, bind_ok_iff]
    constructor
    · rintro ⟨rs, h1, h2⟩
      refine ⟨rs, h1, ?_⟩
      have : rs ≠ [] := by
        intro e; subst e
        have := mapM_length h1
        simp [hq] at this
        exact hA (List.length_eq_zero_iff.1 this.symm)
      rw [sparseList_dicts this] at h2
      exact h2
    · rintro ⟨rs, h1, h2⟩
      refine ⟨rs, h1, ?_⟩
      have : rs ≠ [] := by
        intro e; subst e
        have := mapM_length h1
        simp [hq] at this
        exact hA (List.length_eq_zero_iff.1 this.symm)
      rw [sparseList_dicts this]
      exact h2
  constructor
  · rintro ⟨q, hq, h⟩
    replace h := (key q (mapM_length hq) c).1 h
    clear key hz hfin hA
    induction A generalizing q c with
    | nil => cases hq; cases h; rfl
    | cons d A ih =>
      obtain ⟨x, xs, hx, hxs, rfl⟩ := mapM_cons_ok.1 hq
      obtain ⟨y, ys, hy, hys, rfl⟩ := mapM_cons_ok.1 h
      rw [mapM_cons_ok]
      refine ⟨y, ys, ?_, ih ys xs hxs hys, rfl⟩
      rw [hx, py_ok_bind]
      exact hy
  · intro h
    have : ∃ q, A.mapM (sparseNorm n) = .ok q ∧
        (A.zip q).mapM (fun p => do return Row.dict (← divDict p)) = .ok c := by
      clear key hz hfin hA
      induction A generalizing c with
      | nil => cases h; exact ⟨[], rfl, rfl⟩
      | cons d A ih =>
        obtain ⟨y, ys, hy, hys, rfl⟩ := mapM_cons_ok.1 h
        obtain ⟨q, hq, hz⟩ := ih ys hys
        obtain ⟨x, hx, hy⟩ := bind_ok_iff.1 hy
        refine ⟨x :: q, mapM_cons_ok.2 ⟨x, q, hx, hq, rfl⟩, ?_⟩
        exact mapM_cons_ok.2 ⟨y, ys, hy, hz, rfl⟩
    obtain ⟨q, hq, h⟩ := this
    exact ⟨q, hq, (key q (mapM_length hq) c).2 h⟩

theorem normalizePure_sparse_batch (n : Norm) (size : Option Nat) (dt : DType) :
    BatchIndependent (fun _ => True) fun A : List (Dict Int F) =>
      rowsOf (normalizePure (.sparse A size dt) n) := by
  by_cases hn : n = .bad
  · subst hn
    exact BatchIndependent.of_error fun A hA _ => ⟨.valueError, rfl⟩
  · exact BatchIndependent.of_rowwise fun A hA _ => normalizeSparse_eq n hn size dt hA

theorem normalizer_sparse_batch (n : Norm) (size : Option Nat) (dt : DType) :
    BatchIndependent (fun _ => True) fun A : List (Dict Int F) =>
      rowsOf (normalizerTransform n (.sparse A size dt)) :=
  (normalizePure_sparse_batch n size dt).congr fun _ _ _ => OkEq.refl _

/-! ### Encoders -/

theorem mapM_ok_mem_single {α β : Type} {f : α → Py β} {l : List α} {c : List β}
    (h : l.mapM f = .ok c) (x : α) (hx : x ∈ l) : ∃ y, f x = .ok y := by
  obtain ⟨i, hi, rfl⟩ := List.getElem_of_mem hx
  exact ⟨_, mapM_getElem h i hi (by rw [mapM_length h]; exact hi)⟩

section encoders
variable {C : Type} [DecidableEq C]

theorem Encoder.ordinal_batch [Inhabited C] (e : Encoder C) (w : Nat) (he : e.Fitted w) :
    BatchIndependent (fun x : List C => x.length = w) fun R => e.ordinal (F := F) (.ofMat R) := by
  classical
  apply BatchIndependent.of_rowwise (g := fun x => if Known e.categories x then
    ((codes e.categories x).map fun (k : Nat) => (ofInt (k : Int) : F)).mapM (castTo e.dtype)
    else .error .valueError)
  intro R hR hw
  by_cases hk : ∀ x ∈ R, Known e.categories x
  · rw [(C29_ordinal e w he R hR hw hk).1, mapM_map']
    refine OkEq.of_eq (mapM_congr fun x hx => ?_)
    rw [if_pos (hk x hx)]
  · push Not at hk
    obtain ⟨x, hx, hnk⟩ := hk
    rw [C29_unknown e w he R hw ⟨x, hx, hnk⟩]
    intro c
    simp only [reduceCtorEq, false_iff]
    intro h
    obtain ⟨y, hy⟩ := mapM_ok_mem_single h x hx
    rw [if_neg hnk] at hy
    cases hy

theorem Encoder.oneHot_batch [Inhabited C] (e : Encoder C) (w : Nat) (he : e.Fitted w) :
    BatchIndependent (fun x : List C => x.length = w) fun R =>
      rowsOf (e.oneHot (F := F) (.ofMat R)) := by
  classical
  cases h1 : castTo e.dtype (ofInt 1 : F) with
  | error er =>
    refine BatchIndependent.of_error fun R _ _ => ?_
    cases ht : e.transform_ (.ofMat R) e.handleUnknownError with
    | error e' => exact ⟨e', by simp only [rowsOf, Encoder.oneHot, ht, py_error_bind]⟩
    | ok p => exact ⟨er, by simp only [rowsOf, Encoder.oneHot, ht, py_ok_bind, h1, py_error_bind]⟩
  | ok one =>
    apply BatchIndependent.of_rowwise (g := fun x =>
      if e.handleUnknownError = true ∧ ¬ Known e.categories x then .error .valueError
      else if e.sparse then .ok (Row.dict (Dict.ofList (codeItems one e.categories x)))
      else do
        let z ← castTo e.dtype (ofInt 0 : F)
        return Row.list (dense z (totalCats e.categories)
          (Dict.ofList (codeItems one e.categories x))))
    intro R hR hw
    by_cases hk : e.handleUnknownError = true → ∀ x ∈ R, Known e.categories x
    · rw [oneHot_code e w he R hR hw hk one h1]
      have hg : ∀ x ∈ R, ¬ (e.handleUnknownError = true ∧ ¬ Known e.categories x) := by
        rintro x hx ⟨h, h'⟩
        exact h' (hk h x hx)
      cases hs : e.sparse with
      | true =>
        simp only [Bool.not_true, Bool.false_eq_true, if_false, rowsOf, py_pure, py_ok_bind, if_true]
        rw [mapM_ok_map (g := fun x => Row.dict (Dict.ofList (codeItems one e.categories x)))]
        · refine OkEq.of_eq ?_
          simp [Arr.rows]
        · intro x hx
          rw [if_neg (hg x hx)]
      | false =>
        simp only [Bool.not_false, if_true, rowsOf, py_pure, Bool.false_eq_true, if_false]
        cases hz : castTo e.dtype (ofInt 0 : F) with
        | error er =>
          obtain ⟨x, hx⟩ := List.exists_mem_of_ne_nil R hR
          intro c
          simp only [todense, hz, py_error_bind, reduceCtorEq, false_iff]
          intro h
          obtain ⟨y, hy⟩ := mapM_ok_mem_single h x hx
          rw [if_neg (hg x hx)] at hy
          cases hy
        | ok z =>
          rw [todense_sparse hz, py_ok_bind, rows_ofMat]
          rw [mapM_ok_map (g := fun x => Row.list (dense z (totalCats e.categories)
            (Dict.ofList (codeItems one e.categories x))))]
          · refine OkEq.of_eq ?_
            simp
          · intro x hx
            rw [if_neg (hg x hx)]
            rfl
    · push Not at hk
      obtain ⟨hu, x, hx, hnk⟩ := hk
      rw [rowsOf, C28_unknown_error e w he hu R hw ⟨x, hx, hnk⟩]
      intro c
      simp only [py_error_bind, reduceCtorEq, false_iff]
      intro h
      obtain ⟨y, hy⟩ := mapM_ok_mem_single h x hx
      rw [if_pos ⟨hu, hnk⟩] at hy
      cases hy
end encoders

/-! ### Imputation -/

theorem MissingIndicator.batch (m : MissingIndicator F) (hf : m.features.Nodup)
    (hr : ∀ j ∈ m.features, j < m.nFeatures) (he : m.errorOnNew = false ∨ m.missingOnly = false) :
    BatchIndependent (fun x : List F => x.length = m.nFeatures) fun M => m.transform (.ofMat M) :=
  (BatchIndependent.ok_map (m.out (ofInt 0))).congr fun _ hM hw =>
    OkEq.of_eq (C31_total_partial m (ofInt 0) hM hw hf hr he)

theorem SimpleImputer.batch (s : SimpleImputer F) (h0 : s.statistics ≠ [])
    (hi : ∀ i, s.indicator = some i → i.errorOnNew = false ∧ i.nFeatures = s.statistics.length ∧
      i.features.Nodup ∧ ∀ j ∈ i.features, j < i.nFeatures) :
    BatchIndependent (fun x : List F => x.length = s.statistics.length) fun M =>
      rowsOf (s.transform (.ofMat M)) := by
  cases ha : s.addIndicator with
  | false =>
    refine (BatchIndependent.ok_map fun x => Row.list (s.out (ofInt 0) x)).congr fun M hM hw => ?_
    rw [rowsOf, C30_transform s (ofInt 0) hM hw h0 ha, py_ok_bind, rows_ofMat, List.map_map]
    exact OkEq.refl _
  | true =>
    cases hs : s.indicator with
    | none =>
      refine BatchIndependent.of_error fun M hM _ => ⟨.valueError, ?_⟩
      rw [rowsOf, C30_no_indicator s hM ha hs]; rfl
    | some i =>
      obtain ⟨h1, h2, h3, h4⟩ := hi i hs
      refine (BatchIndependent.ok_map fun x => Row.list (s.out (ofInt 0) x ++ i.out (ofInt 0) x)).congr
        fun M hM hw => ?_
      rw [rowsOf, C30_indicator s (ofInt 0) hM hw h0 ha hs h1 h2 h3 h4, py_ok_bind, rows_ofMat,
        List.map_map]
      exact OkEq.refl _

/-! ### Vectorizers -/

/-- The counts of one document as numbers. -/
def CountVectorizer.rowOf (v : CountVectorizer) (toks : List Str) : Dict Int F :=
  (countDoc v.vocabulary toks).mapVals fun (c : Int) => (ofInt c : F)

theorem CountVectorizer.countVocab_eq (lib : TextLib) (v : CountVectorizer) {docs : List Str}
    (hd : docs ≠ []) : v.countVocab (F := F) lib docs = (buildAnalyzer lib v.opts >>= fun an =>
      .ok (.sparse (docs.map fun d => v.rowOf (an d)) (some v.vocabulary.length) v.dtype)) := by
  unfold CountVectorizer.countVocab
  congr 1; funext an
  have := sparseList_dicts (ds := docs.map fun d => (v.rowOf (an d) : Dict Int F)) (by simpa using hd)
    (some v.vocabulary.length) v.dtype
  rw [List.map_map] at this
  exact this

theorem fromkeysOne_sparse (ds : List (Dict Int F)) (n : Option Nat) (dt : DType) :
    fromkeysOne (.sparse ds n dt) = .ok (.list (ds.map fun d => Row.dict (d.mapVals fun _ => ofInt 1))) := by
  simp only [fromkeysOne, Arr.rows, py_ok_bind, asDicts_map, py_pure]

theorem CountVectorizer.batch (lib : TextLib) (v : CountVectorizer) :
    BatchIndependent (fun _ => True) fun docs => rowsOf (v.transform (F := F) lib (some docs)) := by
  have h : BatchIndependent (fun _ => True) fun docs : List Str =>
      buildAnalyzer lib v.opts >>= fun an => (.ok (docs.map fun d =>
        if v.binary then Row.dict ((v.rowOf (an d)).mapVals fun _ => ofInt 1)
        else Row.dict (v.rowOf (an d))) : Py (List (Row F))) :=
    Spec.BatchIndependent.of_const _ fun an _ => BatchIndependent.ok_map (β := Row F) fun d =>
        if v.binary then Row.dict ((v.rowOf (F := F) (an d)).mapVals fun _ => ofInt 1)
        else Row.dict (v.rowOf (an d))
  refine h.congr fun docs hd _ => OkEq.of_eq ?_
  simp only [rowsOf, CountVectorizer.transform, v.countVocab_eq lib hd, bind_assoc]
  congr 1; funext an
  cases v.binary with
  | false =>
    simp only [py_ok_bind, Bool.false_eq_true, if_false, py_pure, Arr.rows, List.map_map]
    rfl
  | true =>
    simp only [py_ok_bind, if_true, fromkeysOne_sparse, Arr.rows, List.map_map]
    rfl

/-- The idf weighting of one sparse row. -/
def tfidfDict (idf : List F) (d : Dict Int F) : Py (Dict Int F) :=
  d.mapM fun kv => do return (kv.1, kv.2 *ₚ (← pyGet idf kv.1))

theorem tfidfRows (idf : List F) (A : List (Dict Int F)) :
    OkEq ((A.map Row.dict).mapM (tfidfRow idf) >>= asDicts) (A.mapM (tfidfDict idf)) := by
  rw [mapM_map']
  refine OkEq.trans (OkEq.mapM_comp _ (fun r : Row F => match r with
    | .dict d => .ok d
    | _ => .error .typeError) A) (OkEq.mapM fun d _ => OkEq.of_eq ?_)
  simp only [tfidfRow, tfidfDict, bind_assoc, py_pure, py_ok_bind]
  exact bind_pure _

theorem Tfidf.batch (t : Tfidf F) (size : Option Nat) (dt : DType) :
    BatchIndependent (fun _ => True) fun A : List (Dict Int F) =>
      rowsOf (t.transform (.sparse A size dt) >>= fun p => .ok p.1) := by
  obtain ⟨norm, useIdf, sub, idf, exp⟩ := t
  have hsh : ∀ A : List (Dict Int F), A ≠ [] → (Arr.sparse A size dt : Arr F).shape =
      .ok (.d2 A.length size) := by
    intro A hA
    obtain ⟨d, A, rfl⟩ := List.exists_cons_of_ne_nil hA
    exact shape_sparse_cons ..
  cases sub with
  | true =>
    refine BatchIndependent.of_error fun A hA _ => ⟨.nameError, ?_⟩
    simp only [rowsOf, Tfidf.transform, checkArray, py_ok_bind, hsh A hA, if_true, py_error_bind]
  | false =>
    have hn : BatchIndependent (fun _ => True) fun A : List (Dict Int F) =>
        rowsOf (match norm with
          | none => .ok (.sparse A size dt)
          | some n => normalizePure (.sparse A size dt) n) := by
      cases norm with
      | none => exact BatchIndependent.ok_map Row.dict
      | some n => exact normalizePure_sparse_batch n size dt
    cases useIdf with
    | false =>
      refine hn.congr fun A hA _ => OkEq.of_eq ?_
      simp only [rowsOf, Tfidf.transform, checkArray, py_ok_bind, hsh A hA, Bool.false_eq_true,
        if_false, py_pure]
      cases norm with
      | none => rfl
      | some n => simp only [bind_assoc, py_ok_bind]
    | true =>
      by_cases hw : size = some exp
      · subst hw
        have h := Spec.BatchIndependent.comap (P := fun _ : Dict Int F => True) hn (h := tfidfDict idf)
          fun _ _ _ _ => trivial
        refine h.congr fun A hA _ => ?_
        simp only [rowsOf, Tfidf.transform, checkArray, py_ok_bind, hsh A hA, Bool.false_eq_true,
          if_false, if_true, bne_self_eq_false, Arr.rows, Arr.withRows, bind_assoc, py_pure]
        refine OkEq.trans (OkEq.of_eq ?_) (OkEq.bind (tfidfRows idf A) fun A' _ => OkEq.refl _)
        rw [bind_assoc]
        congr 1; funext rs
        congr 1; funext ds
        cases norm with
        | none => simp only [py_ok_bind, Arr.rows]
        | some n => simp only [bind_assoc, py_ok_bind]; rfl
      · refine BatchIndependent.of_error fun A hA _ => ⟨.nameError, ?_⟩
        have : (size != some exp) = true := by simpa using hw
        simp only [rowsOf, Tfidf.transform, checkArray, py_ok_bind, hsh A hA, if_true, py_error_bind,
          this, Bool.false_eq_true, if_false]

theorem tfidfVectorizer_batch (lib : TextLib) (v : CountVectorizer) (t : Tfidf F) (hb : v.binary = false) :
    BatchIndependent (fun _ => True) fun docs =>
      rowsOf (tfidfVectorizerTransform lib v t (some docs)) := by
  have h : BatchIndependent (fun _ => True) fun docs : List Str =>
      buildAnalyzer lib v.opts >>= fun an =>
        docs.mapM (fun d => (.ok (v.rowOf (an d)) : Py (Dict Int F))) >>= fun A =>
          rowsOf (t.transform (.sparse A (some v.vocabulary.length) v.dtype) >>= fun p => .ok p.1) :=
    Spec.BatchIndependent.of_const _ fun an _ =>
      Spec.BatchIndependent.comap (Tfidf.batch t (some v.vocabulary.length) v.dtype) fun _ _ _ _ => trivial
  refine h.congr fun docs hd _ => OkEq.of_eq ?_
  simp only [rowsOf, tfidfVectorizerTransform, CountVectorizer.transform, v.countVocab_eq lib hd,
    bind_assoc, hb, Bool.false_eq_true, if_false]
  congr 1; funext an
  rw [mapM_ok_map (g := fun d => v.rowOf (an d)) fun _ _ => rfl]
  rfl

theorem HashingVectorizer.batch (lib : TextLib) (encode : Str → List Nat) (v : HashingVectorizer)
    (hb : v.binary = false) :
    BatchIndependent (fun _ => True) fun docs =>
      rowsOf (v.transform (F := F) lib encode (some docs)) := by
  have h : BatchIndependent (fun _ => True) fun docs : List Str =>
      buildAnalyzer lib v.opts >>= fun an => validateNFeatures v.nFeatures >>= fun n =>
        (if n = 0 then .error .assertionError else .ok ()) >>= fun _ =>
        docs.mapM (fun d => (.ok (((an d).map fun f => (f, FeatVal.num (ofInt 1 : F))).foldl
          (hashStep encode n v.alternateSign 0) []) : Py (Dict Int F))) >>= fun A =>
            rowsOf (match v.norm with
              | some nm => normalizePure (.sparse A (some n) v.dtype) nm
              | none => .ok (.sparse A (some n) v.dtype)) := by
    refine Spec.BatchIndependent.of_const _ fun an _ => Spec.BatchIndependent.of_const _ fun n _ =>
      Spec.BatchIndependent.of_const _ fun _ _ => ?_
    refine Spec.BatchIndependent.comap (Q := fun _ => True) (f := fun A => rowsOf (match v.norm with
              | some nm => normalizePure (.sparse A (some n) v.dtype) nm
              | none => .ok (.sparse A (some n) v.dtype))) ?_ fun _ _ _ _ => trivial
    cases v.norm with
    | none => exact BatchIndependent.ok_map Row.dict
    | some nm => exact normalizePure_sparse_batch nm (some n) v.dtype
  refine h.congr fun docs hd _ => OkEq.of_eq ?_
  simp only [rowsOf, HashingVectorizer.transform, featureHasher_string, bind_assoc, hb, Bool.false_eq_true, if_false]
  congr 1; funext an
  congr 1; funext n
  simp only [hashingTransform]
  by_cases hn : n = 0
  · simp only [hn, if_true, py_error_bind]
  · simp only [hn, if_false, py_ok_bind]
    rw [mapM_ok_map (g := fun d => ((an d).map fun f => (f, FeatVal.num (ofInt 1 : F))).foldl
          (hashStep encode n v.alternateSign 0) []) fun _ _ => rfl]
    have := sparseList_dicts (ds := docs.map fun d =>
      ((an d).map fun f => (f, FeatVal.num (ofInt 1 : F))).foldl (hashStep encode n v.alternateSign 0) [])
      (by simpa using hd) (some n) v.dtype
    rw [List.map_map] at this ⊢
    refine (congrArg (· >>= _) this).trans ?_
    cases v.norm <;> rfl

theorem DictVectorizer.batch (v : DictVectorizer) :
    BatchIndependent (fun _ => True) fun xs => rowsOf (v.transform (F := F) (.many xs)) := by
  have h1 : BatchIndependent (fun _ => True) fun A : List (Dict Int F) =>
      rowsOf (if !v.sparse then todense (.sparse A (some v.vocabulary.length) v.dtype)
        else .ok (.sparse A (some v.vocabulary.length) v.dtype)) := by
    cases v.sparse with
    | true => exact BatchIndependent.ok_map Row.dict
    | false =>
      cases hz : castTo v.dtype (ofInt 0 : F) with
      | error er =>
        refine BatchIndependent.of_error fun A _ _ => ⟨er, ?_⟩
        simp only [rowsOf, Bool.not_false, if_true, todense, hz, py_error_bind]
      | ok z =>
        refine (BatchIndependent.ok_map fun d => Row.list (dense z v.vocabulary.length d)).congr
          fun A _ _ => OkEq.of_eq ?_
        simp only [rowsOf, Bool.not_false, if_true, todense_sparse hz, py_ok_bind, rows_ofMat,
          List.map_map]
        rfl
  have h := Spec.BatchIndependent.comap (P := fun _ => True) h1 (h := v.row) fun _ _ _ _ => trivial
  refine h.congr fun xs hx _ => ?_
  simp only [rowsOf, DictVectorizer.transform, bind_assoc]
  refine OkEq.bind (OkEq.refl _) fun ds hds => OkEq.of_eq ?_
  have : ds ≠ [] := by
    intro e; subst e
    have := mapM_length hds
    exact hx (List.length_eq_zero_iff.1 this.symm)
  rw [sparseList_dicts this]
  rfl

end PurePredict
