import Verif.Lemmas.EnclosureFit
import Verif.Lemmas.RisingObject
/-
Certificates of compound objects: what a certificate bounds is answered within the bounds.
-/
namespace PurePredict
open Spec
variable {lib : String → TextLib} {encode : Str → List Nat} {fp : FP}

theorem Spec.Holding.next {B C : List Span} {M N : List (List (XR fp))} (h : Holding B M) (hl : N.length = M.length) (hN : ∀ x ∈ N, InBox C x) :
    Holding C N := ⟨ne_nil_of_length hl h.1, hN⟩

/-! ### Pipelines -/

theorem pipe_encloses (n : String) {e : Methods (XR fp)} {s : String × Methods (XR fp)} {ss : List (String × Methods (XR fp))} {B C : List Span}
    {b : Bound fp} (h1 : Encloses e B (.rows C)) (h2 : Encloses (pipelineEst (s :: ss)) C b) : Encloses (pipelineEst ((n, e) :: s :: ss)) B b := by
  obtain ⟨t, ht, h1⟩ := h1
  obtain ⟨a1, a2, a3, -⟩ := pipeline_cons n ht s ss
  have go : ∀ {α : Type} {u : Data (XR fp) → Py α} {Q : Nat → α → Prop}, (∀ M, Holding C M → ∃ y, u (.arr (.ofMat M)) = .ok y ∧ Q M.length y) →
      ∀ M, Holding B M → ∃ y, (t (.arr (.ofMat M)) >>= u) = .ok y ∧ Q M.length y := by
    intro α u Q hu M hM
    obtain ⟨N, e1, e2, e3⟩ := h1 M hM
    obtain ⟨y, e4, e5⟩ := hu N (hM.next e2 e3)
    exact ⟨y, by rw [e1, py_ok_bind, e4], by rw [← e2]; exact e5⟩
  cases b with
  | rows D =>
    obtain ⟨u, hu, h2⟩ := h2
    refine ⟨fun X => t X >>= u, by rw [a1, hu]; rfl, fun M hM => ?_⟩
    obtain ⟨y, e, N, rfl, e2⟩ := go (Q := fun n y => ∃ N, y = Data.arr (.ofMat N) ∧ N.length = n ∧ ∀ x ∈ N, InBox D x) (fun M hM => by
      obtain ⟨N, e, e2⟩ := h2 M hM
      exact ⟨_, e, N, rfl, e2⟩) M hM
    exact ⟨N, e, e2⟩
  | shares P =>
    obtain ⟨q, hq, h2⟩ := h2
    exact ⟨fun X => t X >>= q, by rw [a3, hq]; rfl, go (Q := fun n (N : List (List (XR fp))) => N.length = n ∧ ∀ x ∈ N, InBox P x) h2⟩
  | label l =>
    obtain ⟨p, hp, h2⟩ := h2
    refine ⟨fun X => t X >>= p, by rw [a2, hp]; rfl, fun M hM => ?_⟩
    obtain ⟨y, e, rfl⟩ := go (Q := fun n y => y = List.replicate n l) (fun M hM => ⟨_, h2 M hM, rfl⟩) M hM
    exact e
  | value v =>
    obtain ⟨p, hp, h2⟩ := h2
    refine ⟨fun X => t X >>= p, by rw [a2, hp]; rfl, fun M hM => ?_⟩
    obtain ⟨y, e, xs, rfl, e2⟩ := go (Q := fun n y => ∃ xs : List (XR fp), y = xs.map PVal.float ∧ xs.length = n ∧ ∀ x ∈ xs, v.Holds x) (fun M hM => by
      obtain ⟨xs, e, e2⟩ := h2 M hM
      exact ⟨_, e, xs, rfl, e2⟩) M hM
    exact ⟨xs, e, e2⟩

/-! ### Unions -/

theorem union_parts_enclosed (hc : fp.Close) {B : List Span} (ws : Option (List (String × XR fp)))
    (steps : List (String × SkObj (Attrs (XR fp)) (PVal (XR fp)) (XR fp) × List Span × List Span))
    (h1 : ∀ s ∈ steps, weightOf ws s.1 = none → s.2.2.2 = s.2.2.1)
    (h2 : ∀ s ∈ steps, ∀ c, weightOf ws s.1 = some c → ∃ w : Span, w.Holds c ∧ List.Forall₂ (fun a b => Multiplied a w b) s.2.2.1 s.2.2.2)
    {es : List (Methods (XR fp))} (he : List.Forall₂ (Behaves lib encode) ((steps.map fun s => (s.1, s.2.1)).map Prod.snd) es)
    (H : ∀ s ∈ steps, ∀ f, Behaves lib encode s.2.1 f → Encloses f B (.rows s.2.2.1)) {M : List (List (XR fp))} (hM : Holding B M) :
    ∃ Ns : List (List (List (XR fp))), ((((steps.map fun s => (s.1, s.2.1)).map Prod.fst).zip es).mapM fun s =>
        transformOne s.2.runTransform (.arr (.ofMat M)) (weightOf ws s.1)) = .ok (Ns.map Arr.ofMat) ∧
      List.Forall₂ (fun D N => N.length = M.length ∧ ∀ x ∈ N, InBox D x) (steps.map fun s => s.2.2.2) Ns := by
  induction steps generalizing es with
  | nil =>
    cases he
    exact ⟨[], rfl, .nil⟩
  | cons s steps ih =>
    simp only [List.map_cons] at he
    cases he with
    | @cons _ e _ es hb he =>
      obtain ⟨Ns, e1, e2⟩ := ih (fun s hs => h1 s (by simp [hs])) (fun s hs => h2 s (by simp [hs])) he fun s hs => H s (by simp [hs])
      obtain ⟨t, ht, hs⟩ := H s (by simp) e hb
      obtain ⟨N, n1, n2, n3⟩ := hs M hM
      have hrun : e.runTransform (.arr (.ofMat M)) = .ok (.ofMat N) := by
        unfold Est.runTransform
        rw [ht]
        simp only [n1, py_ok_bind]
        rfl
      have key : ∃ N', transformOne e.runTransform (.arr (.ofMat M)) (weightOf ws s.1) = .ok (.ofMat N') ∧ N'.length = M.length ∧
          ∀ x ∈ N', InBox s.2.2.2 x := by
        cases hc' : weightOf ws s.1 with
        | none => exact ⟨N, by rw [transformOne, hrun]; rfl, n2, by rw [h1 s (by simp) hc']; exact n3⟩
        | some c =>
          obtain ⟨w, w1, w2⟩ := h2 s (by simp) c hc'
          refine ⟨N.map fun r => r.map fun x => x *ₚ c, ?_, by simpa using n2, fun r hr => ?_⟩
          · rw [transformOne, hrun, py_ok_bind]
            simp only [apply2d_ofMat_ok, py_ok_bind, py_pure]
          · obtain ⟨x, hx, rfl⟩ := List.mem_map.1 hr
            exact forall₂_map_of w2 (n3 x hx) fun a b x h hx => holds_mul hc h hx w1
      obtain ⟨N', k1, k2, k3⟩ := key
      refine ⟨N' :: Ns, ?_, .cons ⟨k2, k3⟩ e2⟩
      simp only [List.map_cons, List.zip_cons_cons, mapM_cons', k1, e1, py_ok_bind]
      rfl

theorem inBox_flatten {Ds : List (List Span)} {xs : List (List (XR fp))} (h : List.Forall₂ InBox Ds xs) : InBox Ds.flatten xs.flatten := by
  induction h with
  | nil => exact .nil
  | cons h _ ih => exact List.rel_append h ih

/-- Blocks of numbers are put side by side, record by record. -/
theorem unionOf_dense {n : Nat} (sh : Py Shape) {Ns : List (List (List (XR fp)))} {Ds : List (List Span)} (hne : Ns ≠ [])
    (h : List.Forall₂ (fun D N => N.length = n ∧ ∀ x ∈ N, InBox D x) Ds Ns) :
    ∃ R, unionOf (.ok n) sh (Ns.map Arr.ofMat) = .ok (.ofMat R) ∧ R.length = n ∧ ∀ x ∈ R, InBox Ds.flatten x := by
  have hsp : (Ns.map (Arr.ofMat (F := XR fp))).any Arr.issparse = false := by simp [issparse_ofMat]
  have hrows : (Ns.map (Arr.ofMat (F := XR fp))).mapM Arr.rows = .ok (Ns.map fun N => N.map Row.list) := by
    rw [mapM_map']
    exact mapM_ok_map fun N _ => rows_ofMat N
  obtain ⟨R, r1, r2, r3⟩ := mapM_all (l := List.range n) (f := fun (i : Nat) => unionDenseRow (Ns.map fun N => N.map Row.list) i)
    (Q := InBox Ds.flatten) fun i hi => by
      have hi := List.mem_range.1 hi
      rw [unionDenseRow_cols]
      have : ∃ xs, (Ns.mapM fun c => pyGet c (i : Int)) = .ok xs ∧ List.Forall₂ InBox Ds xs := by
        clear hne hsp hrows
        induction h with
        | nil => exact ⟨[], rfl, .nil⟩
        | @cons D N _ _ h _ ih =>
          obtain ⟨xs, e1, e2⟩ := ih
          have hl : i < N.length := by rw [h.1]; exact hi
          exact ⟨N[i] :: xs, by rw [mapM_cons', pyGet_lt hl, e1]; rfl, .cons (h.2 _ (List.getElem_mem _)) e2⟩
      obtain ⟨xs, e1, e2⟩ := this
      exact ⟨xs.flatten, by rw [e1, py_ok_bind], inBox_flatten e2⟩
  refine ⟨R, ?_, by simpa using r2, r3⟩
  unfold unionOf
  rw [if_neg (by simpa using hne), hsp]
  simp only [Bool.false_eq_true, if_false, hrows, py_ok_bind, r1, py_pure]

theorem union_encloses (hc : fp.Close) {B : List Span} (ws : Option (List (String × XR fp)))
    {steps : List (String × SkObj (Attrs (XR fp)) (PVal (XR fp)) (XR fp) × List Span × List Span)} (hne : steps ≠ [])
    (h1 : ∀ s ∈ steps, weightOf ws s.1 = none → s.2.2.2 = s.2.2.1)
    (h2 : ∀ s ∈ steps, ∀ c, weightOf ws s.1 = some c → ∃ w : Span, w.Holds c ∧ List.Forall₂ (fun a b => Multiplied a w b) s.2.2.1 s.2.2.2)
    {es : List (Methods (XR fp))} (he : List.Forall₂ (Behaves lib encode) ((steps.map fun s => (s.1, s.2.1)).map Prod.snd) es)
    (H : ∀ s ∈ steps, ∀ f, Behaves lib encode s.2.1 f → Encloses f B (.rows s.2.2.1)) :
    Encloses (unionEst (((steps.map fun s => (s.1, s.2.1)).map Prod.fst).zip es) ws) B (.rows (steps.map fun s => s.2.2.2).flatten) := by
  refine ⟨_, rfl, fun M hM => ?_⟩
  obtain ⟨Ns, e1, e2⟩ := union_parts_enclosed hc ws steps h1 h2 he H hM
  have hN : Ns ≠ [] := by
    rintro rfl
    have := e2.length_eq
    simp at this
    exact hne this
  obtain ⟨R, r1, r2, r3⟩ := unionOf_dense (Data.arr (.ofMat M)).shape hN e2
  have c1 : (Data.arr (.ofMat M)).check = .ok (Data.arr (.ofMat M)) := by
    simp only [Data.check, checkArray_ofMat hM.1, py_ok_bind, py_pure]
  have l1 : (Data.arr (.ofMat M)).len = .ok M.length := len_ofMat _
  refine ⟨R, ?_, r2, r3⟩
  simp only [c1, py_ok_bind, e1, l1, r1]
  rfl

/-! ### Ensembles -/

theorem encloses_runProba {f : Methods (XR fp)} {B P : List Span} (h : Encloses f B (.shares P)) {M : List (List (XR fp))} (hM : Holding B M) :
    ∃ N, f.runProba (.ofMat M) = .ok N ∧ N.length = M.length ∧ ∀ x ∈ N, InBox P x := by
  obtain ⟨q, hq, h⟩ := h
  unfold Est.runProba
  rw [hq]
  exact h M hM

theorem added_rows (hc : fp.Close) {A P D : List Span} (h : Columns Added A P D) {Q R : List (List (XR fp))} {n : Nat} (hn : 0 < n) (hQ : Q.length = n)
    (hR : R.length = n) (hQA : ∀ x ∈ Q, InBox A x) (hRP : ∀ x ∈ R, InBox P x) :
    ∃ S, operate2d (.ofMat Q) (.ofMat R) Arith.add = .ok S ∧ S.length = n ∧ ∀ x ∈ S, InBox D x := by
  have ne : ∀ {M : List (List (XR fp))}, M.length = n → M ≠ [] := by
    rintro M hM rfl
    simp at hM; omega
  refine ⟨_, operate2d_ofMat (w := A.length) Arith.add (ne hQ) (ne hR) (hQ.trans hR.symm) (fun x hx => inBox_length (hQA x hx)) (fun x hx => ?_), by simp [hQ, hR], fun r hr => ?_⟩
  · rw [inBox_length (hRP x hx), h.lengths.1]
  · obtain ⟨j, hj, rfl⟩ := List.getElem_of_mem hr
    simp only [List.length_zipWith, Nat.lt_min] at hj
    rw [List.getElem_zipWith]
    exact columns_zipWith h (hQA _ (List.getElem_mem hj.1)) (hRP _ (List.getElem_mem hj.2)) fun a b c x y h hx hy => holds_add hc h hx hy

theorem accumulate_encloses (hc : fp.Close) {C : Type} {b : Bagging (XR fp) C} {X : Arr (XR fp)} {n : Nat} (hn : 0 < n) {idxs : List Nat} {A E : List Span}
    {l : List (List Span)} (hp : Pooled A l E)
    (h : List.Forall₂ (fun P i => ∃ N, b.memberProba X i = .ok N ∧ N.length = n ∧ ∀ x ∈ N, InBox P x) l idxs) {Q : List (List (XR fp))}
    (hQ : Q.length = n) (hQA : ∀ x ∈ Q, InBox A x) : ∃ R, b.accumulate X idxs Q = .ok R ∧ R.length = n ∧ ∀ x ∈ R, InBox E x := by
  induction hp generalizing idxs Q with
  | nil =>
    cases h
    exact ⟨Q, rfl, hQ, hQA⟩
  | cons h1 _ ih =>
    cases h with
    | cons h2 h3 =>
      obtain ⟨N, n1, n2, n3⟩ := h2
      obtain ⟨S, s1, s2, s3⟩ := added_rows hc h1 hn hQ n2 hQA n3
      obtain ⟨R, r1, r2⟩ := ih h3 s2 s3
      exact ⟨R, by simp only [Bagging.accumulate, n1, py_ok_bind, s1, r1], r2⟩

theorem bagging_encloses (hc : fp.Close) {C : Type} {b : Bagging (XR fp) C} {X : Arr (XR fp)} {n : Nat} (hn : 0 < n) {ps : List (List Span)}
    {P : List Span} (ha : Averaged ps P) (hl : b.estimators.length = ps.length)
    (h : ∀ (i : Nat) (p : List Span), ps[i]? = some p → ∃ N, b.memberProba X i = .ok N ∧ N.length = n ∧ ∀ x ∈ N, InBox p x) :
    ∃ N, b.predictProba X = .ok N ∧ N.length = n ∧ ∀ x ∈ N, InBox P x := by
  obtain ⟨p, l, t, d, rfl, h1, h2, h3⟩ := ha
  obtain ⟨N0, e1, e2, e3⟩ := h 0 p rfl
  have hF : List.Forall₂ (fun P i => ∃ N, b.memberProba X i = .ok N ∧ N.length = n ∧ ∀ x ∈ N, InBox P x) l ((List.range b.estimators.length).drop 1) := by
    rw [List.forall₂_iff_get]
    refine ⟨by rw [hl]; simp, fun i i1 i2 => ?_⟩
    have := h (i + 1) l[i] (by simp [i1])
    simp only [List.get_eq_getElem, List.getElem_drop, List.getElem_range]
    rw [Nat.add_comm 1 i]
    exact this
  obtain ⟨R, r1, r2, r3⟩ := accumulate_encloses hc hn h1 hF e2 e3
  have hd : d.Holds (ofInt (b.estimators.length : Int) : XR fp) := holds_ofInt hc (by rw [hl]; exact_mod_cast h2)
  obtain ⟨N, n1, n2, n3⟩ := mapM_all (l := R) (f := fun a => a.mapM fun x => x /ₚ ofInt (b.estimators.length : Int)) (Q := InBox P) fun x hx =>
    forall₂_mapM h3 (r3 x hx) fun a c x h hx => holds_div hc h hx hd
  exact ⟨N, by simp only [Bagging.predictProba, e1, py_ok_bind, r1, apply2d_ofMat, n1], n2.trans r2, n3⟩

theorem ensemble_encloses (hc : fp.Close) {cs : List (PVal (XR fp))} {es : List (Methods (XR fp))} {ps : List (List Span)} {B P : List Span}
    (ha : Averaged ps P) (h : List.Forall₂ (fun e p => Encloses e B (.shares p)) es ps) : Encloses (ensembleEst none cs es) B (.shares P) := by
  refine ⟨_, rfl, fun M hM => ?_⟩
  refine bagging_encloses hc (List.length_pos_of_ne_nil hM.1) ha (by simpa using h.length_eq) fun i p hp => ?_
  obtain ⟨e, he, h1⟩ := forall₂_getElem?_left h hp
  obtain ⟨hi, rfl⟩ := List.getElem?_eq_some_iff.1 he
  obtain ⟨N, n1, n2⟩ := encloses_runProba h1 hM
  refine ⟨N, ?_, n2⟩
  simp only [Bagging.memberProba, Bagging.getFeats, pyGet_lt (l := es.map fun m => (⟨m.runProba⟩ : Member (XR fp))) (by simpa using hi),
    py_ok_bind, featSlice, List.getElem_map, n1]

theorem picked_holds {B : List Span} {f : List Int} (hf : ∀ i ∈ f, 0 ≤ i ∧ i < (B.length : Int)) {x : List (XR fp)} (hx : InBox B x) :
    ∃ y, (f.mapM fun j => (Row.list x).getItem j) = .ok y ∧ InBox (picked B f) y := by
  induction f with
  | nil => exact ⟨[], rfl, .nil⟩
  | cons i f ih =>
    obtain ⟨y, e1, e2⟩ := ih fun j hj => hf j (by simp [hj])
    obtain ⟨h0, h1⟩ := hf i (by simp)
    obtain ⟨m, rfl⟩ : ∃ m : Nat, i = (m : Int) := ⟨i.toNat, by omega⟩
    have hm : m < B.length := by omega
    have hm' : m < x.length := by rw [inBox_length hx]; exact hm
    refine ⟨x[m] :: y, ?_, .cons ?_ e2⟩
    · rw [mapM_cons', e1, show (Row.list x).getItem (m : Int) = .ok x[m] from pyGet_lt hm']
      rfl
    · simp only [Int.toNat_natCast, List.getD_eq_getElem?_getD, List.getElem?_eq_getElem hm, Option.getD_some]
      exact forall₂_get hx hm hm'

theorem subspaces_encloses (hc : fp.Close) {cs : List (PVal (XR fp))} {es : List (Methods (XR fp))} {fs : List (List Int)} {ps : List (List Span)} {B P : List Span}
    (ha : Averaged ps P) (hl1 : es.length = ps.length) (hl2 : fs.length = ps.length) (hfs : ∀ f ∈ fs, ∀ i ∈ f, 0 ≤ i ∧ i < (B.length : Int))
    (h : ∀ (i : Nat) (e : Methods (XR fp)) f p, es[i]? = some e → fs[i]? = some f → ps[i]? = some p → Encloses e (picked B f) (.shares p)) :
    Encloses (ensembleEst (some fs) cs es) B (.shares P) := by
  refine ⟨_, rfl, fun M hM => ?_⟩
  refine bagging_encloses hc (List.length_pos_of_ne_nil hM.1) ha (by simpa using hl1) fun i p hp => ?_
  obtain ⟨hi, rfl⟩ := List.getElem?_eq_some_iff.1 hp
  have i1 : i < es.length := by omega
  have i2 : i < fs.length := by omega
  obtain ⟨M', m1, m2, m3⟩ := rows_answer hM (f := fun r => fs[i].mapM fun j => (Row.list r).getItem j) (Q := InBox (picked B fs[i])) fun x hx =>
    picked_holds (hfs _ (List.getElem_mem i2)) hx
  obtain ⟨N, n1, n2, n3⟩ := encloses_runProba (h i es[i] fs[i] ps[i] (List.getElem?_eq_getElem i1) (List.getElem?_eq_getElem i2) (List.getElem?_eq_getElem hi))
    (hM.next m2 m3)
  refine ⟨N, ?_, n2.trans m2, n3⟩
  simp only [Bagging.memberProba, Bagging.getFeats, pyGet_lt (l := es.map fun m => (⟨m.runProba⟩ : Member (XR fp))) (by simpa using i1),
    py_ok_bind, pyGet_lt i2, py_pure, featSlice, rows_ofMat, mapM_map', m1, List.getElem_map, n1]

theorem ensemble_label {fs : Option (List (List Int))} {cs : List (PVal (XR fp))} {es : List (Methods (XR fp))} {B P : List Span} {k : Nat}
    {l : PVal (XR fp)} (h : Encloses (ensembleEst fs cs es) B (.shares P)) (hk : Leads P k) (hl : cs[k]? = some l) :
    Encloses (ensembleEst fs cs es) B (.label l) := by
  obtain ⟨q, hq, h⟩ := h
  cases hq
  refine ⟨_, rfl, fun M hM => ?_⟩
  obtain ⟨N, n1, n2, n3⟩ := h M hM
  have n1 : (⟨fs, cs, es.map fun m => ⟨m.runProba⟩⟩ : Bagging (XR fp) (PVal (XR fp))).predictProba (.ofMat M) = .ok N := n1
  show (⟨fs, cs, es.map fun m => ⟨m.runProba⟩⟩ : Bagging (XR fp) (PVal (XR fp))).predict (.ofMat M) = _
  have h1 : N.mapM argmax = .ok (N.map fun _ => k) := mapM_ok_map fun x hx => leads_argmax hk (n3 x hx)
  rw [Bagging.predict, n1, py_ok_bind, h1, py_ok_bind, mapM_map', mapM_ok_map (g := fun _ => l) fun x _ => pyGet_ok_nat.2 hl, ← n2]
  simp

/-! ### Gradient boosting -/

theorem encloses_runNumbers {f : Methods (XR fp)} {B : List Span} {v : Span} (h : Encloses f B (.value v)) {M : List (List (XR fp))} (hM : Holding B M) :
    ∃ ys, f.runNumbers (.ofMat M) = .ok ys ∧ ys.length = M.length ∧ ∀ y ∈ ys, v.Holds y := by
  obtain ⟨p, hp, h⟩ := h
  obtain ⟨ys, e1, e2⟩ := h M hM
  refine ⟨ys, ?_, e2⟩
  unfold Est.runNumbers
  rw [hp]
  simp only [e1, py_ok_bind]
  rw [mapM_map']
  exact (mapM_ok_map (g := id) fun y _ => rfl).trans (by simp)

theorem inner_clip (hs : fp.Sound) (hc : fp.Close) {a : Span} (h : Inner a) {x : XR fp} (hx : a.Holds x) : clip x gbEps (ofInt 1 -ₚ gbEps) = x := by
  obtain ⟨e, d, h1, h2, h3, h4⟩ := h
  have he : e.Holds (gbEps : XR fp) := by
    refine close_round hc ?_
    push_cast
    exact h1
  have hd := holds_sub hc h2 (holds_one hs) he
  obtain ⟨u, rfl, hu⟩ := hx
  obtain ⟨v, ev, hv⟩ := he
  rw [ev] at hd ⊢
  obtain ⟨w, ew, hw⟩ := hd
  rw [ew]
  unfold clip
  have n1 : ((.fin u : XR fp) <ₚ .fin v) = false := by
    show decide (u < v) = false
    have := hu.1
    have := hv.2
    exact decide_eq_false (by linarith)
  have n2 : ((.fin w : XR fp) <ₚ .fin u) = false := by
    show decide (w < u) = false
    have := hu.2
    have := hw.1
    exact decide_eq_false (by linarith)
  simp [n1, n2]

theorem odds_holds (hs : fp.Sound) (hc : fp.Close) {p c o s : Span} (h1 : Inner p) (h2 : Subtracted one p c) (h3 : Divided p c o) (h4 : Logarithm o s)
    {x : XR fp} (hx : p.Holds x) : ∃ y z, (clip x gbEps (ofInt 1 -ₚ gbEps)) /ₚ (ofInt 1 -ₚ clip x gbEps (ofInt 1 -ₚ gbEps)) = .ok y ∧ safeLog y = .ok z ∧ s.Holds z := by
  rw [inner_clip hs hc h1 hx]
  obtain ⟨y, y1, y2⟩ := holds_div hc h3 hx (holds_sub hc h2 (holds_one hs) hx)
  obtain ⟨z, z1, z2⟩ := holds_log hs hc h4 y2
  exact ⟨y, z, y1, z1, z2⟩

theorem starts_holds (hs : fp.Sound) (hc : fp.Close) {l : Loss} {I S : List Span} (h : Starts l I S) {q : List (XR fp)} (hq : InBox I q) :
    ∃ r, l.initRow q = .ok r ∧ InBox S r := by
  cases h with
  | binomial h1 h2 h3 h4 =>
    cases hq with
    | cons _ hq =>
      cases hq with
      | cons hx _ =>
        obtain ⟨y, z, y1, z1, z2⟩ := odds_holds hs hc h1 h2 h3 h4 hx
        refine ⟨[z], ?_, .cons z2 .nil⟩
        simp only [Loss.initRow, show ∀ (a b : XR fp) l, pyGet (a :: b :: l) 1 = .ok b from fun a b l => pyGet_ok_nat (i := 1) |>.2 rfl, py_ok_bind, y1, z1, py_pure]
  | exponential h1 h2 h3 h4 h5 h6 =>
    cases hq with
    | cons _ hq =>
      cases hq with
      | cons hx _ =>
        obtain ⟨y, z, y1, z1, z2⟩ := odds_holds hs hc h1 h2 h3 h4 hx
        refine ⟨[ofRat 1 2 *ₚ z], ?_, .cons (holds_mul hc h6 (close_round hc (by push_cast; exact h5)) z2) .nil⟩
        simp only [Loss.initRow, show ∀ (a b : XR fp) l, pyGet (a :: b :: l) 1 = .ok b from fun a b l => pyGet_ok_nat (i := 1) |>.2 rfl, py_ok_bind, y1, z1, py_pure]
  | multinomial h1 h2 =>
    show ∃ r, (q.mapM fun x => safeLog (clip x gbEps (ofInt 1 -ₚ gbEps))) = .ok r ∧ _
    have : q.mapM (fun x => safeLog (clip x gbEps (ofInt 1 -ₚ gbEps))) = q.mapM safeLog := by
      apply mapM_congr
      intro x hx
      obtain ⟨p, hp, hpx⟩ := rel_right hq x hx
      rw [inner_clip hs hc (h1 p hp) hpx]
    rw [this]
    exact forall₂_mapM h2 hq fun a b x h hx => holds_log hs hc h hx

theorem range_getMapM {β : Type} {r : List (XR fp)} {f : XR fp → Py β} :
    ((List.range r.length).mapM fun (i : Nat) => pyGet r (i : Int) >>= f) = r.mapM f := by
  have : r.mapM f = ((List.range r.length).map fun i => r.getD i (ofInt 0)).mapM f := by
    congr 1
    apply List.ext_getElem
    · simp
    · intro i h1 h2
      simp [h1]
  rw [this, mapM_map']
  apply mapM_congr
  intro i hi
  have hi := List.mem_range.1 hi
  rw [pyGet_lt hi, py_ok_bind]
  simp [hi]

theorem links_holds (hs : fp.Sound) (hc : fp.Close) {l : Loss} {R P : List Span} (h : Links l R P) {r : List (XR fp)} (hr : InBox R r) :
    ∃ p, l.probaRow r = .ok p ∧ InBox P p := by
  cases h with
  | binomial h1 h2 =>
    cases hr with
    | cons hx hn =>
      cases hn
      obtain ⟨y, e1, e2⟩ := holds_expit hs hc h1 hx
      refine ⟨[ofInt 1 -ₚ y, y], ?_, .cons (holds_sub hc h2 (holds_one hs) e2) (.cons e2 .nil)⟩
      simp only [Loss.probaRow, pyGet_zero_cons, py_ok_bind, e1, py_pure]
  | exponential h1 h2 h3 h4 =>
    cases hr with
    | cons hx hn =>
      cases hn
      obtain ⟨y, e1, e2⟩ := holds_expit hs hc h1 hx
      have e3 := holds_mul hc h3 e2 (holds_ofInt hc (n := 2) (by push_cast; exact h2))
      refine ⟨[ofInt 1 -ₚ (y *ₚ ofInt 2), y *ₚ ofInt 2], ?_, .cons (holds_sub hc h4 (holds_one hs) e3) (.cons e3 .nil)⟩
      simp only [Loss.probaRow, pyGet_zero_cons, py_ok_bind, e1, py_pure]
  | multinomial h1 h2 h3 h4 h5 =>
    obtain ⟨us, e1, e2⟩ := forall₂_mapM (f := safeExp) h1 hr fun a b x h k => holds_exp hc h k
    obtain ⟨z, z1, z2⟩ := holds_log hs hc h3 (holds_sum hs hc h2 e2)
    have hd := forall₂_map_of (f := fun x => x -ₚ z) h4 hr fun a b x h hx => holds_sub hc h hx z2
    obtain ⟨p, p1, p2⟩ := forall₂_mapM (f := safeExp) h5 hd fun a b x h k => holds_exp hc h k
    refine ⟨p, ?_, p2⟩
    rw [mapM_map'] at p1
    simp only [Loss.probaRow, e1, py_ok_bind, z1]
    rw [← inBox_length hr, ← p1]
    exact range_getMapM (f := fun x => safeExp (x -ₚ z))

theorem rawColumn_encloses (hc : fp.Close) {C : Type} {g : GB (XR fp) C} {X : Arr (XR fp)} {n k : Nat} {lr : Span} (hlr : lr.Holds g.learningRate)
    {a d : Span} {vs : List Span} (hst : Staged lr a vs d) {sts : List (List (Arr (XR fp) → Py (List (XR fp))))}
    (h : List.Forall₂ (fun st v => ∃ f p, st[k]? = some f ∧ f X = .ok p ∧ p.length = n ∧ ∀ x ∈ p, Span.Holds v x) sts vs) {col : List (XR fp)}
    (hl : col.length = n) (hcol : ∀ x ∈ col, a.Holds x) : ∃ out, g.rawColumn X k sts col = .ok out ∧ out.length = n ∧ ∀ x ∈ out, d.Holds x := by
  induction hst generalizing sts col with
  | nil =>
    cases h
    exact ⟨col, rfl, hl, hcol⟩
  | cons h1 h2 _ ih =>
    cases h with
    | cons h3 h4 =>
      obtain ⟨f, p, e1, e2, e3, e4⟩ := h3
      obtain ⟨c', c1, c2, c3⟩ := mapM_all (l := List.range p.length) (f := fun (i : Nat) => do
        return (← pyGet col (i : Int)) +ₚ ((← pyGet p (i : Int)) *ₚ g.learningRate)) (Q := Span.Holds _) fun i hi => by
          have hi := List.mem_range.1 hi
          exact ⟨_, by rw [pyGet_lt (show i < col.length by omega), pyGet_lt hi]; rfl,
            holds_add hc h2 (hcol _ (List.getElem_mem _)) (holds_mul hc h1 (e4 _ (List.getElem_mem _)) hlr)⟩
      obtain ⟨out, o1, o2⟩ := ih h4 (by rw [c2, List.length_range, e3]) c3
      exact ⟨out, by simp only [GB.rawColumn, pyGet_ok_nat.2 e1, py_ok_bind, e2, c1, o1], o2⟩

theorem zipStar_inBox {T : List Span} {out : List (List (XR fp))} {n : Nat} (hne : out ≠ []) (h : List.Forall₂ (fun d c => c.length = n ∧ ∀ x ∈ c, Span.Holds d x) T out) :
    (zipStar out).length = n ∧ ∀ r ∈ zipStar out, InBox T r := by
  have hw : Rect n out := fun c hc => by
    obtain ⟨d, -, h⟩ := rel_right h c hc
    exact h.1
  refine ⟨zipStar_length hne hw, fun r hr => ?_⟩
  unfold zipStar at hr
  rw [minLen_rect hne hw] at hr
  obtain ⟨j, hj, rfl⟩ := List.mem_map.1 hr
  have hj := List.mem_range.1 hj
  clear hr hne hw
  induction h with
  | nil => exact .nil
  | @cons d c _ _ h _ ih =>
    have hj' : j < c.length := by rw [h.1]; exact hj
    simp only [List.filterMap_cons, List.getElem?_eq_getElem hj']
    exact .cons (h.2 _ (List.getElem_mem _)) ih

theorem forall₂_range {α β : Type} {R : α → β → Prop} {l : List α} {f : Nat → β} (h : ∀ (i : Nat) a, l[i]? = some a → R a (f i)) {n : Nat} (hn : l.length = n) :
    List.Forall₂ R l ((List.range n).map f) := by
  subst hn
  rw [List.forall₂_iff_get]
  refine ⟨by simp, fun i i1 i2 => ?_⟩
  simpa using h i l[i] (List.getElem?_eq_getElem i1)

/-- Numbers computed one by one from a list of bounds. -/
theorem range_mapM_holds {α β : Type} {R : α → β → Prop} {l : List α} {f : Nat → Py β} {n : Nat} (hn : l.length = n)
    (h : ∀ (i : Nat) a, l[i]? = some a → ∃ y, f i = .ok y ∧ R a y) : ∃ ys, (List.range n).mapM f = .ok ys ∧ List.Forall₂ R l ys := by
  have h1 := forall₂_range (f := fun i => i) (R := fun a i => ∃ y, f i = .ok y ∧ R a y) h hn
  rw [List.map_id'] at h1
  clear h hn
  generalize List.range n = ns at h1 ⊢
  induction h1 with
  | nil => exact ⟨[], rfl, .nil⟩
  | cons h _ ih =>
    obtain ⟨y, e1, e2⟩ := h
    obtain ⟨ys, e3, e4⟩ := ih
    exact ⟨y :: ys, by rw [mapM_cons', e1, e3]; rfl, .cons e2 e4⟩

theorem starts_length {l : Loss} {k : Nat} {loss : String} (hl : lossOf loss k = some l) {I S R P : List Span} (h : Starts l I S) (hR : R.length = S.length)
    (hk : Links l R P) : S.length = l.cols ∧ 0 < l.cols := by
  have := lossOf_classes hl
  cases h with
  | binomial => exact ⟨rfl, Nat.one_pos⟩
  | exponential => exact ⟨rfl, Nat.one_pos⟩
  | @multinomial n ps ss _ _ =>
    cases hk
    exact ⟨hR.symm, this.2⟩

theorem boosting_encloses (hs : fp.Sound) (hc : fp.Close) {cs : List (PVal (XR fp))} {ess : List (List (Methods (XR fp)))} {e0 : Methods (XR fp)} {l : Loss}
    {loss : String} {lr : Span} {rate : XR fp} {B I S T R P : List Span} (hloss : lossOf loss cs.length = some l) (hne : ess ≠ []) (hlr : lr.Holds rate)
    (h0 : Encloses e0 B (.shares I)) (hS : Starts l I S) (hlen : ∀ st ∈ ess, st.length = S.length) (hT : T.length = S.length)
    (hst : ∀ (k : Nat) (d : Span), T[k]? = some d → ∃ vs, List.Forall₂ (fun st v => ∃ e, st[k]? = some e ∧ Encloses e B (.value v)) ess vs ∧ Staged lr nought vs d)
    (hR : Columns Added S T R) (hP : Links l R P) : Encloses (boostingEst cs ess e0 l rate B.length) B (.shares P) := by
  refine ⟨_, rfl, fun M hM => ?_⟩
  obtain ⟨hcols, hpos⟩ := starts_length hloss hS (by rw [← hR.lengths.2]) hP
  obtain ⟨Q, q1, q2, q3⟩ := encloses_runProba h0 hM
  obtain ⟨A, a1, a2, a3⟩ := mapM_all (l := Q) (f := l.initRow) (Q := InBox S) fun q hq => starts_holds hs hc hS (q3 q hq)
  set g : GB (XR fp) (PVal (XR fp)) := ⟨cs, ess.map fun st => st.map fun m => m.runNumbers, e0.runProba, rate, B.length, l⟩ with hg
  obtain ⟨st0, sts, hsts⟩ := List.exists_cons_of_ne_nil hne
  have hg0 : pyGet g.estimators 0 = .ok (st0.map fun m => m.runNumbers) := by rw [hg, hsts]; simp
  have hl0 : (st0.map fun m => m.runNumbers).length = T.length := by rw [List.length_map, hlen st0 (by rw [hsts]; simp), hT]
  obtain ⟨out, o1, o2⟩ := range_mapM_holds (l := T) (f := fun k => do
      g.rawColumn (.ofMat M) k g.estimators (List.replicate (← (Arr.ofMat M).len) (ofInt 0)))
      (R := fun d c => c.length = M.length ∧ ∀ x ∈ c, Span.Holds d x) rfl fun k d hd => by
    obtain ⟨vs, v1, v2⟩ := hst k d hd
    rw [len_ofMat, py_ok_bind]
    refine rawColumn_encloses hc hlr v2 ?_ (by simp) (fun x hx => by rw [List.eq_of_mem_replicate hx]; exact holds_nought hs)
    show List.Forall₂ _ (ess.map fun st => st.map fun m => m.runNumbers) vs
    rw [List.forall₂_map_left_iff]
    refine v1.imp fun st v h => ?_
    obtain ⟨e, e1, e2⟩ := h
    obtain ⟨ys, y1, y2⟩ := encloses_runNumbers e2 hM
    exact ⟨e.runNumbers, ys, by simp [e1], y1, y2⟩
  have hone : out ≠ [] := by
    rintro rfl
    have := o2.length_eq
    simp only [List.length_nil] at this
    omega
  obtain ⟨z1, z2⟩ := zipStar_inBox hone o2
  obtain ⟨W, w1, w2, w3⟩ := added_rows hc hR (List.length_pos_of_ne_nil hM.1) (a2.trans q2) z1 a3 z2
  have hraw : g.rawPredict (.ofMat M) = .ok W := by
    have q1 : g.initProba (.ofMat M) = .ok Q := q1
    have a1 : g.loss.initRaw Q = .ok A := (Loss.initRaw_eq l Q).trans a1
    simp only [GB.rawPredict, GB.rawPredictInit_eq (g := g) hM.1 hM.rect, q1, py_ok_bind, a1, hg0, hl0, o1, transpose_ofMat]
    exact w1
  obtain ⟨N, n1, n2, n3⟩ := mapM_all (l := W) (f := l.probaRow) (Q := InBox P) fun r hr => links_holds hs hc hP (w3 r hr)
  refine ⟨N, ?_, n2.trans w2, n3⟩
  show g.predictProba (.ofMat M) = .ok N
  rw [GB.predictProba, hraw, py_ok_bind]
  refine ((Loss.rawToProba_rowwise l (ne_nil_of_length w2 hM.1) fun r hr => ?_) N).2 n1
  rw [inBox_length (w3 r hr), ← hcols, ← hR.lengths.2]

theorem boosting_label {cs : List (PVal (XR fp))} {ess : List (List (Methods (XR fp)))} {e0 : Methods (XR fp)} {ls : Loss} {rate : XR fp} {nf : Nat}
    {B P : List Span} {k : Nat} {l : PVal (XR fp)} (h : Encloses (boostingEst cs ess e0 ls rate nf) B (.shares P)) (hk : Leads P k) (hl : cs[k]? = some l) :
    Encloses (boostingEst cs ess e0 ls rate nf) B (.label l) := by
  obtain ⟨q, hq, h⟩ := h
  cases hq
  refine ⟨_, rfl, fun M hM => ?_⟩
  obtain ⟨N, n1, n2, n3⟩ := h M hM
  have n1 : (⟨cs, ess.map fun st => st.map fun m => m.runNumbers, e0.runProba, rate, nf, ls⟩ : GB (XR fp) (PVal (XR fp))).predictProba (.ofMat M) = .ok N := n1
  show (⟨cs, ess.map fun st => st.map fun m => m.runNumbers, e0.runProba, rate, nf, ls⟩ : GB (XR fp) (PVal (XR fp))).predict (.ofMat M) = _
  rw [GB.predict, n1, py_ok_bind]
  exact largest_label hk hl n2 n3

/-! ### Any nesting -/

/-- What a certificate bounds is answered within the bounds. -/
theorem behaves_encloses (hs : fp.Sound) (hc : fp.Close) {o : SkObj (Attrs (XR fp)) (PVal (XR fp)) (XR fp)} {B : List Span} {b : Bound fp}
    (h : Enclosed o B b) {f : Methods (XR fp)} (hb : Behaves lib encode o f) : Encloses f B b := by
  induction h generalizing f with
  | @single c v a s B b hl hs' =>
    cases hb with
    | single hv hl1 =>
      rw [C89_behaviour_unique (.single hv hl1) (.single (lib := lib) (encode := encode) hv hl)]
      exact bounded_encloses hs hc lib encode hs'
  | @lastStep v n o B b _ ih =>
    cases hb with
    | @pipeline _ _ es hv hs =>
      cases hs with
      | @cons _ e _ _ he hn =>
        cases hn
        show Encloses (pipelineEst [(n, e)]) B b
        rw [pipeline_single]
        exact ih he
  | @firstStep v n o s ss B C b _ _ ih1 ih2 =>
    cases hb with
    | @pipeline _ _ es hv hs =>
      cases hs with
      | @cons _ e _ es he hn =>
        have h2 := ih2 (.pipeline (steps := s :: ss) hv hn)
        have h1 := ih1 he
        cases hn with
        | @cons _ e1 _ es _ _ => exact pipe_encloses n h1 h2
  | @union v wts B steps hne _ h1 h2 ih =>
    cases hb with
    | @union _ _ _ es hv he => exact union_encloses hc wts hne h1 h2 he fun s hs f hb => ih s hs hb
  | @ensemble kd v cs B P ms hms ha ih =>
    cases hb with
    | @ensemble _ _ _ _ _ es hv hcs he =>
      refine ensemble_encloses hc ha ?_
      rw [List.forall₂_map_left_iff] at he
      rw [List.forall₂_map_right_iff]
      refine List.Forall₂.flip ?_
      clear ha hms
      induction he with
      | nil => exact .nil
      | cons h _ ih' => exact .cons (ih _ (by simp) h) (ih' fun m hm => ih m (by simp [hm]))
  | @subspaces kd v cs B P ms hfs _ ha ih =>
    cases hb with
    | @ensemble _ _ _ _ _ es hv hcs he =>
      have hl := he.length_eq
      rw [List.length_map] at hl
      refine subspaces_encloses hc ha (by simp [hl]) (by simp) (fun f hf => ?_) fun i e f p h1 h2 h3 => ?_
      · obtain ⟨m, hm, rfl⟩ := List.mem_map.1 hf
        exact hfs m hm
      · obtain ⟨i1, rfl⟩ := List.getElem?_eq_some_iff.1 h1
        have i2 : i < ms.length := by omega
        simp only [List.getElem?_map, List.getElem?_eq_getElem i2, Option.map_some, Option.some.injEq] at h2 h3
        subst h2 h3
        refine ih ms[i] (List.getElem_mem _) ?_
        have := forall₂_get he (by simpa using i2) i1
        simpa using this
  | @ensembleLabel kd v fs cs ms B P k l _ hk hl ih =>
    have h := ih hb
    cases hb with
    | @ensemble _ _ _ _ _ es hv hcs he => exact ensemble_label h hk hl
  | @boosting v cs i loss l lr B I R P stages rate hloss hne hlr _ hms hex hP ih0 ihs =>
    obtain ⟨S, T, hS, hlen, hT, hst, hR⟩ := hex
    cases hb with
    | @boosting _ _ _ _ _ _ _ l' es e hv hcs' he h0 hl' =>
      obtain rfl : l' = l := Option.some.inj (hl'.symm.trans hloss)
      rw [List.forall₂_map_left_iff] at he
      refine boosting_encloses hs hc hloss (by rintro rfl; cases he; exact hne rfl) hlr (ih0 h0) hS (fun st hst => ?_) hT (fun k d hd => ?_) hR hP
      · obtain ⟨st', hm, hF⟩ := rel_right he st hst
        rw [← hF.length_eq, List.length_map, hlen st' hm]
      · obtain ⟨vs, v1, v2⟩ := hst k d hd
        refine ⟨vs, ?_, v2⟩
        clear v2 hst hne hlen hms
        induction v1 generalizing es with
        | nil =>
          cases he
          exact .nil
        | @cons st v sts vs h _ ih' =>
          cases he with
          | @cons _ es0 _ ess he1 he2 =>
            refine .cons ?_ (ih' (fun st hs m hm => ihs st (by simp [hs]) m hm) he2)
            obtain ⟨o, ho⟩ := h
            have hm : (o, v) ∈ st := List.mem_of_getElem? ho
            rw [List.forall₂_map_left_iff] at he1
            obtain ⟨e', he', hbe⟩ := forall₂_getElem?_right he1 ho
            exact ⟨e', he', ihs st (by simp) (o, v) hm hbe⟩
  | @boostingLabel v cs stages i loss ps B P k l _ hk hl ih =>
    have h := ih hb
    cases hb with
    | @boosting _ _ _ _ _ _ _ l' es e hv hcs' he h0 hl' => exact boosting_label h hk hl

end PurePredict
