import Verif.Lemmas.BatchChain
import Verif.Props.C42
/-
A feature union of record-by-record transformers is record by record.
-/
namespace PurePredict
open Spec
variable {F : Type} [Arith F]

/-- Presentations as matrices: what `check_array` passes on, one row per record. -/
def Spec.Form.IsMatrix (A : Form (Arr F)) : Prop :=
  ∀ xs, A.Batch xs → checkArray (A.emb xs) .allow = .ok (A.emb xs) ∧
    (A.emb xs).len = .ok xs.length

omit [Arith F] in
theorem Spec.Form.denseOf_isMatrix (w : Nat) : (Form.denseOf F w).IsMatrix := by
  intro xs hxs
  exact ⟨checkArray_ofMat (M := xs) hxs.1 .allow, len_ofMat (M := xs)⟩

omit [Arith F] in
theorem Spec.Form.sparseOf_isMatrix (w : Nat) (dt : DType) : (Form.sparseOf F w dt).IsMatrix := by
  intro xs hxs
  refine ⟨rfl, ?_⟩
  show (Arr.sparse xs (some w) dt).len = _
  simp only [Arr.len, Arr.rows, py_ok_bind, py_pure]
  exact congrArg Except.ok (List.length_map ..)

/-- A weight keeps a transformer record by record (on sparse results it always raises). -/
theorem transformOne_record {D : Type} {A : Form D} {t : D → Py (Arr F)} {k : Kind}
    (h : RecordByRecord A (k.form F) t) (c : Option F) :
    RecordByRecord A (k.form F) (fun X => transformOne t X c) := by
  cases c with
  | none =>
    have : (fun X => transformOne t X none) = t := by
      funext X
      unfold transformOne
      cases t X <;> rfl
    rw [this]; exact h
  | some c =>
    obtain ⟨g, b, r⟩ := h
    cases k with
    | sparse w dt =>
      have he : ∀ xs, A.Batch xs → ∀ y, transformOne t (A.emb xs) (some c) ≠ .ok y := by
        intro xs hxs y hy
        unfold transformOne at hy
        obtain ⟨z, hz, hy⟩ := bind_ok_iff.1 hy
        obtain ⟨d, -, rfl⟩ := ((r xs hxs).1 z).1 hz
        have : apply2d ((Kind.sparse w dt).form F |>.emb d) (fun x => .ok (x *ₚ c)) =
          (.error .valueError : Py (List (List F))) := rfl
        dsimp only at hy
        rw [this] at hy
        cases hy
      refine ⟨fun _ => .error .valueError, BatchIndependent.of_error fun _ _ _ => ⟨_, rfl⟩,
        fun xs hxs => ⟨fun y => ?_, fun c hc => by cases hc⟩⟩
      constructor
      · intro hy; exact absurd hy (he xs hxs y)
      · rintro ⟨_, h, _⟩; cases h
    | dense w =>
      refine ⟨fun xs => g xs >>= fun M => .ok (M.map fun r : List F => r.map (· *ₚ c)),
        b.then_map _, fun xs hxs => ⟨fun y => ?_, fun M hM z hz => ?_⟩⟩
      · unfold transformOne
        rw [bind_ok_iff]
        constructor
        · rintro ⟨z, hz, hy⟩
          obtain ⟨d, hd, rfl⟩ := ((r xs hxs).1 z).1 hz
          have e : apply2d ((Kind.dense w).form F |>.emb d) (fun x => .ok (x *ₚ c)) =
            .ok ((show List (List F) from d).map fun r => r.map (· *ₚ c)) := apply2d_ofMat_ok d _
          dsimp only at hy
          rw [e] at hy
          cases hy
          exact ⟨_, bind_ok_iff.2 ⟨d, hd, rfl⟩, rfl⟩
        · rintro ⟨M, hM, rfl⟩
          obtain ⟨d, hd, hM⟩ := bind_ok_iff.1 hM
          cases hM
          have e : apply2d ((Kind.dense w).form F |>.emb d) (fun x => .ok (x *ₚ c)) =
            .ok ((show List (List F) from d).map fun r => r.map (· *ₚ c)) := apply2d_ofMat_ok d _
          refine ⟨_, ((r xs hxs).1 _).2 ⟨d, hd, rfl⟩, ?_⟩
          dsimp only
          rw [e]
          rfl
      · obtain ⟨d, hd, hM⟩ := bind_ok_iff.1 hM
        cases hM
        obtain ⟨l, hl, rfl⟩ := List.mem_map.1 hz
        have := (r xs hxs).2 d hd l hl
        show (l.map (· *ₚ c)).length = w
        rw [List.length_map]; exact this

/-- What is known of a transformer's block once it is a `sparse_list` / of its dense rows. -/
structure Spec.BlockFun {β D : Type} (A : Form D) (t : D → Py (Arr F)) (Q : Arr F → List β → Prop)
    (g : List A.Rec → Py (List β)) : Prop where
  batch : BatchIndependent A.Ok g
  fwd : ∀ xs, A.Batch xs → ∀ y, t (A.emb xs) = .ok y → ∃ c, g xs = .ok c ∧ Q y c
  bwd : ∀ xs, A.Batch xs → ∀ c, g xs = .ok c → ∃ y, t (A.emb xs) = .ok y ∧ Q y c

theorem mapM_blockFun {β ι D : Type} {A : Form D} {ts : List (D → Py (Arr F))}
    {ks : List ι} {Q : ι → Arr F → List β → Prop}
    (h : List.Forall₂ (fun t k => ∃ g, Spec.BlockFun (β := β) A t (Q k) g) ts ks) :
    ∃ gs : List (List A.Rec → Py (List β)), (∀ g ∈ gs, BatchIndependent A.Ok g) ∧
      (∀ xs, A.Batch xs → ∀ Xs, ts.mapM (fun t => t (A.emb xs)) = .ok Xs →
        ∃ cs, gs.mapM (fun g => g xs) = .ok cs ∧ Xs.length = ks.length ∧ cs.length = ks.length ∧
          ∀ (i : Nat) (hk : i < ks.length) (hx : i < Xs.length) (hc : i < cs.length), Q ks[i] Xs[i] cs[i]) ∧
      (∀ xs, A.Batch xs → ∀ cs, gs.mapM (fun g => g xs) = .ok cs →
        ∃ Xs, ts.mapM (fun t => t (A.emb xs)) = .ok Xs ∧ Xs.length = ks.length ∧ cs.length = ks.length ∧
          ∀ (i : Nat) (hk : i < ks.length) (hx : i < Xs.length) (hc : i < cs.length), Q ks[i] Xs[i] cs[i]) := by
  induction h with
  | nil =>
    refine ⟨[], by simp, fun xs hxs Xs h => ⟨[], by simp, ?_⟩, fun xs hxs cs h => ⟨[], by simp, ?_⟩⟩
    · cases h; simp
    · cases h; simp
  | @cons t k ts ks h1 _ ih =>
    obtain ⟨g, hg⟩ := h1
    obtain ⟨gs, h1, h2, h3⟩ := ih
    refine ⟨g :: gs, ?_, fun xs hxs Xs h => ?_, fun xs hxs cs h => ?_⟩
    · intro g' hg'
      rcases List.mem_cons.1 hg' with rfl | hg'
      · exact hg.batch
      · exact h1 g' hg'
    · obtain ⟨X, Xs, hX, hXs, rfl⟩ := mapM_cons_ok.1 h
      obtain ⟨c, hc, hq⟩ := hg.fwd xs hxs X hX
      obtain ⟨cs, hcs, e1, e2, hq'⟩ := h2 xs hxs Xs hXs
      refine ⟨c :: cs, mapM_cons_ok.2 ⟨c, cs, hc, hcs, rfl⟩, by simp [e1], by simp [e2], ?_⟩
      intro i hk hx hc
      cases i with
      | zero => exact hq
      | succ i => exact hq' i (by simpa using hk) (by simpa using hx) (by simpa using hc)
    · obtain ⟨c, cs, hc, hcs, rfl⟩ := mapM_cons_ok.1 h
      obtain ⟨X, hX, hq⟩ := hg.bwd xs hxs c hc
      obtain ⟨Xs, hXs, e1, e2, hq'⟩ := h3 xs hxs cs hcs
      refine ⟨X :: Xs, mapM_cons_ok.2 ⟨X, Xs, hX, hXs, rfl⟩, by simp [e1], by simp [e2], ?_⟩
      intro i hk hx hc
      cases i with
      | zero => exact hq
      | succ i => exact hq' i (by simpa using hk) (by simpa using hx) (by simpa using hc)

theorem record_block {D : Type} {A : Form D} {t : D → Py (Arr F)} {k : Kind}
    (h : RecordByRecord A (k.form F) t) (hk : ∀ w, k = .dense w → 0 < w) :
    ∃ g, Spec.BlockFun (β := Dict Int F) A t
      (fun y c => toBlock y = .ok (c, k.width) ∧ y.issparse = k.isSparse) g := by
  obtain ⟨g, b, r⟩ := h
  cases k with
  | sparse w dt =>
    refine ⟨g, b, fun xs hxs y hy => ?_, fun xs hxs c hc => ?_⟩
    · obtain ⟨c, hc, rfl⟩ := ((r xs hxs).1 y).1 hy
      exact ⟨c, hc, rfl, rfl⟩
    · exact ⟨_, ((r xs hxs).1 _).2 ⟨c, hc, rfl⟩, rfl, rfl⟩
  | dense w =>
    have hw := hk w rfl
    have key : ∀ xs, A.Batch xs → ∀ M : List (List F), g xs = .ok M →
        toBlock (.ofMat M) = .ok (M.map (fun r => sparsePairs r w), w) := by
      intro xs hxs M hM
      have hr : Rect w M := (r xs hxs).2 M hM
      have hne : M ≠ [] := by
        rintro rfl
        exact hxs.1 (List.length_eq_zero_iff.1 (b.length hxs.1 hxs.2 hM).symm)
      obtain ⟨x, hx⟩ : ∃ x, pyGet (M.headD []) 0 = .ok x := by
        obtain ⟨l, M, rfl⟩ := List.exists_cons_of_ne_nil hne
        have hl : l.length = w := hr l (by simp)
        exact ⟨l[0]'(by omega), pyGet_lt (i := 0) (by simpa using (by omega : 0 < l.length))⟩
      unfold toBlock
      rw [issparse_ofMat]
      simp only [Bool.false_eq_true, if_false, tosparse_ofMat hne hr hx, py_ok_bind, py_pure]
    refine ⟨fun xs => g xs >>= fun M => .ok (M.map fun r : List F => sparsePairs r w),
      b.then_map _, fun xs hxs y hy => ?_, fun xs hxs c hc => ?_⟩
    · obtain ⟨M, hM, rfl⟩ := ((r xs hxs).1 y).1 hy
      exact ⟨_, bind_ok_iff.2 ⟨M, hM, rfl⟩, key xs hxs M hM, issparse_ofMat (M := M)⟩
    · obtain ⟨M, hM, hc⟩ := bind_ok_iff.1 hc
      cases hc
      exact ⟨_, ((r xs hxs).1 _).2 ⟨M, hM, rfl⟩, key xs hxs M hM, issparse_ofMat (M := M)⟩

theorem record_rows {D : Type} {A : Form D} {t : D → Py (Arr F)} {w : Nat}
    (h : RecordByRecord A (.denseOf F w) t) :
    ∃ g, Spec.BlockFun (β := List F) A t (fun y c => y = .ofMat c ∧ Rect w c) g := by
  obtain ⟨g, b, r⟩ := h
  refine ⟨g, b, fun xs hxs y hy => ?_, fun xs hxs c hc => ?_⟩
  · obtain ⟨c, hc, rfl⟩ := ((r xs hxs).1 y).1 hy
    exact ⟨c, hc, rfl, (r xs hxs).2 c hc⟩
  · exact ⟨_, ((r xs hxs).1 _).2 ⟨c, hc, rfl⟩, rfl, (r xs hxs).2 c hc⟩

/-- The transformers with their weights (pipeline.py:188-191). -/
def FeatureUnion.weighted (u : FeatureUnion F) : List (Arr F → Py (Arr F)) :=
  u.transformers.map fun t X => transformOne t.2 X (u.weightOf t.1)

theorem FeatureUnion.weighted_mapM (u : FeatureUnion F) (X : Arr F) :
    (u.transformers.mapM fun t => transformOne t.2 X (u.weightOf t.1)) =
      u.weighted.mapM fun t => t X := by
  rw [FeatureUnion.weighted, mapM_map']

theorem FeatureUnion.weighted_record (u : FeatureUnion F) {A : Form (Arr F)} {ks : List Kind}
    (h : List.Forall₂ (fun t k => RecordByRecord A (k.form F) t.2) u.transformers ks) :
    List.Forall₂ (fun t k => RecordByRecord A (k.form F) t) u.weighted ks := by
  rw [FeatureUnion.weighted, List.forall₂_map_left_iff]
  exact h.imp fun t k ht => transformOne_record ht _

theorem unionDenseRow_cols (cs : List (List (List F))) (i : Nat) :
    unionDenseRow (cs.map fun c => c.map Row.list) i =
      (cs.mapM fun c => pyGet c (i : Int)) >>= fun ls => .ok ls.flatten := by
  have e1 : ((cs.map fun c => c.map Row.list).mapM fun X => pyGet X (i : Int)) =
      (cs.mapM fun c => pyGet c (i : Int)) >>= fun ls => (.ok (ls.map Row.list) : Py _) := by
    rw [mapM_map']
    induction cs with
    | nil => rfl
    | cons c cs ih =>
      rw [mapM_cons', mapM_cons', ih]
      have : pyGet (c.map Row.list) (i : Int) = pyGet c (i : Int) >>= fun l => .ok (Row.list l) := by
        by_cases hi : i < c.length
        · rw [pyGet_lt (by simpa using hi), pyGet_lt hi]; simp
        · rw [pyGet_ge (by simpa using hi), pyGet_ge (by simpa using hi)]; rfl
      rw [this]
      cases pyGet c (i : Int) with
      | error e => rfl
      | ok l =>
        cases cs.mapM fun c => pyGet c (i : Int) <;> rfl
  unfold unionDenseRow
  rw [e1]
  cases cs.mapM fun c => pyGet c (i : Int) with
  | error e => rfl
  | ok ls =>
    simp only [py_ok_bind]
    have key : (ls.map Row.list).mapM Row.asList = (.ok ls : Py _) := by
      rw [mapM_map']
      exact (mapM_ok_map (g := id) fun _ _ => rfl).trans (by simp)
    match ls with
    | [] => rfl
    | [l] => simp [Row.iter]
    | l :: l' :: ls =>
      simp only [List.map_cons] at key ⊢
      rw [key]; rfl

/-- The transformers' results put side by side (pipeline.py:188-218). -/
def sideBySide {D : Type} (len : D → Py Nat) (shape : D → Py Shape) (ts : List (D → Py (Arr F))) (X : D) : Py (Arr F) :=
  (ts.mapM fun t => t X) >>= unionOf (len X) (shape X)

theorem results_ne_nil {D : Type} {ts : List (D → Py (Arr F))} (h : ts ≠ []) {X : D} {Xs : List (Arr F)}
    (hX : ts.mapM (fun t => t X) = .ok Xs) : Xs.isEmpty = false := by
  have := mapM_length hX
  cases Xs with
  | nil => exact absurd (List.length_eq_zero_iff.1 this.symm) h
  | cons _ _ => rfl

theorem sideBySide_dense {D : Type} {A : Form D} {len : D → Py Nat} {shape : D → Py Shape}
    (hA : ∀ xs, A.Batch xs → len (A.emb xs) = .ok xs.length)
    {ts : List (D → Py (Arr F))} (hne : ts ≠ []) {ws : List Nat}
    (hw : List.Forall₂ (fun t w => RecordByRecord A (.denseOf F w) t) ts ws) :
    RecordByRecord A (.denseOf F ws.sum) (sideBySide len shape ts) := by
  obtain ⟨gs, b, fwd, bwd⟩ := mapM_blockFun (hw.imp fun t w ht => record_rows ht)
  -- the union on a batch, given the transformers' matrices
  have key : ∀ xs, A.Batch xs → ∀ Xs (cs : List (List (List F))),
      ts.mapM (fun t => t (A.emb xs)) = .ok Xs →
      Xs.length = ws.length → cs.length = ws.length →
      (∀ (i : Nat) (hk : i < ws.length) (hx : i < Xs.length) (hc : i < cs.length),
        Xs[i] = .ofMat cs[i] ∧ Rect ws[i] cs[i]) →
      sideBySide len shape ts (A.emb xs) =
        ((List.range xs.length).mapM fun (j : Nat) => cs.mapM fun c => pyGet c (j : Int)) >>=
          fun rs => .ok (.ofMat (rs.map List.flatten)) := by
    intro xs hxs Xs cs hXs e1 e2 hq
    have hXs' : Xs = cs.map Arr.ofMat := by
      apply List.ext_getElem (by simp [e1, e2])
      intro i h1 h2
      rw [List.getElem_map]
      exact (hq i (by omega) h1 (by simpa using h2)).1
    have hns : Xs.any Arr.issparse = false := by
      rw [hXs', List.any_map, List.any_eq_false]
      intro c _
      simp [issparse_ofMat]
    have hrows : Xs.mapM Arr.rows = .ok (cs.map fun c => c.map Row.list) := by
      rw [hXs', mapM_map']
      exact mapM_ok_map fun c _ => rows_ofMat c
    unfold sideBySide unionOf
    rw [hXs, py_ok_bind]
    simp only [results_ne_nil hne hXs, hns, Bool.false_eq_true, if_false, hrows, py_ok_bind,
      hA xs hxs, unionDenseRow_cols]
    generalize List.range xs.length = js
    have : ∀ js : List Nat, (js.mapM fun (j : Nat) => (cs.mapM fun c => pyGet c (j : Int)) >>= fun ls =>
        (.ok ls.flatten : Py (List F))) =
        (js.mapM fun (j : Nat) => cs.mapM fun c => pyGet c (j : Int)) >>= fun rs =>
          .ok (rs.map List.flatten) := by
      intro js
      induction js with
      | nil => rfl
      | cons j js ih =>
        rw [mapM_cons', mapM_cons', ih]
        cases cs.mapM fun c => pyGet c (j : Int) with
        | error e => rfl
        | ok l => cases js.mapM fun (j : Nat) => cs.mapM fun c => pyGet c (j : Int) <;> rfl
    rw [this]
    cases js.mapM fun (j : Nat) => cs.mapM fun c => pyGet c (j : Int) <;> rfl
  refine ⟨fun xs => (do
      let cols ← gs.mapM fun g => g xs
      (List.range xs.length).mapM fun (j : Nat) => cols.mapM fun c => pyGet c (j : Int)) >>=
        fun rs => .ok (rs.map List.flatten),
    (Spec.BatchIndependent.columns gs (f := fun g xs => g xs) b).then_map List.flatten,
    fun xs hxs => ⟨fun y => ?_, fun M hM z hz => ?_⟩⟩
  · constructor
    · intro hy
      have : ∃ Xs, ts.mapM (fun t => t (A.emb xs)) = .ok Xs := by
        unfold sideBySide at hy
        rw [bind_ok_iff] at hy
        exact ⟨_, hy.choose_spec.1⟩
      obtain ⟨Xs, hXs⟩ := this
      obtain ⟨cs, hcs, e1, e2, hq⟩ := fwd xs hxs Xs hXs
      rw [key xs hxs Xs cs hXs e1 e2 hq] at hy
      obtain ⟨rs, hrs, hy⟩ := bind_ok_iff.1 hy
      cases hy
      exact ⟨_, bind_ok_iff.2 ⟨rs, bind_ok_iff.2 ⟨cs, hcs, hrs⟩, rfl⟩, rfl⟩
    · rintro ⟨M, hM, rfl⟩
      obtain ⟨rs, hrs, hM⟩ := bind_ok_iff.1 hM
      cases hM
      obtain ⟨cs, hcs, hrs⟩ := bind_ok_iff.1 hrs
      obtain ⟨Xs, hXs, e1, e2, hq⟩ := bwd xs hxs cs hcs
      rw [key xs hxs Xs cs hXs e1 e2 hq, hrs]
      rfl
  · obtain ⟨rs, hrs, hM⟩ := bind_ok_iff.1 hM
    cases hM
    obtain ⟨cs, hcs, hrs⟩ := bind_ok_iff.1 hrs
    obtain ⟨Xs, hXs, e1, e2, hq⟩ := bwd xs hxs cs hcs
    obtain ⟨ls, hls, rfl⟩ := List.mem_map.1 hz
    obtain ⟨j, -, hj⟩ := mapM_mem hrs hls
    show ls.flatten.length = ws.sum
    rw [List.length_flatten]
    congr 1
    have el := mapM_length hj
    apply List.ext_getElem (by simp [el, e2])
    intro i h1 h2
    rw [List.getElem_map]
    simp only [List.length_map] at h1
    have hg := mapM_getElem hj i (by omega) h1
    exact (hq i h2 (by omega) (by omega)).2 _ (pyGet_ok_mem hg)

theorem unionRow_cols (cs : List (List (Dict Int F))) (ws starts : List Nat)
    (h : cs.length = ws.length) (hs : cs.length ≤ starts.length) (i : Nat) :
    unionRow (cs.zip ws) starts i = (cs.mapM fun c => pyGet c (i : Int)) >>= fun ds =>
      .ok (Dict.ofList (List.zipWith (fun d s => shiftKeys s d) ds starts).flatten) := by
  have e : ((List.zip (cs.zip ws) starts).mapM fun p => (do
        return shiftKeys p.2 (← pyGet p.1.1 (i : Int)) : Py (Dict Int F))) =
      (cs.mapM fun c => pyGet c (i : Int)) >>= fun ds =>
        (.ok (List.zipWith (fun d s => shiftKeys s d) ds starts) : Py _) := by
    induction cs generalizing ws starts with
    | nil => rfl
    | cons c cs ih =>
      match ws, starts, h, hs with
      | w :: ws, s :: starts, h, hs =>
        rw [List.zip_cons_cons, List.zip_cons_cons, mapM_cons', mapM_cons',
          ih ws starts (by simpa using h) (by simpa using hs)]
        cases pyGet c (i : Int) with
        | error e => rfl
        | ok d => cases cs.mapM fun c => pyGet c (i : Int) <;> rfl
  unfold unionRow
  rw [e]
  cases cs.mapM fun c => pyGet c (i : Int) <;> rfl

theorem accumuFrom_length (t : Nat) (l : List Nat) : (accumuFrom t l).length = l.length := by
  induction l generalizing t with
  | nil => rfl
  | cons x l ih => simp [accumuFrom, ih]

theorem sideBySide_sparse {D : Type} {A : Form D} {len : D → Py Nat} {shape : D → Py Shape}
    (hA : ∀ xs, A.Batch xs → len (A.emb xs) = .ok xs.length) {ts : List (D → Py (Arr F))}
    {ks : List Kind} (hsp : ∃ k ∈ ks, k.isSparse = true) (hpos : ∀ w, Kind.dense w ∈ ks → 0 < w)
    (hw : List.Forall₂ (fun t k => RecordByRecord A (k.form F) t) ts ks) :
    RecordByRecord A (.sparseOf F (ks.map Kind.width).sum .float) (sideBySide len shape ts) := by
  have hne : ts ≠ [] := by
    intro e
    rw [e] at hw
    cases hw
    simp at hsp
  have hw' : List.Forall₂ (fun t k => ∃ g, Spec.BlockFun (β := Dict Int F) A t
      (fun y c => toBlock y = .ok (c, k.width) ∧ y.issparse = k.isSparse) g) ts ks := by
    rw [List.forall₂_iff_get] at hw ⊢
    refine ⟨hw.1, fun i h1 h2 => record_block (hw.2 i h1 h2) fun w e => hpos w ?_⟩
    rw [← e]; exact List.getElem_mem h2
  obtain ⟨gs, b, fwd, bwd⟩ := mapM_blockFun hw'
  have key : ∀ xs, A.Batch xs → ∀ Xs (cs : List (List (Dict Int F))),
      ts.mapM (fun t => t (A.emb xs)) = .ok Xs →
      Xs.length = ks.length → cs.length = ks.length →
      (∀ (i : Nat) (hk : i < ks.length) (hx : i < Xs.length) (hc : i < cs.length),
        toBlock Xs[i] = .ok (cs[i], ks[i].width) ∧ Xs[i].issparse = ks[i].isSparse) →
      sideBySide len shape ts (A.emb xs) =
        ((List.range xs.length).mapM fun (j : Nat) => cs.mapM fun c => pyGet c (j : Int)) >>=
          fun rs => .ok (.sparse (rs.map fun ds => Dict.ofList (List.zipWith
            (fun d s => shiftKeys s d) ds (0 :: accumu (ks.map Kind.width))).flatten)
            (some (ks.map Kind.width).sum) .float) := by
    intro xs hxs Xs cs hXs e1 e2 hq
    have hblocks : Xs.mapM toBlock = .ok (cs.zip (ks.map Kind.width)) := by
      rw [mapM_ok_iff, List.forall₂_iff_get]
      refine ⟨by simp [e1, e2], fun i h1 h2 => ?_⟩
      simp only [List.get_eq_getElem, List.getElem_zip, List.getElem_map]
      simp only [List.length_zip, List.length_map] at h2
      exact (hq i (by omega) h1 (by omega)).1
    have hsnd : (cs.zip (ks.map Kind.width)).map (·.2) = ks.map Kind.width :=
      List.map_snd_zip (by simp [e2])
    have hany : Xs.any Arr.issparse = true := by
      obtain ⟨k, hk, hks⟩ := hsp
      obtain ⟨i, hi, rfl⟩ := List.getElem_of_mem hk
      rw [List.any_eq_true]
      exact ⟨Xs[i]'(by omega), List.getElem_mem _, by rw [(hq i hi (by omega) (by omega)).2, hks]⟩
    unfold sideBySide unionOf
    rw [hXs, py_ok_bind]
    simp only [results_ne_nil hne hXs, hany, Bool.false_eq_true, if_false, if_true, hblocks,
      py_ok_bind, hA xs hxs, hsnd]
    have hr : ∀ i : Nat, unionRow (cs.zip (ks.map Kind.width)) (0 :: accumu (ks.map Kind.width)) i =
        (cs.mapM fun c => pyGet c (i : Int)) >>= fun ds =>
          .ok (Dict.ofList (List.zipWith (fun d s => shiftKeys s d) ds
            (0 :: accumu (ks.map Kind.width))).flatten) :=
      fun i => unionRow_cols cs _ _ (by simp [e2]) (by simp [accumu, accumuFrom_length, e2]) i
    simp only [hr]
    have hl : (List.range xs.length) ≠ [] := by
      intro e
      exact hxs.1 (List.length_eq_zero_iff.1 (by simpa using congrArg List.length e))
    generalize List.range xs.length = js at hl ⊢
    have : ∀ (fl : List (Dict Int F) → Dict Int F) (js : List Nat), (js.mapM fun (j : Nat) => (cs.mapM fun c => pyGet c (j : Int)) >>= fun ls =>
        (.ok (fl ls) : Py (Dict Int F))) =
        (js.mapM fun (j : Nat) => cs.mapM fun c => pyGet c (j : Int)) >>= fun rs =>
          .ok (rs.map fl) := by
      intro fl js
      induction js with
      | nil => rfl
      | cons j js ih =>
        rw [mapM_cons', mapM_cons', ih]
        cases cs.mapM fun c => pyGet c (j : Int) with
        | error e => rfl
        | ok l => cases js.mapM fun (j : Nat) => cs.mapM fun c => pyGet c (j : Int) <;> rfl
    rw [this (fun ds : List (Dict Int F) => Dict.ofList (List.zipWith (fun d s => shiftKeys s d) ds
            (0 :: accumu (ks.map Kind.width))).flatten)]
    cases hjs : js.mapM fun (j : Nat) => cs.mapM fun c => pyGet c (j : Int) with
    | error e => rfl
    | ok rs =>
      simp only [py_ok_bind]
      rw [sparseList_dicts]
      intro e
      have := mapM_length hjs
      rw [List.map_eq_nil_iff] at e
      subst e
      exact hl (List.length_eq_zero_iff.1 this.symm)
  generalize hfl : (fun ds : List (Dict Int F) => Dict.ofList (List.zipWith (fun d s => shiftKeys s d) ds
            (0 :: accumu (ks.map Kind.width))).flatten) = fl at key
  refine ⟨fun xs => (do
      let cols ← gs.mapM fun g => g xs
      (List.range xs.length).mapM fun (j : Nat) => cols.mapM fun c => pyGet c (j : Int)) >>=
        fun rs => .ok (rs.map fl),
    (Spec.BatchIndependent.columns gs (f := fun g xs => g xs) b).then_map fl,
    fun xs hxs => ⟨fun y => ?_, fun M hM z hz => trivial⟩⟩
  constructor
  · intro hy
    have : ∃ Xs, ts.mapM (fun t => t (A.emb xs)) = .ok Xs := by
      unfold sideBySide at hy
      rw [bind_ok_iff] at hy
      exact ⟨_, hy.choose_spec.1⟩
    obtain ⟨Xs, hXs⟩ := this
    obtain ⟨cs, hcs, e1, e2, hq⟩ := fwd xs hxs Xs hXs
    rw [key xs hxs Xs cs hXs e1 e2 hq] at hy
    obtain ⟨rs, hrs, hy⟩ := bind_ok_iff.1 hy
    cases hy
    exact ⟨_, bind_ok_iff.2 ⟨rs, bind_ok_iff.2 ⟨cs, hcs, hrs⟩, rfl⟩, rfl⟩
  · rintro ⟨M, hM, rfl⟩
    obtain ⟨rs, hrs, hM⟩ := bind_ok_iff.1 hM
    cases hM
    obtain ⟨cs, hcs, hrs⟩ := bind_ok_iff.1 hrs
    obtain ⟨Xs, hXs, e1, e2, hq⟩ := bwd xs hxs cs hcs
    rw [key xs hxs Xs cs hXs e1 e2 hq, hrs]
    rfl

/-- A union of matrices is its transformers side by side. -/
theorem FeatureUnion.transform_sideBySide (u : FeatureUnion F) {A : Form (Arr F)} (hA : A.IsMatrix) {B : Form (Arr F)}
    (h : RecordByRecord A B (sideBySide Arr.len Arr.shape u.weighted)) : RecordByRecord A B u.transform := by
  obtain ⟨g, b, r⟩ := h
  refine ⟨g, b, fun xs hxs => ⟨fun y => ?_, (r xs hxs).2⟩⟩
  rw [← (r xs hxs).1 y]
  unfold FeatureUnion.transform sideBySide
  rw [(hA xs hxs).1, py_ok_bind, u.weighted_mapM]

theorem union_dense {u : FeatureUnion F} {A : Form (Arr F)} (hA : A.IsMatrix)
    (hne : u.transformers ≠ []) {ws : List Nat}
    (h : List.Forall₂ (fun t w => RecordByRecord A (.denseOf F w) t.2) u.transformers ws) :
    RecordByRecord A (.denseOf F ws.sum) u.transform := by
  have h' : List.Forall₂ (fun t k => RecordByRecord A (k.form F) t.2) u.transformers
      (ws.map Kind.dense) := by
    rw [List.forall₂_map_right_iff]; exact h
  have hw := u.weighted_record h'
  rw [List.forall₂_map_right_iff] at hw
  exact u.transform_sideBySide hA (sideBySide_dense (fun xs hxs => (hA xs hxs).2)
    (by simpa [FeatureUnion.weighted] using hne) hw)

theorem union_sparse {u : FeatureUnion F} {A : Form (Arr F)} (hA : A.IsMatrix)
    {ks : List Kind} (hsp : ∃ k ∈ ks, k.isSparse = true) (hpos : ∀ w, Kind.dense w ∈ ks → 0 < w)
    (h : List.Forall₂ (fun t k => RecordByRecord A (k.form F) t.2) u.transformers ks) :
    RecordByRecord A (.sparseOf F (ks.map Kind.width).sum .float) u.transform :=
  u.transform_sideBySide hA (sideBySide_sparse (fun xs hxs => (hA xs hxs).2) hsp hpos (u.weighted_record h))

end PurePredict
