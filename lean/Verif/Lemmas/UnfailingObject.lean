import Verif.Lemmas.UnfailingFit
import Verif.Lemmas.AnsweredObject
/-
Compound objects answer whatever numbers a well-formed request contains.
-/
namespace PurePredict
open Spec
variable {lib : String → TextLib} {encode : Str → List Nat} {fp : FP}

/-! ### Pipelines -/

theorem pipe_unfailing (n : String) {e : Methods (XR fp)} {s : String × Methods (XR fp)} {ss : List (String × Methods (XR fp))} {A B : Posed}
    {r : Outcome fp} (h1 : Unfailing e A (.form B)) (h2 : Unfailing (pipelineEst (s :: ss)) B r) :
    Unfailing (pipelineEst ((n, e) :: s :: ss)) A r := by
  obtain ⟨t, ht, h1⟩ := h1
  obtain ⟨a1, a2, a3, a4⟩ := pipeline_cons n ht s ss
  have go : ∀ {α : Type} {u : Data (XR fp) → Py α} {Q : Nat → α → Prop}, (∀ X n, B.Holds X n → ∃ y, u X = .ok y ∧ Q n y) →
      ∀ X n, A.Holds X n → ∃ y, (t X >>= u) = .ok y ∧ Q n y := by
    intro α u Q hu X n hX
    obtain ⟨Y, e1, e2⟩ := h1 X n hX
    obtain ⟨y, e3, e4⟩ := hu Y n e2
    exact ⟨y, by rw [e1, py_ok_bind, e3], e4⟩
  cases r with
  | form C =>
    obtain ⟨u, hu, h2⟩ := h2
    exact ⟨fun X => t X >>= u, by rw [a1, hu]; rfl, go h2⟩
  | labels cs d =>
    obtain ⟨⟨p, hp, h3⟩, h2⟩ := h2
    refine ⟨⟨fun X => t X >>= p, by rw [a2, hp]; rfl, go (Q := fun n (ls : List (PVal (XR fp))) => ls.length = n ∧ ∀ l ∈ ls, l ∈ cs) h3⟩,
      fun k hk => ?_⟩
    obtain ⟨⟨q, hq, h4⟩, h5⟩ := h2 k hk
    refine ⟨⟨fun X => t X >>= q, by rw [a3, hq]; rfl,
      go (Q := fun n (P : List (List (XR fp))) => P.length = n ∧ ∀ p ∈ P, p.length = k) h4⟩, fun g hg X n hX => ?_⟩
    rw [a4] at hg
    cases hl : (pipelineEst (s :: ss)).predictLogProba with
    | none => rw [hl] at hg; cases hg
    | some u =>
      rw [hl] at hg
      cases hg
      exact go (Q := fun n (P : List (List (XR fp))) => P.length = n ∧ ∀ p ∈ P, p.length = k) (h5 u hl) X n hX
  | values =>
    obtain ⟨p, hp, h3⟩ := h2
    refine ⟨fun X => t X >>= p, by rw [a2, hp]; rfl, fun X n hX => ?_⟩
    obtain ⟨Y, e1, e2⟩ := h1 X n hX
    obtain ⟨ys, e3, e4⟩ := h3 Y n e2
    exact ⟨ys, by show (t X >>= p) = _; rw [e1, py_ok_bind, e3], e4⟩

/-! ### Unions -/

theorem Spec.Posed.Holds.check {A : Posed} {X : Data (XR fp)} {n : Nat} (h : A.Holds X n) : 0 < n ∧ X.check = .ok X ∧ X.len = .ok n := by
  cases h with
  | dense h1 h2 h3 h4 =>
    subst h4
    refine ⟨List.length_pos_of_ne_nil h2, ?_, len_ofMat _⟩
    simp only [Data.check, checkArray_ofMat h2, py_ok_bind, py_pure]
  | @sparse l w n dt ds h1 h2 h3 h4 =>
    subst h4
    have hX : (Posed.matrix l w).Holds (.arr (.sparse ds (some w) dt)) ds.length := .sparse h1 h2 h3 rfl
    obtain ⟨B, rs, e, c, -, hl, -⟩ := hX.rows
    cases e
    refine ⟨List.length_pos_of_ne_nil h2, ?_, hl⟩
    simp only [Data.check, c, py_ok_bind, py_pure]
  | @docs ds n h1 h2 =>
    subst h2
    have : ds.isEmpty = false := by simpa using h1
    exact ⟨List.length_pos_of_ne_nil h1, by simp [Data.check, this], rfl⟩
  | @records xs n h1 h3 =>
    subst h3
    have : xs.isEmpty = false := by simpa using h1
    exact ⟨List.length_pos_of_ne_nil h1, by simp [Data.check, this], rfl⟩
  | @table xs w n h1 h2 h3 =>
    subst h3
    refine ⟨List.length_pos_of_ne_nil h1, ?_, len_ofMat _⟩
    simp only [Data.check, checkArray_ofMat h1, py_ok_bind, py_pure]

/-- A matrix of `n` rows and `w` columns, in either form. -/
inductive Piece {F : Type} (n w : Nat) : Arr F → Prop
  | dense {M : List (List F)} : M ≠ [] → Rect w M → M.length = n → Piece n w (.ofMat M)
  | sparse {ds : List (Dict Int F)} {dt : DType} : ds ≠ [] → (∀ d ∈ ds, ValidRow w d) → ds.length = n → Piece n w (.sparse ds (some w) dt)

theorem Spec.Posed.Holds.block {l : Layout} {w n : Nat} {X : Data (XR fp)} (h : (Posed.matrix l w).Holds X n) :
    ∃ P, X = .arr P ∧ Piece n w P ∧ l.Fits P.issparse := by
  rcases h.matrix_cases with ⟨M, rfl, h1, h2, h3, h4⟩ | ⟨ds, dt, rfl, h1, h2, h3, h4⟩
  · exact ⟨_, rfl, .dense h1 h2 h3, by rw [issparse_ofMat]; exact h4⟩
  · exact ⟨_, rfl, .sparse h1 h2 h3, h4⟩

theorem Piece.holds {l : Layout} {w n : Nat} {P : Arr (XR fp)} (h : Piece n w P) (hl : l.Fits P.issparse) : (Posed.matrix l w).Holds (.arr P) n := by
  cases h with
  | dense h1 h2 h3 => exact .dense (by rw [issparse_ofMat] at hl; exact hl) h1 h2 h3
  | sparse h1 h2 h3 => exact .sparse hl h1 h2 h3

section
variable {F : Type} [Arith F]

theorem Piece.toBlock {n w : Nat} {A : Arr F} (h : Piece n w A) (hw : 0 < w) :
    ∃ ds, toBlock A = .ok (ds, w) ∧ (∀ d ∈ ds, ValidRow w d) ∧ ds.length = n := by
  cases h with
  | sparse h1 h2 h3 => exact ⟨_, rfl, h2, h3⟩
  | @dense M h1 h2 h3 =>
    obtain ⟨x, hx⟩ : ∃ x, pyGet (M.headD []) 0 = .ok x := by
      cases M with
      | nil => exact absurd rfl h1
      | cons r M =>
        have : 0 < r.length := by rw [h2 r (by simp)]; exact hw
        exact ⟨_, pyGet_lt this⟩
    refine ⟨M.map fun r => sparsePairs r w, ?_, ?_, by simpa using h3⟩
    · simp only [PurePredict.toBlock, issparse_ofMat, Bool.false_eq_true, if_false]
      rw [tosparse_ofMat h1 h2 hx]
      rfl
    · intro d hd
      obtain ⟨r, hr, rfl⟩ := List.mem_map.1 hd
      exact sparsePairs_valid r w

/-- Blocks are put side by side. -/
theorem unionOf_total {n : Nat} (hn : 0 < n) (sh : Py Shape) {Xs : List (Arr F)} {ws : List Nat} (hne : ws ≠ [])
    (hF : List.Forall₂ (fun A w => Piece n w A ∧ 0 < w) Xs ws) : ∃ R, unionOf (.ok n) sh Xs = .ok R ∧ Piece n ws.sum R := by
  have hXne : Xs ≠ [] := by
    rintro rfl
    cases hF
    exact hne rfl
  unfold unionOf
  rw [if_neg (by simpa using hXne)]
  cases hsp : Xs.any Arr.issparse with
  | false =>
    obtain ⟨Ms, hden, hMs⟩ : ∃ Ms : List (List (List F)), Xs.mapM Arr.rows = .ok (Ms.map fun M => M.map Row.list) ∧
        List.Forall₂ (fun M w => M.length = n ∧ Rect w M) Ms ws := by
      clear hXne hne
      induction hF with
      | nil => exact ⟨[], rfl, .nil⟩
      | @cons A w Xs ws h _ ih =>
        rw [List.any_cons, Bool.or_eq_false_iff] at hsp
        obtain ⟨Ms, i1, i2⟩ := ih hsp.2
        have h3 := h.1
        have h4 := hsp.1
        cases h3 with
        | @dense M k1 k2 k3 =>
          refine ⟨M :: Ms, ?_, .cons ⟨k3, k2⟩ i2⟩
          rw [mapM_cons', rows_ofMat, i1]
          rfl
        | sparse => exact absurd h4 (by simp [Arr.issparse])
    have hMne : Ms ≠ [] := by
      rintro rfl
      cases hMs
      exact hne rfl
    have hlen : ∀ M ∈ Ms, M.length = n := fun M hM => by
      obtain ⟨w, -, h⟩ := rel_left hMs M hM
      exact h.1
    simp only [Bool.false_eq_true, if_false, hden, py_ok_bind]
    have hrows : (List.range n).mapM (fun (i : Nat) => unionDenseRow (Ms.map fun M => M.map Row.list) i) =
        .ok ((List.range n).map fun (i : Nat) => hrow Ms i) := by
      apply range_mapM
      intro i hi
      have h1 : (Ms.map fun M => M.map (Row.list (F := F))).mapM (fun X => pyGet X (i : Int)) =
          .ok (Ms.map fun M => Row.list ((M[i]?).getD [])) := by
        rw [mapM_map']
        apply mapM_ok_map
        intro M hm
        have : i < M.length := by rw [hlen M hm]; exact hi
        rw [pyGet_lt (by simpa using this), List.getElem?_eq_getElem this]
        simp
      unfold unionDenseRow
      rw [h1]
      simp only [py_ok_bind]
      match Ms, hMne with
      | [M], _ => simp [Row.iter, hrow]
      | M :: M' :: Ms', _ =>
        simp only [List.map_cons]
        have h2 : (Row.list ((M[i]?).getD []) :: Row.list ((M'[i]?).getD []) ::
            Ms'.map fun M => Row.list ((M[i]?).getD [])).mapM Row.asList = .ok ((M :: M' :: Ms').map fun M => (M[i]?).getD []) := by
          rw [show (Row.list ((M[i]?).getD []) :: Row.list ((M'[i]?).getD []) ::
            Ms'.map fun M => Row.list ((M[i]?).getD [])) = (M :: M' :: Ms').map fun M => Row.list ((M[i]?).getD []) from rfl, mapM_map']
          exact mapM_ok_map fun _ _ => rfl
        rw [h2]
        simp [hrow]
    rw [hrows]
    refine ⟨_, rfl, .dense (by simpa using Nat.pos_iff_ne_zero.1 hn) (fun r hr => ?_) (by simp)⟩
    obtain ⟨i, hi, rfl⟩ := List.mem_map.1 hr
    have hi : i < n := by simpa using hi
    clear hrows hden hMne hlen hXne hne hsp hF hr
    induction hMs with
    | nil => rfl
    | @cons M w Ms ws h _ ih =>
      have hi' : i < M.length := by rw [h.1]; exact hi
      simp only [hrow, List.map_cons, List.flatten_cons, List.length_append, List.sum_cons] at ih ⊢
      rw [ih, List.getElem?_eq_getElem hi', Option.getD_some, h.2 _ (List.getElem_mem hi')]
  | true =>
    obtain ⟨blocks, hb1, hb2⟩ : ∃ blocks, Xs.mapM toBlock = .ok blocks ∧
        List.Forall₂ (fun B w => B.2 = w ∧ B.1.length = n ∧ ∀ d ∈ B.1, ValidRow B.2 d) blocks ws := by
      clear hXne hne hsp
      induction hF with
      | nil => exact ⟨[], rfl, .nil⟩
      | @cons A w Xs ws h _ ih =>
        obtain ⟨blocks, h1, h2⟩ := ih
        obtain ⟨ds, h3, h4, h5⟩ := h.1.toBlock h.2
        exact ⟨(ds, w) :: blocks, by rw [mapM_cons', h3, h1]; rfl, .cons ⟨rfl, h5, h4⟩ h2⟩
    simp only [if_true, hb1, py_ok_bind]
    have hval : ∀ B ∈ blocks, B.1.length = n ∧ ∀ d ∈ B.1, ValidRow B.2 d := by
      intro B hB
      obtain ⟨b, -, h⟩ := rel_left hb2 B hB
      exact h.2
    have hsizes : blocks.map (·.2) = ws := by
      clear hval hb1 hXne hne hsp hF
      induction hb2 with
      | nil => rfl
      | cons h _ ih => rw [List.map_cons, ih, h.1]
    have hrows : (List.range n).mapM (fun (i : Nat) => unionRow blocks (0 :: accumu (blocks.map (·.2))) i) =
        .ok ((List.range n).map fun (i : Nat) => concatFrom 0 (blocks.map fun B => ((B.1[i]?).getD [], B.2))) := by
      apply range_mapM
      intro i hi
      exact unionRow_ok i blocks fun B hB => ⟨by rw [(hval B hB).1]; exact hi, fun d hd => (hval B hB).2 d hd⟩
    rw [hrows]
    simp only [py_ok_bind]
    rw [sparseList_dicts (by simpa using Nat.pos_iff_ne_zero.1 hn), hsizes]
    refine ⟨_, rfl, .sparse (by simpa using Nat.pos_iff_ne_zero.1 hn) (fun d hd => ?_) (by simp)⟩
    obtain ⟨i, hi, rfl⟩ := List.mem_map.1 hd
    have hi : i < n := by simpa using hi
    have hv := concatFrom_valid (blocks.map fun B => ((B.1[i]?).getD [], B.2)) (fun p hp => by
      obtain ⟨B, hB, rfl⟩ := List.mem_map.1 hp
      have hi' : i < B.1.length := by rw [(hval B hB).1]; exact hi
      rw [List.getElem?_eq_getElem hi']
      exact (hval B hB).2 _ (List.getElem_mem hi')) 0
    rw [List.map_map, show (Prod.snd ∘ fun B : List (Dict Int F) × Nat => ((B.1[i]?).getD [], B.2)) = (·.2) from rfl, hsizes] at hv
    exact ⟨hv.1, fun p hp => by simpa using hv.2 p hp⟩

end

theorem union_parts_unfailing {A : Posed} (ws : Option (List (String × XR fp)))
    (steps : List (String × SkObj (Attrs (XR fp)) (PVal (XR fp)) (XR fp) × Layout × Nat))
    (hw : ∀ s ∈ steps, 0 < s.2.2.2 ∧ (weightOf ws s.1 = none ∨ s.2.2.1 = .dense))
    {es : List (Methods (XR fp))} (he : List.Forall₂ (Behaves lib encode) ((steps.map fun s => (s.1, s.2.1)).map Prod.snd) es)
    (H : ∀ s ∈ steps, ∀ f, Behaves lib encode s.2.1 f → Unfailing f A (.form (.matrix s.2.2.1 s.2.2.2)))
    {X : Data (XR fp)} {n : Nat} (hX : A.Holds X n) :
    ∃ Xs, ((((steps.map fun s => (s.1, s.2.1)).map Prod.fst).zip es).mapM fun s => transformOne s.2.runTransform X (weightOf ws s.1)) = .ok Xs ∧
      List.Forall₂ (fun P w => Piece n w P ∧ 0 < w) Xs (steps.map fun s => s.2.2.2) ∧
      List.Forall₂ (fun (l : Layout) X => l.Fits X.issparse) (steps.map fun s => s.2.2.1) Xs := by
  induction steps generalizing es with
  | nil =>
    cases he
    exact ⟨[], rfl, .nil, .nil⟩
  | cons s steps ih =>
    simp only [List.map_cons] at he
    cases he with
    | @cons _ e _ es h1 he =>
      obtain ⟨Xs, e1, e3, e4⟩ := ih (fun s hs => hw s (by simp [hs])) he fun s hs => H s (by simp [hs])
      obtain ⟨t, ht, hs⟩ := H s (by simp) e h1
      obtain ⟨Y, hY1, hY2⟩ := hs X n hX
      obtain ⟨hpos, hwt⟩ := hw s (by simp)
      obtain ⟨P, rfl, hP, hl⟩ := hY2.block
      have hrun : e.runTransform X = .ok P := by
        unfold Est.runTransform
        rw [ht]
        simp only [hY1, py_ok_bind]
        rfl
      have key : ∃ P' : Arr (XR fp), transformOne e.runTransform X (weightOf ws s.1) = .ok P' ∧ Piece n s.2.2.2 P' ∧ s.2.2.1.Fits P'.issparse := by
        cases hc : weightOf ws s.1 with
        | none => exact ⟨P, by rw [transformOne, hrun]; rfl, hP, hl⟩
        | some c =>
          have hd : s.2.2.1 = .dense := by
            rcases hwt with h | h
            · rw [hc] at h; cases h
            · exact h
          rw [hd] at hY2
          obtain ⟨M, eM, hM, hMw, hn⟩ := hY2.dense_mat
          cases eM
          refine ⟨.ofMat (M.map fun r => r.map fun x => x *ₚ c), ?_, .dense (by simpa using hM) (fun r hr => ?_) (by simpa using hn), hl⟩
          · rw [transformOne, hrun, py_ok_bind]
            simp only [apply2d_ofMat_ok, py_ok_bind, py_pure]
          · obtain ⟨x, hx, rfl⟩ := List.mem_map.1 hr
            rw [List.length_map]; exact hMw x hx
      obtain ⟨P', k1, k2, k3⟩ := key
      refine ⟨P' :: Xs, ?_, .cons ⟨k2, hpos⟩ e3, .cons k3 e4⟩
      simp only [List.map_cons, List.zip_cons_cons, mapM_cons', k1, e1, py_ok_bind]
      rfl

theorem union_unfailing {A : Posed} (ws : Option (List (String × XR fp)))
    {steps : List (String × SkObj (Attrs (XR fp)) (PVal (XR fp)) (XR fp) × Layout × Nat)} (hne : steps ≠ [])
    (hw : ∀ s ∈ steps, 0 < s.2.2.2 ∧ (weightOf ws s.1 = none ∨ s.2.2.1 = .dense))
    {es : List (Methods (XR fp))} (he : List.Forall₂ (Behaves lib encode) ((steps.map fun s => (s.1, s.2.1)).map Prod.snd) es)
    (H : ∀ s ∈ steps, ∀ f, Behaves lib encode s.2.1 f → Unfailing f A (.form (.matrix s.2.2.1 s.2.2.2))) :
    Unfailing (unionEst (((steps.map fun s => (s.1, s.2.1)).map Prod.fst).zip es) ws) A
      (.form (.matrix (Layout.join (steps.map fun s => s.2.2.1)) (steps.map fun s => s.2.2.2).sum)) := by
  refine unfailing_of fun X n hX => ?_
  obtain ⟨hpos, c1, l1⟩ := hX.check
  obtain ⟨Xs, e1, e3, e4⟩ := union_parts_unfailing ws steps hw he H hX
  have hXs : Xs ≠ [] := by
    rintro rfl
    have := e3.length_eq
    simp at this
    exact hne (List.length_eq_zero_iff.1 this.symm)
  obtain ⟨P, h1, h2⟩ := unionOf_total hpos X.shape (by simpa using hne) e3
  refine ⟨P, ?_, h2.holds ?_⟩
  · simp only [c1, py_ok_bind, e1, l1, h1]
  · rw [unionOf_issparse hXs h1]
    exact join_fits e4

/-! ### Ensembles -/

section
variable {F C : Type} [Arith F]

theorem accumulate_total {b : Bagging F C} {X : Arr F} {n k : Nat} (hn : 0 < n) (idxs : List Nat)
    (h : ∀ i ∈ idxs, ∃ P, b.memberProba X i = .ok P ∧ P.length = n ∧ Rect k P) (Q : List (List F)) (hQ : Q.length = n) (hQk : Rect k Q) :
    ∃ R, b.accumulate X idxs Q = .ok R ∧ R.length = n ∧ Rect k R := by
  induction idxs generalizing Q with
  | nil => exact ⟨Q, rfl, hQ, hQk⟩
  | cons i idxs ih =>
    obtain ⟨P, h1, h2, h3⟩ := h i (by simp)
    have ne : ∀ {M : List (List F)}, M.length = n → M ≠ [] := by
      rintro M hM rfl
      simp at hM; omega
    have hop := operate2d_ofMat (A := Q) (B := P) Arith.add (ne hQ) (ne h2) (hQ.trans h2.symm) hQk h3
    obtain ⟨R, r1, r2, r3⟩ := ih (fun i hi => h i (by simp [hi])) (List.zipWith (List.zipWith Arith.add) Q P) (by simp [hQ, h2]) (fun r hr => by
      obtain ⟨j, hj, rfl⟩ := List.getElem_of_mem hr
      simp only [List.length_zipWith, Nat.lt_min] at hj
      simp [hQk _ (List.getElem_mem hj.1), h3 _ (List.getElem_mem hj.2)])
    refine ⟨R, ?_, r2, r3⟩
    simp only [Bagging.accumulate, h1, py_ok_bind, hop, r1]

theorem bagging_total (hF : NoTrap F) {b : Bagging F C} {X : Arr F} {n : Nat} (hn : 0 < n) (hc : b.classes ≠ []) (hm : 0 < b.estimators.length)
    (h : ∀ i < b.estimators.length, ∃ P, b.memberProba X i = .ok P ∧ P.length = n ∧ Rect b.classes.length P) :
    (∃ ls, b.predict X = .ok ls ∧ ls.length = n ∧ ∀ l ∈ ls, l ∈ b.classes) ∧
    (∃ P, b.predictProba X = .ok P ∧ P.length = n ∧ ∀ q ∈ P, q.length = b.classes.length) ∧
    ∃ L, b.predictLogProba X = .ok L ∧ L.length = n ∧ ∀ q ∈ L, q.length = b.classes.length := by
  obtain ⟨P0, p1, p2, p3⟩ := h 0 hm
  obtain ⟨R, r1, r2, r3⟩ := accumulate_total (k := b.classes.length) hn ((List.range b.estimators.length).drop 1) (fun i hi =>
    h i (List.mem_range.1 (List.mem_of_mem_drop hi))) P0 p2 p3
  obtain ⟨P, q1, q2, q3⟩ : ∃ P, b.predictProba X = .ok P ∧ P.length = n ∧ Rect b.classes.length P := by
    obtain ⟨P, e1, e2, e3⟩ := mapM_all (l := R) (f := fun a => a.mapM fun x => x /ₚ ofInt (b.estimators.length : Int)) (Q := fun y => y.length = b.classes.length)
      fun r hr => by
        obtain ⟨y, hy⟩ := mapM_total (f := fun x => x /ₚ ofInt (b.estimators.length : Int)) fun x (_ : x ∈ r) => hF.div x _ (hF.count _ hm)
        exact ⟨y, hy, (mapM_length hy).trans (r3 r hr)⟩
    exact ⟨P, by simp only [Bagging.predictProba, p1, py_ok_bind, r1, apply2d_ofMat, e1], e2.trans r2, e3⟩
  refine ⟨?_, ⟨P, q1, q2, q3⟩, ?_⟩
  · obtain ⟨am, a1, a2, a3⟩ := mapM_all (l := P) (f := argmax) (Q := fun i => i < b.classes.length) fun r hr => by
      obtain ⟨i, hi⟩ := argmax_total (l := r) (by
        rintro rfl
        have := q3 _ hr
        simp at this
        exact hc (List.length_eq_zero_iff.1 this.symm))
      exact ⟨i, hi, by rw [← q3 r hr]; exact argmax_lt hi⟩
    obtain ⟨ls, l1, l2, l3⟩ := mapM_all (l := am) (f := fun (i : Nat) => pyGet b.classes (i : Int)) (Q := fun y => y ∈ b.classes)
      fun i hi => ⟨_, pyGet_lt (a3 i hi), List.getElem_mem _⟩
    exact ⟨ls, by simp only [Bagging.predict, q1, py_ok_bind, a1, l1], by rw [l2, a2, q2], l3⟩
  · obtain ⟨L, l1, l2, l3⟩ := logs_total hF q3
    exact ⟨L, by simp only [Bagging.predictLogProba, q1, py_ok_bind, apply2d_ofMat, l1], l2.trans q2, l3⟩

end

theorem unfailing_runProba {f : Methods (XR fp)} {A : Posed} {cs : List (PVal (XR fp))} {k : Nat} (h : Unfailing f A (.labels cs (some k)))
    {B : Arr (XR fp)} {n : Nat} (hB : A.Holds (.arr B) n) : ∃ P, f.runProba B = .ok P ∧ P.length = n ∧ Rect k P := by
  obtain ⟨q, hq, h⟩ := (h.2 k rfl).1
  unfold Est.runProba
  rw [hq]
  exact h _ n hB

theorem ensemble_unfailing (hF : NoTrap (XR fp)) {cs : List (PVal (XR fp))} {es : List (Methods (XR fp))} {l : Layout} {w : Nat} (hne : es ≠ [])
    (hc : cs ≠ []) (h : ∀ e ∈ es, ∃ ls, Unfailing e (.matrix l w) (.labels ls (some cs.length))) :
    Unfailing (ensembleEst none cs es) (.matrix l w) (.labels cs (some cs.length)) := by
  refine classifier_unfailing fun X n hX => ?_
  obtain ⟨B, rfl, hB, hl⟩ := hX.block
  refine ⟨B, rfl, bagging_total hF hX.check.1 hc (by simpa using List.length_pos_of_ne_nil hne) fun i hi => ?_⟩
  simp only [List.length_map] at hi
  obtain ⟨ls, hd⟩ := h es[i] (List.getElem_mem hi)
  obtain ⟨P, h1, h2, h3⟩ := unfailing_runProba hd hX
  refine ⟨P, ?_, h2, h3⟩
  simp only [Bagging.memberProba, Bagging.getFeats, pyGet_lt (l := es.map fun m => (⟨m.runProba⟩ : Member (XR fp))) (by simpa using hi),
    py_ok_bind, featSlice, List.getElem_map, h1]

theorem subspaces_unfailing (hF : NoTrap (XR fp)) {cs : List (PVal (XR fp))} {es : List (Methods (XR fp))} {fs : List (List Int)} {w : Nat} (hne : es ≠ [])
    (hc : cs ≠ []) (hlen : fs.length = es.length) (hfs : ∀ f ∈ fs, ∀ i ∈ f, 0 ≤ i ∧ i < (w : Int))
    (h : ∀ p ∈ es.zip fs, ∃ ls, Unfailing p.1 (.matrix .dense p.2.length) (.labels ls (some cs.length))) :
    Unfailing (ensembleEst (some fs) cs es) (.matrix .dense w) (.labels cs (some cs.length)) := by
  refine classifier_unfailing fun X n hX => ?_
  obtain ⟨M, rfl, hM, hMw, hn⟩ := hX.dense_mat
  refine ⟨_, rfl, bagging_total hF hX.check.1 hc (by simpa using List.length_pos_of_ne_nil hne) fun i hi => ?_⟩
  simp only [List.length_map] at hi
  have hi2 : i < fs.length := by omega
  obtain ⟨ls, hd⟩ := h (es[i], fs[i]) (mem_zip_get es fs hi hi2)
  obtain ⟨M', m1, m2, m3⟩ := mapM_all (l := M) (f := fun r => fs[i].mapM fun j => (Row.list r).getItem j) (Q := fun y => y.length = fs[i].length)
    fun r hr => by
      obtain ⟨y, hy⟩ := mapM_total (f := fun j => (Row.list r).getItem j) fun j (hj : j ∈ fs[i]) => by
        have hb := hfs _ (List.getElem_mem hi2) j hj
        obtain ⟨m, rfl⟩ : ∃ m : Nat, j = (m : Int) := ⟨j.toNat, by omega⟩
        exact ⟨_, pyGet_lt (l := r) (by rw [hMw r hr]; omega)⟩
      exact ⟨y, hy, mapM_length hy⟩
  obtain ⟨P, h1, h2, h3⟩ := unfailing_runProba hd (B := .ofMat M') (n := n) (.dense rfl (ne_nil_of_length m2 hM) m3 (m2.trans hn))
  refine ⟨P, ?_, h2, h3⟩
  simp only [Bagging.memberProba, Bagging.getFeats, pyGet_lt (l := es.map fun m => (⟨m.runProba⟩ : Member (XR fp))) (by simpa using hi),
    py_ok_bind, pyGet_lt hi2, py_pure, featSlice, rows_ofMat, mapM_map', m1, List.getElem_map, h1]

/-! ### Gradient boosting -/

theorem unfailing_runNumbers {f : Methods (XR fp)} {A : Posed} (h : Unfailing f A .values) {B : Arr (XR fp)} {n : Nat} (hB : A.Holds (.arr B) n) :
    ∃ ys, f.runNumbers B = .ok ys ∧ ys.length = n := by
  obtain ⟨p, hp, h⟩ := h
  obtain ⟨ys, e1, e2⟩ := h _ n hB
  refine ⟨ys, ?_, e2⟩
  unfold Est.runNumbers
  rw [hp]
  simp only [e1, py_ok_bind]
  rw [mapM_map']
  exact (mapM_ok_map (g := id) fun y _ => rfl).trans (by simp)

section
variable {F C : Type} [Arith F]

theorem rawColumn_total {g : GB F C} {X : Arr F} {n k : Nat} (sts : List (List (Arr F → Py (List F))))
    (h : ∀ st ∈ sts, ∃ f p, st[k]? = some f ∧ f X = .ok p ∧ p.length = n) (col : List F) (hc : col.length = n) :
    ∃ out, g.rawColumn X k sts col = .ok out ∧ out.length = n := by
  induction sts generalizing col with
  | nil => exact ⟨col, rfl, hc⟩
  | cons st sts ih =>
    obtain ⟨f, p, h1, h2, h3⟩ := h st (by simp)
    obtain ⟨c', hc'⟩ := mapM_total (l := List.range p.length) (f := fun (i : Nat) => do
      return (← pyGet col (i : Int)) +ₚ ((← pyGet p (i : Int)) *ₚ g.learningRate)) fun i hi => by
        have hi := List.mem_range.1 hi
        exact ⟨_, by rw [pyGet_lt (by omega), pyGet_lt hi]; rfl⟩
    have hl := mapM_length hc'
    obtain ⟨out, o1, o2⟩ := ih (fun st hst => h st (by simp [hst])) c' (by simpa [h3] using hl)
    exact ⟨out, by simp only [GB.rawColumn, pyGet_ok_nat.2 h1, py_ok_bind, h2, hc', o1], o2⟩

theorem initRow_total (hF : NoTrap F) {l : Loss} {q : List F} (hq : match l with | .multinomial n => q.length = n | _ => q.length = 2) :
    ∃ r, l.initRow q = .ok r ∧ r.length = l.cols := by
  obtain ⟨r, hr⟩ : ∃ r, l.initRow q = .ok r := by
    cases l with
    | multinomial n => exact mapM_total fun x _ => hF.log _
    | binomial =>
      have h2 : q.length = 2 := hq
      obtain ⟨y, hy⟩ := hF.odds (q[1]'(by omega))
      obtain ⟨z, hz⟩ := hF.log y
      have h1 : pyGet q 1 = .ok (q[1]'(by omega)) := pyGet_lt (i := 1) _
      exact ⟨[z], by simp only [Loss.initRow, h1, py_ok_bind, hy, hz, py_pure]⟩
    | exponential =>
      have h2 : q.length = 2 := hq
      obtain ⟨y, hy⟩ := hF.odds (q[1]'(by omega))
      obtain ⟨z, hz⟩ := hF.log y
      have h1 : pyGet q 1 = .ok (q[1]'(by omega)) := pyGet_lt (i := 1) _
      exact ⟨[ofRat 1 2 *ₚ z], by simp only [Loss.initRow, h1, py_ok_bind, hy, hz, py_pure]⟩
  exact ⟨r, hr, Loss.initRow_length (fun n hn => by subst hn; exact hq) hr⟩

theorem probaRow_total (hF : NoTrap F) {l : Loss} {r : List F} (hr : r.length = l.cols) :
    ∃ p, l.probaRow r = .ok p ∧ p.length = match l with | .multinomial n => n | _ => 2 := by
  cases l with
  | multinomial n =>
    have hr : r.length = n := hr
    obtain ⟨es, hes⟩ := mapM_total fun x (_ : x ∈ r) => hF.exp x
    obtain ⟨z, hz⟩ := hF.log (pySum es)
    obtain ⟨p, hp⟩ := mapM_total (l := List.range n) (f := fun (i : Nat) => do safeExp ((← pyGet r (i : Int)) -ₚ z)) fun i hi => by
      have hi := List.mem_range.1 hi
      obtain ⟨y, hy⟩ := hF.exp ((r[i]'(by omega)) -ₚ z)
      exact ⟨y, by rw [pyGet_lt (by omega)]; exact hy⟩
    exact ⟨p, by simp only [Loss.probaRow, hes, py_ok_bind, hz, hp], by simpa using mapM_length hp⟩
  | binomial =>
    have hr : r.length = 1 := hr
    obtain ⟨y, hy⟩ := hF.expit (r[0]'(by omega))
    have h1 : pyGet r 0 = .ok (r[0]'(by omega)) := pyGet_lt (i := 0) _
    exact ⟨[ofInt 1 -ₚ y, y], by simp only [Loss.probaRow, h1, py_ok_bind, hy, py_pure], rfl⟩
  | exponential =>
    have hr : r.length = 1 := hr
    obtain ⟨y, hy⟩ := hF.expit (r[0]'(by omega))
    have h1 : pyGet r 0 = .ok (r[0]'(by omega)) := pyGet_lt (i := 0) _
    exact ⟨[ofInt 1 -ₚ (y *ₚ ofInt 2), y *ₚ ofInt 2], by simp only [Loss.probaRow, h1, py_ok_bind, hy, py_pure], rfl⟩

theorem zipStar_total {M : List (List F)} {n : Nat} (hM : M ≠ []) (hw : Rect n M) : (zipStar M).length = n ∧ Rect M.length (zipStar M) := by
  unfold zipStar
  rw [minLen_rect hM hw]
  refine ⟨by simp, fun r hr => ?_⟩
  obtain ⟨j, hj, rfl⟩ := List.mem_map.1 hr
  have hj := List.mem_range.1 hj
  clear hr hM
  induction M with
  | nil => rfl
  | cons a M ih =>
    have ha : j < a.length := by rw [hw a (by simp)]; exact hj
    simp [List.getElem?_eq_getElem ha, ih fun r hr => hw r (by simp [hr])]

theorem rawPredict_total (hF : NoTrap F) {g : GB F C} {M : List (List F)} (hM : M ≠ []) (hw : Rect g.nFeatures M) {K : Nat} {Q : List (List F)}
    (hcols : 0 < g.loss.cols) (hK : match g.loss with | .multinomial n => K = n | _ => K = 2)
    (h0 : g.initProba (.ofMat M) = .ok Q) (hQ : Q.length = M.length) (hQk : Rect K Q)
    (hS : g.estimators ≠ []) (hlen : ∀ st ∈ g.estimators, st.length = g.loss.cols)
    (hst : ∀ st ∈ g.estimators, ∀ f ∈ st, ∃ p, f (.ofMat M) = .ok p ∧ p.length = M.length) :
    ∃ R, g.rawPredict (.ofMat M) = .ok R ∧ R.length = M.length ∧ Rect g.loss.cols R := by
  obtain ⟨I, i1, i2, i3⟩ := mapM_all (l := Q) (f := g.loss.initRow) (Q := fun r => r.length = g.loss.cols) fun q hq =>
    initRow_total hF (by
      have := hQk q hq
      revert hK
      cases g.loss <;> intro hK <;> simp_all)
  obtain ⟨st0, sts, hsts⟩ := List.exists_cons_of_ne_nil hS
  have hg0 : pyGet g.estimators 0 = .ok st0 := by rw [hsts]; simp
  have hl0 : st0.length = g.loss.cols := hlen st0 (by rw [hsts]; simp)
  obtain ⟨out, o1, o2, o3⟩ := mapM_all (l := List.range g.loss.cols) (f := fun k => do
      g.rawColumn (.ofMat M) k g.estimators (List.replicate (← (Arr.ofMat M).len) (ofInt 0))) (Q := fun r => r.length = M.length) fun k hk => by
    have hk := List.mem_range.1 hk
    obtain ⟨o, e1, e2⟩ := rawColumn_total (g := g) (X := .ofMat M) (n := M.length) (k := k) g.estimators (fun st hm => by
      have hk' : k < st.length := by rw [hlen st hm]; exact hk
      obtain ⟨p, p1, p2⟩ := hst st hm st[k] (List.getElem_mem _)
      exact ⟨st[k], p, List.getElem?_eq_getElem hk', p1, p2⟩) (List.replicate M.length (ofInt 0)) (by simp)
    exact ⟨o, by simp only [len_ofMat, py_ok_bind, e1], e2⟩
  have hone : out ≠ [] := by
    rintro rfl
    simp at o2
    omega
  obtain ⟨z1, z2⟩ := zipStar_total hone o3
  rw [o2, List.length_range] at z2
  have hn : 0 < M.length := List.length_pos_of_ne_nil hM
  have hop := operate2d_ofMat (A := I) (B := zipStar out) Arith.add (by rintro rfl; simp at i2; omega) (by intro h; rw [h] at z1; simp at z1; omega)
    (by rw [i2, z1, hQ]) i3 z2
  refine ⟨List.zipWith (List.zipWith Arith.add) I (zipStar out), ?_, ?_, ?_⟩
  · simp only [GB.rawPredict, GB.rawPredictInit_eq hM hw, h0, py_ok_bind, Loss.initRaw_eq, i1, hg0, hl0, o1, transpose_ofMat]
    exact hop
  · simp [i2, z1, hQ]
  · intro r hr
    obtain ⟨j, hj, rfl⟩ := List.getElem_of_mem hr
    simp only [List.length_zipWith, Nat.lt_min] at hj
    simp [i3 _ (List.getElem_mem hj.1), z2 _ (List.getElem_mem hj.2)]

end

theorem boosting_unfailing (hF : NoTrap (XR fp)) {cs : List (PVal (XR fp))} {ess : List (List (Methods (XR fp)))} {e0 : Methods (XR fp)} {l : Loss}
    {loss : String} {lr : XR fp} {nf : Nat} {ls : List (PVal (XR fp))} (hloss : lossOf loss cs.length = some l)
    (h0 : Unfailing e0 (.matrix .dense nf) (.labels ls (some cs.length))) (hne : ess ≠ [])
    (hlen : ∀ st ∈ ess, st.length = stageSize l) (hst : ∀ st ∈ ess, ∀ e ∈ st, Unfailing e (.matrix .dense nf) .values) :
    Unfailing (boostingEst cs ess e0 l lr nf) (.matrix .dense nf) (.labels cs (some cs.length)) := by
  have hl := lossOf_classes hloss
  refine classifier_unfailing fun X n hX => ?_
  obtain ⟨M, rfl, hM, hMw, rfl⟩ := hX.dense_mat
  refine ⟨_, rfl, ?_⟩
  obtain ⟨Q, q1, q2, q3⟩ := unfailing_runProba h0 hX
  have hcols : 0 < l.cols := by
    cases l with
    | multinomial n => exact hl.2
    | _ => exact Nat.one_pos
  obtain ⟨R, r1, r2, r3⟩ := rawPredict_total hF (g := ⟨cs, ess.map fun st => st.map fun m => m.runNumbers, e0.runProba, lr, nf, l⟩) (K := cs.length)
    hM hMw hcols (by
      cases l with
      | multinomial n => exact hl.1
      | _ => exact hl) q1 q2 q3 (by simpa using hne) (fun st hm => by
        obtain ⟨st', hm', rfl⟩ := List.mem_map.1 hm
        rw [List.length_map, hlen st' hm']
        cases l <;> rfl) (fun st hm f hf => by
        obtain ⟨st', hm', rfl⟩ := List.mem_map.1 hm
        obtain ⟨e, he, rfl⟩ := List.mem_map.1 hf
        exact unfailing_runNumbers (hst st' hm' e he) hX)
  have hRne : R ≠ [] := ne_nil_of_length r2 hM
  obtain ⟨P, p1, p2, p3⟩ := mapM_all (l := R) (f := l.probaRow) (Q := fun p => p.length = cs.length) fun r hr => by
    obtain ⟨p, e1, e2⟩ := probaRow_total hF (l := l) (r3 r hr)
    refine ⟨p, e1, e2.trans ?_⟩
    cases l with
    | multinomial n => exact hl.1.symm
    | _ => exact (show cs.length = 2 from hl).symm
  have hP : (⟨cs, ess.map fun st => st.map fun m => m.runNumbers, e0.runProba, lr, nf, l⟩ : GB (XR fp) (PVal (XR fp))).predictProba (.ofMat M) = .ok P := by
    rw [GB.predictProba, r1, py_ok_bind]
    exact ((Loss.rawToProba_rowwise l hRne r3) P).2 p1
  have hk : 0 < cs.length := by
    cases l with
    | multinomial n => rw [hl.1]; exact hl.2
    | _ => rw [show cs.length = 2 from hl]; norm_num
  obtain ⟨lb, a1, a2, a3⟩ := labels_total (cs := cs) p3 hk rfl
  obtain ⟨L, l1, l2, l3⟩ := logs_total hF p3
  exact ⟨⟨lb, by rw [GB.predict, hP, py_ok_bind]; exact a1, by rw [a2, p2, r2], a3⟩, ⟨P, hP, by rw [p2, r2], p3⟩,
    L, by rw [GB.predictLogProba, hP, py_ok_bind, apply2d_ofMat, l1], by rw [l2, p2, r2], l3⟩

/-! ### All objects -/

/-- What behaves as an object that is ready for a kind of requests answers them, whatever numbers they contain. -/
theorem behaves_unfailing (hs : fp.Sound) (hF : NoTrap (XR fp)) {o : SkObj (Attrs (XR fp)) (PVal (XR fp)) (XR fp)} {A : Posed} {r : Outcome fp}
    (h : Robust o A r) {f : Methods (XR fp)} (hb : Behaves lib encode o f) : Unfailing f A r := by
  induction h generalizing f with
  | @step c v e s A B hl hs =>
    cases hb with
    | single hv hl1 =>
      rw [C89_behaviour_unique (.single hv hl1) (.single (lib := lib) (encode := encode) hv hl)]
      exact calmStep_unfailing hF lib encode hs
  | @final c v e s A r hl hc =>
    cases hb with
    | single hv hl1 =>
      rw [C89_behaviour_unique (.single hv hl1) (.single (lib := lib) (encode := encode) hv hl)]
      exact calmFit_unfailing hs hF lib encode hc
  | @lastStep v n o A r _ ih =>
    cases hb with
    | @pipeline _ _ es hv hs =>
      cases hs with
      | @cons _ e _ _ he hn =>
        cases hn
        show Unfailing (pipelineEst [(n, e)]) A r
        rw [pipeline_single]
        exact ih he
  | @firstStep v n o s ss A B r _ _ ih1 ih2 =>
    cases hb with
    | @pipeline _ _ es hv hs =>
      cases hs with
      | @cons _ e _ es he hn =>
        have h2 := ih2 (.pipeline (steps := s :: ss) hv hn)
        have h1 := ih1 he
        cases hn with
        | @cons _ e1 _ es _ _ => exact pipe_unfailing n h1 h2
  | @union v ws A steps hne hw _ ih =>
    cases hb with
    | @union _ _ _ es hv hs => exact union_unfailing ws hne hw hs fun s hs f hb => ih s hs hb
  | @ensemble kd v cs ms l w ls hne hc _ ih =>
    cases hb with
    | @ensemble _ _ _ _ _ es hv hcs hs =>
      refine ensemble_unfailing hF (fun h => ?_) hc fun e he => ?_
      · subst h
        cases hs
        exact hne rfl
      · obtain ⟨m, hm, hme⟩ := rel_right hs e he
        exact ⟨_, ih m hm hme⟩
  | @subspaces kd v fs cs ms w ls hne hc hlen hfs _ ih =>
    cases hb with
    | @ensemble _ _ _ _ _ es hv hcs hs =>
      refine subspaces_unfailing hF (fun h => ?_) hc (by rw [hlen, hs.length_eq]) hfs fun p hp => ?_
      · subst h
        cases hs
        exact hne rfl
      · obtain ⟨i, hi, rfl⟩ := List.getElem_of_mem hp
        rw [List.length_zip] at hi
        have l1 := hs.length_eq
        have i1 : i < ms.length := by omega
        have i2 : i < es.length := by omega
        have i3 : i < fs.length := by omega
        have hb1 := forall₂_get hs i1 i2
        rw [List.getElem_zip]
        exact ⟨_, ih _ (mem_zip_get ms fs i1 i3) hb1⟩
  | @boosting v cs stages init loss l ls lr nf hloss _ hne hlen _ ih0 ihs =>
    cases hb with
    | @boosting _ _ _ _ _ _ _ l' es e hv hcs' hs h0 hl' =>
      obtain rfl : l' = l := Option.some.inj (hl'.symm.trans hloss)
      refine boosting_unfailing hF hloss (ih0 h0) (fun h => ?_) (fun st hst => ?_) fun st hst e he => ?_
      · subst h
        cases hs
        exact hne rfl
      · obtain ⟨st', hm, hF⟩ := rel_right hs st hst
        rw [← hF.length_eq]; exact hlen st' hm
      · obtain ⟨st', hm, hF⟩ := rel_right hs st hst
        obtain ⟨m, hmm, hme⟩ := rel_right hF e he
        exact ihs st' hm m hmm hme

end PurePredict
