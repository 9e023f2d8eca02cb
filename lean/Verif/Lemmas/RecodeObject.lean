import Verif.Lemmas.RecodeFit
import Verif.Lemmas.ShuffleObject
/-
Compound objects fitted in other units.
-/
namespace PurePredict
open Spec
variable {lib : String → TextLib} {encode : Str → List Nat} {fp : FP}

/-! ### Pipelines -/

theorem sameMethod_recoded {δ : Type} {φs ψs : List (Code fp)} {t t' : Data (XR fp) → Py (Data (XR fp))}
    (ht : ∀ X Y, RecodedRows φs X Y → Par (RecodedRows ψs) (t X) (t' Y)) {p q : Option (Data (XR fp) → Py δ)} (h : SameMethod (RecodedRows ψs) p q) :
    SameMethod (RecodedRows φs) (p.map fun u X => t X >>= u) (q.map fun u X => t' X >>= u) := by
  refine ⟨fun r hr => ?_, fun hr => ?_⟩
  · obtain ⟨u, hu, rfl⟩ := Option.map_eq_some_iff.1 hr
    obtain ⟨u', hu', hX⟩ := h.1 u hu
    refine ⟨fun X => t' X >>= u', by rw [hu']; rfl, fun X Y hXY => Par.eq ((ht X Y hXY).bind fun A B hAB => ?_)⟩
    rw [hX A B hAB]
    exact .refl (fun _ => rfl) _
  · have hp : p = none := by simpa using hr
    rw [h.2 hp]
    rfl

theorem pipe_accords (n : String) {e e' : Methods (XR fp)} {s s' : String × Methods (XR fp)} {ss ss' : List (String × Methods (XR fp))}
    {φs ψs : List (Code fp)} {k : Shared fp} (h1 : Accord e e' φs (.columns ψs)) (h2 : Accord (pipelineEst (s :: ss)) (pipelineEst (s' :: ss')) ψs k) :
    Accord (pipelineEst ((n, e) :: s :: ss)) (pipelineEst ((n, e') :: s' :: ss')) φs k := by
  obtain ⟨t, t', ht, ht', h1⟩ := h1
  obtain ⟨a1, a2, a3, a4⟩ := pipeline_cons n ht s ss
  obtain ⟨b1, b2, b3, b4⟩ := pipeline_cons n ht' s' ss'
  cases k with
  | columns φs2 =>
    obtain ⟨u, u', hu, hu', h2⟩ := h2
    exact ⟨fun X => t X >>= u, fun X => t' X >>= u', by rw [a1, hu]; rfl, by rw [b1, hu']; rfl, fun X Y h => (h1 X Y h).bind fun A B hAB => h2 A B hAB⟩
  | answers =>
    unfold Accord
    rw [a2, a3, a4, b2, b3, b4]
    exact ⟨sameMethod_recoded h1 h2.1, sameMethod_recoded h1 h2.2.1, sameMethod_recoded h1 h2.2.2⟩

/-! ### Unions -/

/-- rows of two blocks -/
def RowCod (φs : List (Code fp)) (r r' : Row (XR fp)) : Prop := ∃ x y, r = .list x ∧ r' = .list y ∧ Recoded φs x y

/-- two blocks -/
def PartCod (φs : List (Code fp)) (A B : Arr (XR fp)) : Prop := ∃ M N, A = .ofMat M ∧ B = .ofMat N ∧ Cod φs M N

theorem denseRow_coded {vss : List (List (Code fp))} {Xs Ys : List (List (Row (XR fp)))}
    (h : Tri (fun s X Y => List.Forall₂ (RowCod s) X Y) vss Xs Ys) (i : Nat) :
    Par (Recoded vss.flatten) (unionDenseRow Xs i) (unionDenseRow Ys i) := by
  unfold unionDenseRow
  refine Par.bind (R := Tri RowCod vss) (h.par fun s X Y hXY => pyGet_par hXY i) fun rs ss hrs => ?_
  have flat : Par (Recoded vss.flatten) (rs.mapM Row.asList >>= fun ls => .ok ls.flatten) (ss.mapM Row.asList >>= fun ls => .ok ls.flatten) := by
    refine Par.bind (R := Tri (fun s x y => Recoded s x y) vss) (hrs.par fun s r r' hrs => ?_) fun ls ms hls => .done ?_
    · obtain ⟨x, y, rfl, rfl, h⟩ := hrs
      exact .done h
    · clear hrs h
      induction hls with
      | nil => exact .nil
      | cons h _ ih => exact h.append ih
  cases hrs with
  | nil => exact flat
  | cons hr hrs =>
    cases hrs with
    | nil =>
      obtain ⟨x, y, e1, e2, hxy⟩ := hr
      subst e1 e2
      simp only [List.flatten_cons, List.flatten_nil, List.append_nil]
      exact .done hxy
    | cons _ _ => exact flat

theorem unionOf_coded {n : Nat} (hn : 0 < n) (sh sh' : Py Shape) {vss : List (List (Code fp))} {Xs Ys : List (Arr (XR fp))} (hne : vss ≠ [])
    (h : Tri PartCod vss Xs Ys) : Par (PartCod vss.flatten) (unionOf (.ok n) sh Xs) (unionOf (.ok n) sh' Ys) := by
  have hX : Xs ≠ [] ∧ Ys ≠ [] ∧ Xs.any Arr.issparse = false ∧ Ys.any Arr.issparse = false := by
    have hs : Xs.any Arr.issparse = false ∧ Ys.any Arr.issparse = false := by
      clear hne
      induction h with
      | nil => exact ⟨rfl, rfl⟩
      | cons h _ ih =>
        obtain ⟨M, N, rfl, rfl, -⟩ := h
        exact ⟨by simp [ih.1], by simp [ih.2]⟩
    cases h with
    | nil => exact absurd rfl hne
    | cons _ _ => exact ⟨by simp, by simp, hs⟩
  obtain ⟨h1, h2, h3, h4⟩ := hX
  unfold unionOf
  have e1 : Xs.isEmpty = false := by simpa using h1
  have e2 : Ys.isEmpty = false := by simpa using h2
  simp only [e1, e2, h3, h4, Bool.false_eq_true, if_false]
  refine Par.bind (R := Tri (fun s X Y => List.Forall₂ (RowCod s) X Y) vss) (h.par fun s A B hAB => ?_) fun ms ms' hms => ?_
  · obtain ⟨M, N, rfl, rfl, h⟩ := hAB
    rw [rows_ofMat, rows_ofMat]
    exact .done (moved_map h.2 fun x y hxy => ⟨x, y, rfl, rfl, hxy⟩)
  · simp only [py_ok_bind]
    have hrow : Par (List.Forall₂ (Recoded vss.flatten)) ((List.range n).mapM fun (i : Nat) => unionDenseRow ms i)
        ((List.range n).mapM fun (i : Nat) => unionDenseRow ms' i) :=
      Par.mapM (forall₂_same (R := fun i j : Nat => i = j) (fun _ => rfl) _) fun i j hij => by cases hij; exact denseRow_coded hms i
    have hl : ∀ A, ((List.range n).mapM fun (i : Nat) => unionDenseRow ms i) = .ok A → A.length = n := fun A e => by simpa using mapM_length e
    revert hrow hl
    generalize ((List.range n).mapM fun (i : Nat) => unionDenseRow ms i) = p
    generalize ((List.range n).mapM fun (i : Nat) => unionDenseRow ms' i) = q
    intro hrow hl
    cases hrow with
    | fail => exact .fail
    | @done A B h' =>
      refine .done ⟨A, B, rfl, rfl, fun e => ?_, h'⟩
      have := hl A rfl
      rw [e] at this
      simp at this
      omega

theorem weigh_units {r : ℝ} {cs : List Change} (hu : ∀ c ∈ cs, 0 < c.factor) {x y : List Ex} (h : Recoded (cs.map Change.on) x y) :
    Recoded (cs.map fun c => Change.on ⟨c.factor, c.offset * r⟩) (x.map fun a => a *ₚ .fin r) (y.map fun a => a *ₚ .fin r) := by
  induction cs generalizing x y with
  | nil => cases h; exact .nil
  | cons c cs ih =>
    cases h with
    | @cons _ _ a x y h =>
      simp only [List.map_cons]
      rw [exact_weight c (hu c (by simp)) r a]
      exact .cons (ih (fun c hc => hu c (by simp [hc])) h)

theorem weigh_coded {w : XR fp} {φs ψs : List (Code fp)} (hw : Weighted (some w) φs ψs) {x y : List (XR fp)} (h : Recoded φs x y) :
    Recoded ψs (x.map fun a => a *ₚ w) (y.map fun a => a *ₚ w) := by
  generalize hs : some w = sw at hw
  cases hw with
  | alone => cases hs
  | @plain _ n =>
    have hl := h.lengths.1
    have := recoded_asIs h
    subst this
    have e : n = (x.map fun a => a *ₚ w).length := by simpa [asIs] using hl.symm
    rw [e]
    exact recoded_same _
  | @units r cs hu =>
    cases hs
    obtain ⟨he, hu⟩ := hu
    subst he
    exact weigh_units hu h

theorem weighted_none {φs ψs : List (Code fp)} (hw : Weighted none φs ψs) : φs = ψs := by
  generalize hs : none = sw at hw
  cases hw with
  | alone => rfl
  | plain => cases hs
  | units => cases hs

theorem union_parts_coded {φs : List (Code fp)} (wts : Option (List (String × XR fp))) {parts : List (Branch fp)}
    (hw : ∀ p ∈ parts, Weighted (weightOf wts p.name) p.made p.weighted) {es es' : List (Methods (XR fp))}
    (he : Tri (fun (p : Branch fp) e e' => Accord e e' φs (.columns p.made)) parts es es') {M N : List (List (XR fp))} (h : Cod φs M N) :
    Par (Tri PartCod (parts.map Branch.weighted))
      (((parts.map Branch.name).zip es).mapM fun s => transformOne s.2.runTransform (.arr (.ofMat M)) (weightOf wts s.1))
      (((parts.map Branch.name).zip es').mapM fun s => transformOne s.2.runTransform (.arr (.ofMat N)) (weightOf wts s.1)) := by
  induction he with
  | nil => exact .done .nil
  | @cons p e e' ps es es' hc _ ih =>
    obtain ⟨t, t', ht, ht', hr⟩ := hc
    have hp := hw p (by simp)
    simp only [List.map_cons, List.zip_cons_cons, mapM_cons']
    refine Par.bind (R := PartCod p.weighted) ?_ fun A B hAB => (ih fun p hp => hw p (by simp [hp])).bind fun As Bs hAs => .done (.cons hAB hAs)
    unfold transformOne
    refine Par.bind (R := PartCod p.made) ?_ fun A B hAB => ?_
    · unfold Est.runTransform
      rw [ht, ht']
      refine (hr _ _ (.mk h.1 h.2)).bind fun A B hAB => ?_
      cases hAB with
      | mk h1 h2 => exact .done ⟨_, _, rfl, rfl, h1, h2⟩
    · obtain ⟨M', N', rfl, rfl, h'⟩ := hAB
      revert hp
      cases weightOf wts p.name with
      | none =>
        intro hp
        exact .done ⟨M', N', rfl, rfl, by rw [← weighted_none hp]; exact h'⟩
      | some c =>
        intro hp
        simp only [apply2d_ofMat_ok, py_ok_bind, py_pure]
        exact .done ⟨_, _, rfl, rfl, h'.map fun x y hxy => weigh_coded hp hxy⟩

theorem union_accords {φs : List (Code fp)} (wts : Option (List (String × XR fp))) {parts : List (Branch fp)} (hne : parts ≠ [])
    (hw : ∀ p ∈ parts, Weighted (weightOf wts p.name) p.made p.weighted) {es es' : List (Methods (XR fp))}
    (he : Tri (fun (p : Branch fp) e e' => Accord e e' φs (.columns p.made)) parts es es') :
    Accord (unionEst ((parts.map Branch.name).zip es) wts) (unionEst ((parts.map Branch.name).zip es') wts) φs
      (.columns (parts.map Branch.weighted).flatten) := by
  refine ⟨_, _, rfl, rfl, fun X Y hXY => ?_⟩
  cases hXY with
  | @mk M N h1 h2 =>
    have h : Cod φs M N := ⟨h1, h2⟩
    refine Par.bind (R := PartCod (parts.map Branch.weighted).flatten) ?_ fun A B hAB => ?_
    · show Par _ (Data.check _ >>= fun X => _) (Data.check _ >>= fun X => _)
      rw [(records_check (.rows h.left.1)).1, (records_check (.rows h.right.1)).1]
      simp only [py_ok_bind]
      refine Par.bind (union_parts_coded wts hw he h) fun Xs Ys hXY => ?_
      rw [show (Data.arr (.ofMat M) : Data (XR fp)).len = .ok M.length from len_ofMat M,
        show (Data.arr (.ofMat N) : Data (XR fp)).len = .ok N.length from len_ofMat N, ← h.length]
      exact unionOf_coded (List.length_pos_of_ne_nil h.left.1) _ _ (by simpa using hne) hXY
    · obtain ⟨M', N', rfl, rfl, h'⟩ := hAB
      exact .done (.mk h'.1 h'.2)

/-! ### Ensembles -/

theorem bagging_accords {b b' : Bagging (XR fp) (PVal (XR fp))} {φs : List (Code fp)} (hc : b'.classes = b.classes)
    (hn : b'.estimators.length = b.estimators.length)
    (h : ∀ M N, Cod φs M N → ∀ i : Nat, b.memberProba (.ofMat M) i = b'.memberProba (.ofMat N) i) :
    Accord (classifier b.predict b.predictProba b.predictLogProba) (classifier b'.predict b'.predictProba b'.predictLogProba) φs .answers := by
  refine classifier_coded fun M N hMN => ?_
  have hacc : ∀ (l : List Nat) (P : List (List (XR fp))), b.accumulate (.ofMat M) l P = b'.accumulate (.ofMat N) l P := by
    intro l
    induction l with
    | nil => exact fun P => rfl
    | cons i l ih =>
      intro P
      unfold Bagging.accumulate
      rw [h M N hMN i]
      congr 1
      funext p
      congr 1
      funext s
      exact ih s
  have hp : b.predictProba (.ofMat M) = b'.predictProba (.ofMat N) := by
    unfold Bagging.predictProba
    rw [show b.memberProba (.ofMat M) 0 = b'.memberProba (.ofMat N) 0 from h M N hMN 0]
    simp only [hacc, hn]
  refine ⟨?_, hp, ?_⟩
  · unfold Bagging.predict
    rw [hp, hc]
  · unfold Bagging.predictLogProba
    rw [hp]

theorem runProba_coded {e e' : Methods (XR fp)} {φs : List (Code fp)} (h : Accord e e' φs .answers) {M N : List (List (XR fp))} (hMN : Cod φs M N) :
    e.runProba (.ofMat M) = e'.runProba (.ofMat N) := by
  unfold Est.runProba
  cases he : e.predictProba with
  | none => rw [h.2.1.2 he]
  | some q =>
    obtain ⟨q', hq', hX⟩ := h.2.1.1 q he
    rw [hq']
    exact hX _ _ (.mk hMN.1 hMN.2)

theorem runNumbers_coded {e e' : Methods (XR fp)} {φs : List (Code fp)} (h : Accord e e' φs .answers) {M N : List (List (XR fp))} (hMN : Cod φs M N) :
    e.runNumbers (.ofMat M) = e'.runNumbers (.ofMat N) := by
  unfold Est.runNumbers
  cases he : e.predict with
  | none => rw [h.1.2 he]
  | some q =>
    obtain ⟨q', hq', hX⟩ := h.1.1 q he
    simp only [hq', hX _ _ (.mk hMN.1 hMN.2)]

theorem ensemble_accords {es es' : List (Methods (XR fp))} {cs : List (PVal (XR fp))} {φs : List (Code fp)}
    (h : List.Forall₂ (fun e e' => Accord e e' φs .answers) es es') : Accord (ensembleEst none cs es) (ensembleEst none cs es') φs .answers := by
  unfold ensembleEst
  refine bagging_accords rfl (by simp [h.length_eq]) fun M N hMN i => ?_
  unfold Bagging.memberProba
  refine Par.eq (Par.bind (R := fun m m' => m.predictProba (.ofMat M) = m'.predictProba (.ofMat N)) ?_ fun m m' hm => ?_)
  · exact pyGet_par (moved_map h fun e e' he => by exact runProba_coded he hMN) i
  · simp only [py_ok_bind, Bagging.getFeats, featSlice, hm]
    exact .refl (fun _ => rfl) _

theorem slice_coded {φs ψs : List (Code fp)} {seen : List Nat} (hf : List.Forall₂ (fun j φ => φs[j]? = some φ) seen ψs) {x y : List (XR fp)} (h : Recoded φs x y) :
    ∃ u v, ((seen.map Int.ofNat).mapM fun i => (Row.list x).getItem i) = .ok u ∧ ((seen.map Int.ofNat).mapM fun i => (Row.list y).getItem i) = .ok v ∧
      Recoded ψs u v := by
  induction hf with
  | nil => exact ⟨[], [], rfl, rfl, .nil⟩
  | @cons j φ seen ψs hj _ ih =>
    obtain ⟨u, v, h1, h2, h3⟩ := ih
    have hlt : j < x.length := by
      rw [h.lengths.1]
      exact (List.getElem?_eq_some_iff.1 hj).1
    have e1 : (Row.list x).getItem (Int.ofNat j) = .ok x[j] := pyGet_lt hlt
    have e2 : (Row.list y).getItem (Int.ofNat j) = .ok (φ x[j]) := by
      show pyGet y (j : Int) = _
      rw [pyGet_nat, h.get hj, List.getElem?_eq_getElem hlt]
      rfl
    refine ⟨x[j] :: u, φ x[j] :: v, ?_, ?_, .cons h3⟩
    · rw [List.map_cons, mapM_cons', e1, h1]
      rfl
    · rw [List.map_cons, mapM_cons', e2, h2]
      rfl

theorem slices_coded {φs ψs : List (Code fp)} {seen : List Nat} (hf : List.Forall₂ (fun j φ => φs[j]? = some φ) seen ψs) {M N : List (List (XR fp))}
    (h : List.Forall₂ (Recoded φs) M N) : ∃ M' N', (M.mapM fun x => (seen.map Int.ofNat).mapM fun i => (Row.list x).getItem i) = .ok M' ∧
      (N.mapM fun x => (seen.map Int.ofNat).mapM fun i => (Row.list x).getItem i) = .ok N' ∧ List.Forall₂ (Recoded ψs) M' N' := by
  induction h with
  | nil => exact ⟨[], [], rfl, rfl, .nil⟩
  | cons h _ ih =>
    obtain ⟨M', N', h1, h2, h3⟩ := ih
    obtain ⟨u, v, h4, h5, h6⟩ := slice_coded hf h
    refine ⟨u :: M', v :: N', ?_, ?_, .cons h6 h3⟩
    · rw [mapM_cons', h4, h1]; rfl
    · rw [mapM_cons', h5, h2]; rfl

theorem tri_split {α β γ δ : Type} {R : α → β → γ → Prop} {as : List α} {bs : List β} {cs : List γ} (h : Tri R as bs cs) (f : α → δ) {P : α → Prop}
    (hP : ∀ a ∈ as, P a) (i : Nat) :
    (∃ a b c, P a ∧ R a b c ∧ (as.map f)[i]? = some (f a) ∧ bs[i]? = some b ∧ cs[i]? = some c) ∨ (as.map f)[i]? = none ∧ bs[i]? = none ∧ cs[i]? = none := by
  induction h generalizing i with
  | nil => exact .inr ⟨by simp, by simp, by simp⟩
  | @cons a b c _ _ _ hr _ ih =>
    cases i with
    | zero => exact .inl ⟨a, b, c, hP a (by simp), hr, by simp, by simp, by simp⟩
    | succ i => simpa using ih (fun a ha => hP a (by simp [ha])) i

theorem subspaces_accords {members : List (Voter fp)} {es es' : List (Methods (XR fp))} {cs : List (PVal (XR fp))} {φs : List (Code fp)}
    (hs : ∀ m ∈ members, List.Forall₂ (fun j φ => φs[j]? = some φ) m.seen m.codes)
    (he : Tri (fun (m : Voter fp) e e' => Accord e e' m.codes .answers) members es es') :
    Accord (ensembleEst (some (members.map fun m => m.seen.map Int.ofNat)) cs es)
      (ensembleEst (some (members.map fun m => m.seen.map Int.ofNat)) cs es') φs .answers := by
  have hlen : es'.length = es.length := by
    clear hs
    induction he with
    | nil => rfl
    | cons _ _ ih => simp [ih]
  unfold ensembleEst
  refine bagging_accords rfl (by simp [hlen]) fun M N hMN i => ?_
  unfold Bagging.memberProba
  simp only [Bagging.getFeats, pyGet_nat, List.getElem?_map]
  rcases tri_split he (fun m => m.seen.map Int.ofNat) hs i with ⟨m, e, e', hm, hr, h1, h2, h3⟩ | ⟨h1, h2, h3⟩
  · rw [List.getElem?_map] at h1
    obtain ⟨M', N', hM, hN, hc⟩ := slices_coded hm hMN.2
    have hne : M' ≠ [] := fun e0 => by
      have := mapM_length hM
      rw [e0] at this
      exact hMN.1 (List.length_eq_zero_iff.1 this.symm)
    simp only [h1, h2, h3, Option.map_some, py_ok_bind, py_pure, featSlice, rows_ofMat]
    rw [mapM_map', mapM_map', hM, hN]
    exact runProba_coded hr ⟨hne, hc⟩
  · simp only [h2, h3, Option.map_none]
    rfl

/-! ### Gradient boosting -/

theorem rawColumn_coded {C : Type} {g g' : GB (XR fp) C} (hlr : g'.learningRate = g.learningRate) {X Y : Arr (XR fp)} (k : Nat)
    {sts sts' : List (List (Arr (XR fp) → Py (List (XR fp))))}
    (h : List.Forall₂ (List.Forall₂ fun f f' => f X = f' Y) sts sts') (c : List (XR fp)) : g.rawColumn X k sts c = g'.rawColumn Y k sts' c := by
  induction h generalizing c with
  | nil => rfl
  | cons h _ ih =>
    unfold GB.rawColumn
    refine Par.eq ((pyGet_par h k).bind fun f f' hf => ?_)
    rw [hf, hlr]
    refine (Par.refl (R := Eq) (fun _ => rfl) _).bind fun p _ e => ?_
    cases e
    refine (Par.refl (R := Eq) (fun _ => rfl) _).bind fun c _ e => ?_
    cases e
    rw [ih c]
    exact .refl (fun _ => rfl) _

theorem boosting_accords {cs : List (PVal (XR fp))} {stages stages' : List (List (Methods (XR fp)))} {init init' : Methods (XR fp)} {l : Loss} {lr : XR fp} {φs : List (Code fp)} (hst : List.Forall₂ (List.Forall₂ fun e e' => Accord e e' φs .answers) stages stages') (hi : Accord init init' φs .answers) :
    Accord (boostingEst cs stages init l lr φs.length) (boostingEst cs stages' init' l lr φs.length) φs .answers := by
  refine classifier_coded fun M N h => ?_
  generalize hg : (⟨cs, stages.map fun st => st.map fun m => m.runNumbers, init.runProba, lr, φs.length, l⟩ : GB (XR fp) (PVal (XR fp))) = g
  generalize hg' : (⟨cs, stages'.map fun st => st.map fun m => m.runNumbers, init'.runProba, lr, φs.length, l⟩ : GB (XR fp) (PVal (XR fp))) = g'
  have e1 : g'.classes = g.classes := by subst hg hg'; rfl
  have e2 : g'.loss = g.loss := by subst hg hg'; rfl
  have e3 : g'.learningRate = g.learningRate := by subst hg hg'; rfl
  have e4 : g.nFeatures = φs.length := by subst hg; rfl
  have e5 : g'.nFeatures = φs.length := by subst hg'; rfl
  have hinit : g.rawPredictInit (.ofMat M) = g'.rawPredictInit (.ofMat N) := by
    unfold GB.rawPredictInit
    rw [checkArray_ofMat h.left.1, checkArray_ofMat h.right.1]
    simp only [py_ok_bind, width_ofMat h.left.1 h.left.2, width_ofMat h.right.1 h.right.2, e2, e4, e5, ne_eq, not_true_eq_false, if_false]
    have : g.initProba (.ofMat M) = g'.initProba (.ofMat N) := by
      subst hg hg'
      exact runProba_coded hi h
    rw [this]
  have hF : List.Forall₂ (List.Forall₂ fun f f' => f (Arr.ofMat M) = f' (Arr.ofMat N)) g.estimators g'.estimators := by
    subst hg hg'
    exact moved_map hst fun st st' hs => moved_map hs fun e e' he => runNumbers_coded he h
  have hraw : g.rawPredict (.ofMat M) = g'.rawPredict (.ofMat N) := by
    unfold GB.rawPredict
    rw [hinit]
    simp only [len_ofMat, h.length, py_ok_bind]
    refine Par.eq ((Par.refl (R := Eq) (fun _ => rfl) _).bind fun i _ e => ?_)
    cases e
    refine (pyGet_par hF 0).bind fun st st' hs => ?_
    rw [hs.length_eq]
    have : ((List.range st'.length).mapM fun k => g.rawColumn (.ofMat M) k g.estimators (List.replicate N.length (ofInt 0))) =
        (List.range st'.length).mapM fun k => g'.rawColumn (.ofMat N) k g'.estimators (List.replicate N.length (ofInt 0)) :=
      mapM_congr fun k _ => rawColumn_coded e3 k hF _
    rw [this]
    exact .refl (fun _ => rfl) _
  have hp : g.predictProba (.ofMat M) = g'.predictProba (.ofMat N) := by
    unfold GB.predictProba
    rw [hraw, e2]
  refine ⟨?_, hp, ?_⟩
  · unfold GB.predict
    rw [hp, e1]
  · unfold GB.predictLogProba
    rw [hp]

/-! ### All objects -/

theorem behaves_branches {φs : List (Code fp)} {parts : List (Branch fp)} {es : List (Methods (XR fp))}
    (he : List.Forall₂ (Behaves lib encode) (parts.map Branch.before) es)
    (h : ∀ p ∈ parts, ∀ f, Behaves lib encode p.before f → ∃ f', Behaves lib encode p.after f' ∧ Accord f f' φs (.columns p.made)) :
    ∃ es', List.Forall₂ (Behaves lib encode) (parts.map Branch.after) es' ∧ Tri (fun (p : Branch fp) e e' => Accord e e' φs (.columns p.made)) parts es es' := by
  induction parts generalizing es with
  | nil => cases he; exact ⟨[], .nil, .nil⟩
  | cons p parts ih =>
    cases he with
    | @cons _ e _ es hb he =>
      obtain ⟨f', h1, h2⟩ := h p (by simp) e hb
      obtain ⟨es', h3, h4⟩ := ih he fun p hp => h p (by simp [hp])
      exact ⟨f' :: es', .cons h1 h3, .cons h2 h4⟩

theorem behaves_voters {members : List (Voter fp)} {es : List (Methods (XR fp))}
    (he : List.Forall₂ (Behaves lib encode) (members.map Voter.before) es)
    (h : ∀ m ∈ members, ∀ f, Behaves lib encode m.before f → ∃ f', Behaves lib encode m.after f' ∧ Accord f f' m.codes .answers) :
    ∃ es', List.Forall₂ (Behaves lib encode) (members.map Voter.after) es' ∧ Tri (fun (m : Voter fp) e e' => Accord e e' m.codes .answers) members es es' := by
  induction members generalizing es with
  | nil => cases he; exact ⟨[], .nil, .nil⟩
  | cons p members ih =>
    cases he with
    | @cons _ e _ es hb he =>
      obtain ⟨f', h1, h2⟩ := h p (by simp) e hb
      obtain ⟨es', h3, h4⟩ := ih he fun p hp => h p (by simp [hp])
      exact ⟨f' :: es', .cons h1 h3, .cons h2 h4⟩

theorem same_accords {n : Nat} {f : Methods (XR fp)} : Accord f f (asIs fp n) .answers := by
  have h : ∀ X Y : Data (XR fp), RecodedRows (asIs fp n) X Y → X = Y := by
    intro X Y hXY
    cases hXY with
    | mk _ h =>
      congr 2
      clear * - h
      induction h with
      | nil => rfl
      | cons h _ ih => rw [recoded_asIs h, ih]
  have m : ∀ {δ : Type} (p : Option (Data (XR fp) → Py δ)), SameMethod (RecodedRows (asIs fp n)) p p := fun p =>
    ⟨fun t ht => ⟨t, ht, fun X Y hXY => by rw [h X Y hXY]⟩, fun e => e⟩
  exact ⟨m _, m _, m _⟩

theorem behaves_recoded {φs : List (Code fp)} {o o' : SkObj (Attrs (XR fp)) (PVal (XR fp)) (XR fp)} {k : Shared fp} (h : Recode φs o o' k)
    {f : Methods (XR fp)} (hb : Behaves lib encode o f) : ∃ f', Behaves lib encode o' f' ∧ Accord f f' φs k := by
  have leaf : ∀ {c v} {a : Attrs (XR fp)} {s : Single (XR fp)} {f : Methods (XR fp)}, Learned c a s → Behaves lib encode (.leaf c v a) f →
      f = s.est lib encode ∧ ReadableVersion v := by
    intro c v a s f hl hb
    cases hb with
    | single hv hl1 => exact ⟨C89_behaviour_unique (.single hv hl1) (.single (lib := lib) (encode := encode) hv hl), hv⟩
  induction h generalizing f with
  | step h1 h2 hs =>
    obtain ⟨rfl, hv⟩ := leaf h1 hb
    exact ⟨_, .single hv h2, step_accords hs lib encode⟩
  | fit h1 h2 hs =>
    obtain ⟨rfl, hv⟩ := leaf h1 hb
    exact ⟨_, .single hv h2, fit_accords hs lib encode⟩
  | same => exact ⟨f, hb, same_accords⟩
  | @lastStep φs v n o o' k _ ih =>
    cases hb with
    | @pipeline _ _ es hv hs =>
      cases hs with
      | @cons _ e _ _ he hn =>
        cases hn
        obtain ⟨e', h1, h2⟩ := ih he
        refine ⟨_, .pipeline (es := [e']) hv (.cons h1 .nil), ?_⟩
        show Accord (pipelineEst [(n, e)]) (pipelineEst [(n, e')]) _ _
        rw [pipeline_single, pipeline_single]
        exact h2
  | @firstStep φs ψs v n o o' s ss s' ss' k _ _ ih1 ih2 =>
    cases hb with
    | @pipeline _ _ es hv hs =>
      cases hs with
      | @cons _ e _ es he hn =>
        obtain ⟨e', h1, c1⟩ := ih1 he
        obtain ⟨f', h2, c2⟩ := ih2 (.pipeline (steps := s :: ss) hv hn)
        cases h2 with
        | @pipeline _ _ es' _ hn' =>
          refine ⟨_, .pipeline (es := e' :: es') hv (.cons h1 hn'), ?_⟩
          cases hn with
          | @cons _ e1 _ es _ _ =>
            cases hn' with
            | @cons _ e1' _ es' _ _ => exact pipe_accords n c1 c2
  | @union φs v wts parts hne hw _ ih =>
    cases hb with
    | @union _ _ _ es hv he =>
      have he : List.Forall₂ (Behaves lib encode) (parts.map Branch.before) es := by
        have := he
        rw [List.map_map] at this
        exact this
      obtain ⟨es', h1, h2⟩ := behaves_branches he fun p hp f hf => ih p hp hf
      refine ⟨_, .union (es := es') hv (by rw [List.map_map]; exact h1), ?_⟩
      rw [List.map_map, List.map_map]
      exact union_accords wts hne hw h2
  | @ensemble φs kd v cs ms ms' hlen _ ih =>
    cases hb with
    | @ensemble _ _ _ _ _ es hv hcs he =>
      obtain ⟨es', h1, h2⟩ := behaves_both he hlen fun p hp f hf => ih p hp hf
      exact ⟨_, .ensemble hv hcs h1, ensemble_accords h2⟩
  | @subspaces φs kd v cs members hs _ ih =>
    cases hb with
    | @ensemble _ _ _ _ _ es hv hcs he =>
      obtain ⟨es', h1, h2⟩ := behaves_voters he fun m hm f hf => ih m hm hf
      exact ⟨_, .ensemble hv hcs h1, subspaces_accords hs h2⟩
  | @boosting φs v cs stages stages' init init' loss lr hl1 hl2 _ _ ihs ihi =>
    cases hb with
    | @boosting _ _ _ _ _ _ _ l' es e hv hcs' he h0 hl' =>
      obtain ⟨es', h1, h2⟩ := behaves_stages he hl1 hl2 fun p hp q hq f hf => ihs p hp q hq hf
      obtain ⟨e', h3, h4⟩ := ihi h0
      exact ⟨_, .boosting hv hcs' h1 h3 hl', boosting_accords h2 h4⟩

end PurePredict
