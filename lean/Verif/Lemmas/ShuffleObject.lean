import Verif.Lemmas.ShuffleFit
import Verif.Lemmas.UnreadObject
/-
Compound objects fitted on rearranged columns.
-/
namespace PurePredict
open Spec
variable {lib : String → TextLib} {encode : Str → List Nat} {fp : FP}

/-! ### Pipelines -/

theorem sameMethod_after {δ : Type} {w w' : Nat} {π ρ : List Nat} {t t' : Data (XR fp) → Py (Data (XR fp))}
    (ht : ∀ X Y, Shuffled w π X Y → Par (Shuffled w' ρ) (t X) (t' Y)) {p q : Option (Data (XR fp) → Py δ)} (h : SameMethod (Shuffled w' ρ) p q) :
    SameMethod (Shuffled w π) (p.map fun u X => t X >>= u) (q.map fun u X => t' X >>= u) := by
  refine ⟨fun r hr => ?_, fun hr => ?_⟩
  · obtain ⟨u, hu, rfl⟩ := Option.map_eq_some_iff.1 hr
    obtain ⟨u', hu', hX⟩ := h.1 u hu
    refine ⟨fun X => t' X >>= u', by rw [hu']; rfl, fun X Y hXY => Par.eq ((ht X Y hXY).bind fun A B hAB => ?_)⟩
    rw [hX A B hAB]
    exact .refl (fun _ => rfl) _
  · have hp : p = none := by simpa using hr
    rw [h.2 hp]
    rfl

theorem pipe_concurs (n : String) {e e' : Methods (XR fp)} {s s' : String × Methods (XR fp)} {ss ss' : List (String × Methods (XR fp))}
    {w w' : Nat} {π ρ : List Nat} {k : Together} (h1 : Concur e e' w π (.columns w' ρ)) (h2 : Concur (pipelineEst (s :: ss)) (pipelineEst (s' :: ss')) w' ρ k) :
    Concur (pipelineEst ((n, e) :: s :: ss)) (pipelineEst ((n, e') :: s' :: ss')) w π k := by
  obtain ⟨t, t', ht, ht', h1⟩ := h1
  obtain ⟨a1, a2, a3, a4⟩ := pipeline_cons n ht s ss
  obtain ⟨b1, b2, b3, b4⟩ := pipeline_cons n ht' s' ss'
  cases k with
  | columns w2 ρ2 =>
    obtain ⟨u, u', hu, hu', h2⟩ := h2
    exact ⟨fun X => t X >>= u, fun X => t' X >>= u', by rw [a1, hu]; rfl, by rw [b1, hu']; rfl, fun X Y h => (h1 X Y h).bind fun A B hAB => h2 A B hAB⟩
  | answers =>
    unfold Concur
    rw [a2, a3, a4, b2, b3, b4]
    exact ⟨sameMethod_after h1 h2.1, sameMethod_after h1 h2.2.1, sameMethod_after h1 h2.2.2⟩

/-! ### Unions -/

/-- rows of two blocks -/
def RowShuf (s : Nat × List Nat) (r r' : Row (XR fp)) : Prop := ∃ x y, r = .list x ∧ r' = .list y ∧ Rearranged s.1 s.2 x y

/-- two blocks -/
def PartShuf (s : Nat × List Nat) (A B : Arr (XR fp)) : Prop := ∃ M N, A = .ofMat M ∧ B = .ofMat N ∧ Shuf s.1 s.2 M N

theorem denseRow_shuf {vss : List (Nat × List Nat)} {Xs Ys : List (List (Row (XR fp)))}
    (h : Tri (fun s X Y => List.Forall₂ (RowShuf s) X Y) vss Xs Ys) (i : Nat) :
    Par (Rearranged (stack vss).1 (stack vss).2) (unionDenseRow Xs i) (unionDenseRow Ys i) := by
  unfold unionDenseRow
  refine Par.bind (R := Tri RowShuf vss) (h.par fun s X Y hXY => pyGet_par hXY i) fun rs ss hrs => ?_
  have flat : Par (Rearranged (stack vss).1 (stack vss).2) (rs.mapM Row.asList >>= fun ls => .ok ls.flatten) (ss.mapM Row.asList >>= fun ls => .ok ls.flatten) := by
    refine Par.bind (R := Tri (fun s x y => Rearranged s.1 s.2 x y) vss) (hrs.par fun s r r' hrs => ?_) fun ls ms hls => .done ?_
    · obtain ⟨x, y, rfl, rfl, h⟩ := hrs
      exact .done h
    · clear hrs h
      induction hls with
      | nil => exact ⟨rfl, .nil⟩
      | @cons s _ _ _ _ _ h _ ih =>
        obtain ⟨w, π⟩ := s
        exact h.append ih
  cases hrs with
  | nil => exact flat
  | @cons vs _ _ _ _ _ hr hrs =>
    cases hrs with
    | nil =>
      obtain ⟨x, y, e1, e2, hxy⟩ := hr
      subst e1 e2
      obtain ⟨w, π⟩ := vs
      simp only [stack, Nat.add_zero, List.map_nil, List.append_nil]
      exact .done hxy
    | cons _ _ => exact flat

theorem unionOf_shuf {n : Nat} (hn : 0 < n) (sh sh' : Py Shape) {vss : List (Nat × List Nat)} {Xs Ys : List (Arr (XR fp))} (hne : vss ≠ [])
    (h : Tri PartShuf vss Xs Ys) : Par (PartShuf (stack vss)) (unionOf (.ok n) sh Xs) (unionOf (.ok n) sh' Ys) := by
  have hX : Xs ≠ [] ∧ Ys ≠ [] ∧ Xs.any Arr.issparse = false ∧ Ys.any Arr.issparse = false := by
    have hs : Xs.any Arr.issparse = false ∧ Ys.any Arr.issparse = false := by
      clear hne
      induction h with
      | nil => exact ⟨rfl, rfl⟩
      | cons h _ ih =>
        obtain ⟨M, N, rfl, rfl, -⟩ := h
        exact ⟨by simp [ih.1], by simp [ih.2]⟩
    cases h with
    | nil => exact absurd rfl hne
    | cons _ _ => exact ⟨by simp, by simp, hs⟩
  obtain ⟨h1, h2, h3, h4⟩ := hX
  unfold unionOf
  have e1 : Xs.isEmpty = false := by simpa using h1
  have e2 : Ys.isEmpty = false := by simpa using h2
  simp only [e1, e2, h3, h4, Bool.false_eq_true, if_false]
  refine Par.bind (R := Tri (fun s X Y => List.Forall₂ (RowShuf s) X Y) vss) (h.par fun s A B hAB => ?_) fun ms ms' hms => ?_
  · obtain ⟨M, N, rfl, rfl, h⟩ := hAB
    rw [rows_ofMat, rows_ofMat]
    exact .done (moved_map h.2 fun x y hxy => ⟨x, y, rfl, rfl, hxy⟩)
  · simp only [py_ok_bind]
    have hrow : Par (List.Forall₂ (Rearranged (stack vss).1 (stack vss).2)) ((List.range n).mapM fun (i : Nat) => unionDenseRow ms i)
        ((List.range n).mapM fun (i : Nat) => unionDenseRow ms' i) :=
      Par.mapM (forall₂_same (R := fun i j : Nat => i = j) (fun _ => rfl) _) fun i j hij => by cases hij; exact denseRow_shuf hms i
    have hl : ∀ A, ((List.range n).mapM fun (i : Nat) => unionDenseRow ms i) = .ok A → A.length = n := fun A e => by simpa using mapM_length e
    revert hrow hl
    generalize ((List.range n).mapM fun (i : Nat) => unionDenseRow ms i) = p
    generalize ((List.range n).mapM fun (i : Nat) => unionDenseRow ms' i) = q
    intro hrow hl
    cases hrow with
    | fail => exact .fail
    | @done A B h' =>
      refine .done ⟨A, B, rfl, rfl, fun e => ?_, h'⟩
      have := hl A rfl
      rw [e] at this
      simp at this
      omega

theorem union_parts_shuf {w : Nat} {π : List Nat} (wts : Option (List (String × XR fp))) {parts : List (Part fp)} {es es' : List (Methods (XR fp))}
    (he : Tri (fun (p : Part fp) e e' => Concur e e' w π (.columns p.width p.order)) parts es es') {M N : List (List (XR fp))} (h : Shuf w π M N) :
    Par (Tri PartShuf (parts.map fun p => (p.width, p.order)))
      (((parts.map Part.name).zip es).mapM fun s => transformOne s.2.runTransform (.arr (.ofMat M)) (weightOf wts s.1))
      (((parts.map Part.name).zip es').mapM fun s => transformOne s.2.runTransform (.arr (.ofMat N)) (weightOf wts s.1)) := by
  induction he with
  | nil => exact .done .nil
  | @cons p e e' ps es es' hc _ ih =>
    obtain ⟨t, t', ht, ht', hr⟩ := hc
    simp only [List.map_cons, List.zip_cons_cons, mapM_cons']
    refine Par.bind (R := PartShuf (p.width, p.order)) ?_ fun A B hAB => ih.bind fun As Bs hAs => .done (.cons hAB hAs)
    unfold transformOne
    refine Par.bind (R := PartShuf (p.width, p.order)) ?_ fun A B hAB => ?_
    · unfold Est.runTransform
      rw [ht, ht']
      refine (hr _ _ (.mk h.1 h.2)).bind fun A B hAB => ?_
      cases hAB with
      | mk h1 h2 => exact .done ⟨_, _, rfl, rfl, h1, h2⟩
    · obtain ⟨M', N', rfl, rfl, h'⟩ := hAB
      cases weightOf wts p.name with
      | none => exact .done ⟨M', N', rfl, rfl, h'⟩
      | some c =>
        simp only [apply2d_ofMat_ok, py_ok_bind, py_pure]
        exact .done ⟨_, _, rfl, rfl, h'.map fun x y hxy => hxy.map _⟩

theorem union_concurs {w : Nat} {π : List Nat} (wts : Option (List (String × XR fp))) {parts : List (Part fp)} (hne : parts ≠ []) {es es' : List (Methods (XR fp))}
    (he : Tri (fun (p : Part fp) e e' => Concur e e' w π (.columns p.width p.order)) parts es es') :
    Concur (unionEst ((parts.map Part.name).zip es) wts) (unionEst ((parts.map Part.name).zip es') wts) w π
      (.columns (stack (parts.map fun p => (p.width, p.order))).1 (stack (parts.map fun p => (p.width, p.order))).2) := by
  refine ⟨_, _, rfl, rfl, fun X Y hXY => ?_⟩
  cases hXY with
  | @mk M N h1 h2 =>
    have h : Shuf w π M N := ⟨h1, h2⟩
    refine Par.bind (R := PartShuf (stack (parts.map fun p => (p.width, p.order)))) ?_ fun A B hAB => ?_
    · show Par _ (Data.check _ >>= fun X => _) (Data.check _ >>= fun X => _)
      rw [(records_check (.rows h.left.1)).1, (records_check (.rows h.right.1)).1]
      simp only [py_ok_bind]
      refine Par.bind (union_parts_shuf wts he h) fun Xs Ys hXY => ?_
      rw [show (Data.arr (.ofMat M) : Data (XR fp)).len = .ok M.length from len_ofMat M,
        show (Data.arr (.ofMat N) : Data (XR fp)).len = .ok N.length from len_ofMat N, ← h.length]
      exact unionOf_shuf (List.length_pos_of_ne_nil h.left.1) _ _ (by simpa using hne) hXY
    · obtain ⟨M', N', rfl, rfl, h'⟩ := hAB
      exact .done (.mk h'.1 h'.2)

/-! ### Ensembles -/

theorem bagging_concurs {b b' : Bagging (XR fp) (PVal (XR fp))} {w : Nat} {π : List Nat} (hc : b'.classes = b.classes)
    (hn : b'.estimators.length = b.estimators.length)
    (h : ∀ M N, Shuf w π M N → ∀ i : Nat, b.memberProba (.ofMat M) i = b'.memberProba (.ofMat N) i) :
    Concur (classifier b.predict b.predictProba b.predictLogProba) (classifier b'.predict b'.predictProba b'.predictLogProba) w π .answers := by
  refine classifier_shuf fun M N hMN => ?_
  have hacc : ∀ (l : List Nat) (P : List (List (XR fp))), b.accumulate (.ofMat M) l P = b'.accumulate (.ofMat N) l P := by
    intro l
    induction l with
    | nil => exact fun P => rfl
    | cons i l ih =>
      intro P
      unfold Bagging.accumulate
      rw [h M N hMN i]
      congr 1
      funext p
      congr 1
      funext s
      exact ih s
  have hp : b.predictProba (.ofMat M) = b'.predictProba (.ofMat N) := by
    unfold Bagging.predictProba
    rw [show b.memberProba (.ofMat M) 0 = b'.memberProba (.ofMat N) 0 from h M N hMN 0]
    simp only [hacc, hn]
  refine ⟨?_, hp, ?_⟩
  · unfold Bagging.predict
    rw [hp, hc]
  · unfold Bagging.predictLogProba
    rw [hp]

theorem runProba_shuf {e e' : Methods (XR fp)} {w : Nat} {π : List Nat} (h : Concur e e' w π .answers) {M N : List (List (XR fp))} (hMN : Shuf w π M N) :
    e.runProba (.ofMat M) = e'.runProba (.ofMat N) := by
  unfold Est.runProba
  cases he : e.predictProba with
  | none => rw [h.2.1.2 he]
  | some q =>
    obtain ⟨q', hq', hX⟩ := h.2.1.1 q he
    rw [hq']
    exact hX _ _ (.mk hMN.1 hMN.2)

theorem runNumbers_shuf {e e' : Methods (XR fp)} {w : Nat} {π : List Nat} (h : Concur e e' w π .answers) {M N : List (List (XR fp))} (hMN : Shuf w π M N) :
    e.runNumbers (.ofMat M) = e'.runNumbers (.ofMat N) := by
  unfold Est.runNumbers
  cases he : e.predict with
  | none => rw [h.1.2 he]
  | some q =>
    obtain ⟨q', hq', hX⟩ := h.1.1 q he
    simp only [hq', hX _ _ (.mk hMN.1 hMN.2)]

theorem ensemble_concurs {es es' : List (Methods (XR fp))} {cs : List (PVal (XR fp))} {w : Nat} {π : List Nat}
    (h : List.Forall₂ (fun e e' => Concur e e' w π .answers) es es') : Concur (ensembleEst none cs es) (ensembleEst none cs es') w π .answers := by
  unfold ensembleEst
  refine bagging_concurs rfl (by simp [h.length_eq]) fun M N hMN i => ?_
  unfold Bagging.memberProba
  refine Par.eq (Par.bind (R := fun m m' => m.predictProba (.ofMat M) = m'.predictProba (.ofMat N)) ?_ fun m m' hm => ?_)
  · exact pyGet_par (moved_map h fun e e' he => by exact runProba_shuf he hMN) i
  · simp only [py_ok_bind, Bagging.getFeats, featSlice, hm]
    exact .refl (fun _ => rfl) _

theorem slice_shuf {w : Nat} {π : List Nat} {f f' : List Int} (hf : List.Forall₂ (SameColumn π) f f') {x y : List (XR fp)} (h : Rearranged w π x y) :
    (f.mapM fun i => (Row.list x).getItem i) = f'.mapM fun i => (Row.list y).getItem i := by
  refine mapM_eq_of hf fun i j hij => ?_
  obtain ⟨a, b, rfl, rfl, hab⟩ := hij
  simp only [Row.getItem, pyGet_nat, h.get hab]

theorem subspaces_concurs {es : List (Methods (XR fp))} {fs fs' : List (List Int)} {cs : List (PVal (XR fp))} {w : Nat} {π : List Nat}
    (hfs : List.Forall₂ (List.Forall₂ (SameColumn π)) fs fs') : Concur (ensembleEst (some fs) cs es) (ensembleEst (some fs') cs es) w π .answers := by
  unfold ensembleEst
  refine bagging_concurs rfl rfl fun M N hMN i => ?_
  unfold Bagging.memberProba
  refine Par.eq (Par.bind (R := Eq) (.refl (fun _ => rfl) _) fun m m' hm => ?_)
  cases hm
  simp only [Bagging.getFeats, bind_assoc]
  refine (pyGet_par hfs i).bind fun f f' hf => ?_
  simp only [py_ok_bind, py_pure, featSlice, rows_ofMat, mapM_map']
  rw [mapM_eq_of hMN.2 fun x y hxy => slice_shuf hf hxy]
  exact .refl (fun _ => rfl) _

/-! ### Gradient boosting -/

theorem rawColumn_shuf {C : Type} {g g' : GB (XR fp) C} (hlr : g'.learningRate = g.learningRate) {X Y : Arr (XR fp)} (k : Nat)
    {sts sts' : List (List (Arr (XR fp) → Py (List (XR fp))))}
    (h : List.Forall₂ (List.Forall₂ fun f f' => f X = f' Y) sts sts') (c : List (XR fp)) : g.rawColumn X k sts c = g'.rawColumn Y k sts' c := by
  induction h generalizing c with
  | nil => rfl
  | cons h _ ih =>
    unfold GB.rawColumn
    refine Par.eq ((pyGet_par h k).bind fun f f' hf => ?_)
    rw [hf, hlr]
    refine (Par.refl (R := Eq) (fun _ => rfl) _).bind fun p _ e => ?_
    cases e
    refine (Par.refl (R := Eq) (fun _ => rfl) _).bind fun c _ e => ?_
    cases e
    rw [ih c]
    exact .refl (fun _ => rfl) _

theorem boosting_concurs {cs : List (PVal (XR fp))} {stages stages' : List (List (Methods (XR fp)))} {init init' : Methods (XR fp)} {l : Loss} {lr : XR fp} {nf : Nat}
    {π : List Nat} (hst : List.Forall₂ (List.Forall₂ fun e e' => Concur e e' nf π .answers) stages stages') (hi : Concur init init' nf π .answers) :
    Concur (boostingEst cs stages init l lr nf) (boostingEst cs stages' init' l lr π.length) nf π .answers := by
  refine classifier_shuf fun M N h => ?_
  generalize hg : (⟨cs, stages.map fun st => st.map fun m => m.runNumbers, init.runProba, lr, nf, l⟩ : GB (XR fp) (PVal (XR fp))) = g
  generalize hg' : (⟨cs, stages'.map fun st => st.map fun m => m.runNumbers, init'.runProba, lr, π.length, l⟩ : GB (XR fp) (PVal (XR fp))) = g'
  have e1 : g'.classes = g.classes := by subst hg hg'; rfl
  have e2 : g'.loss = g.loss := by subst hg hg'; rfl
  have e3 : g'.learningRate = g.learningRate := by subst hg hg'; rfl
  have e4 : g.nFeatures = nf := by subst hg; rfl
  have e5 : g'.nFeatures = π.length := by subst hg'; rfl
  have hinit : g.rawPredictInit (.ofMat M) = g'.rawPredictInit (.ofMat N) := by
    unfold GB.rawPredictInit
    rw [checkArray_ofMat h.left.1, checkArray_ofMat h.right.1]
    simp only [py_ok_bind, width_ofMat h.left.1 h.left.2, width_ofMat h.right.1 h.right.2, e2, e4, e5, ne_eq, not_true_eq_false, if_false]
    have : g.initProba (.ofMat M) = g'.initProba (.ofMat N) := by
      subst hg hg'
      exact runProba_shuf hi h
    rw [this]
  have hF : List.Forall₂ (List.Forall₂ fun f f' => f (Arr.ofMat M) = f' (Arr.ofMat N)) g.estimators g'.estimators := by
    subst hg hg'
    exact moved_map hst fun st st' hs => moved_map hs fun e e' he => runNumbers_shuf he h
  have hraw : g.rawPredict (.ofMat M) = g'.rawPredict (.ofMat N) := by
    unfold GB.rawPredict
    rw [hinit]
    simp only [len_ofMat, h.length, py_ok_bind]
    refine Par.eq ((Par.refl (R := Eq) (fun _ => rfl) _).bind fun i _ e => ?_)
    cases e
    refine (pyGet_par hF 0).bind fun st st' hs => ?_
    rw [hs.length_eq]
    have : ((List.range st'.length).mapM fun k => g.rawColumn (.ofMat M) k g.estimators (List.replicate N.length (ofInt 0))) =
        (List.range st'.length).mapM fun k => g'.rawColumn (.ofMat N) k g'.estimators (List.replicate N.length (ofInt 0)) :=
      mapM_congr fun k _ => rawColumn_shuf e3 k hF _
    rw [this]
    exact .refl (fun _ => rfl) _
  have hp : g.predictProba (.ofMat M) = g'.predictProba (.ofMat N) := by
    unfold GB.predictProba
    rw [hraw, e2]
  refine ⟨?_, hp, ?_⟩
  · unfold GB.predict
    rw [hp, e1]
  · unfold GB.predictLogProba
    rw [hp]

/-! ### All objects -/

theorem behaves_both {R : Methods (XR fp) → Methods (XR fp) → Prop} {ms ms' : List (SkObj (Attrs (XR fp)) (PVal (XR fp)) (XR fp))} {es : List (Methods (XR fp))}
    (he : List.Forall₂ (Behaves lib encode) ms es) (hlen : ms.length = ms'.length)
    (h : ∀ p ∈ ms.zip ms', ∀ f, Behaves lib encode p.1 f → ∃ f', Behaves lib encode p.2 f' ∧ R f f') :
    ∃ es', List.Forall₂ (Behaves lib encode) ms' es' ∧ List.Forall₂ R es es' := by
  induction he generalizing ms' with
  | nil =>
    cases ms' with
    | nil => exact ⟨[], .nil, .nil⟩
    | cons _ _ => simp at hlen
  | @cons m e ms es hm _ ih =>
    cases ms' with
    | nil => simp at hlen
    | cons m' ms' =>
      obtain ⟨f', h1, h2⟩ := h (m, m') (by simp) e hm
      obtain ⟨es', h3, h4⟩ := ih (ms' := ms') (by simpa using hlen) fun p hp => h p (by simp [hp])
      exact ⟨f' :: es', .cons h1 h3, .cons h2 h4⟩

theorem behaves_stages {R : Methods (XR fp) → Methods (XR fp) → Prop} {ms ms' : List (List (SkObj (Attrs (XR fp)) (PVal (XR fp)) (XR fp)))} {es : List (List (Methods (XR fp)))}
    (he : List.Forall₂ (List.Forall₂ (Behaves lib encode)) ms es) (hlen : ms.length = ms'.length) (hlens : ∀ p ∈ ms.zip ms', p.1.length = p.2.length)
    (h : ∀ p ∈ ms.zip ms', ∀ q ∈ p.1.zip p.2, ∀ f, Behaves lib encode q.1 f → ∃ f', Behaves lib encode q.2 f' ∧ R f f') :
    ∃ es', List.Forall₂ (List.Forall₂ (Behaves lib encode)) ms' es' ∧ List.Forall₂ (List.Forall₂ R) es es' := by
  induction he generalizing ms' with
  | nil =>
    cases ms' with
    | nil => exact ⟨[], .nil, .nil⟩
    | cons _ _ => simp at hlen
  | @cons m e ms es hm _ ih =>
    cases ms' with
    | nil => simp at hlen
    | cons m' ms' =>
      obtain ⟨f', h1, h2⟩ := behaves_both hm (hlens (m, m') (by simp)) (h (m, m') (by simp))
      obtain ⟨es', h3, h4⟩ := ih (ms' := ms') (by simpa using hlen) (fun p hp => hlens p (by simp [hp])) fun p hp => h p (by simp [hp])
      exact ⟨f' :: es', .cons h1 h3, .cons h2 h4⟩

theorem behaves_union {w : Nat} {π : List Nat} {parts : List (Part fp)} {es : List (Methods (XR fp))}
    (he : List.Forall₂ (Behaves lib encode) (parts.map Part.before) es)
    (h : ∀ p ∈ parts, ∀ f, Behaves lib encode p.before f → ∃ f', Behaves lib encode p.after f' ∧ Concur f f' w π (.columns p.width p.order)) :
    ∃ es', List.Forall₂ (Behaves lib encode) (parts.map Part.after) es' ∧ Tri (fun (p : Part fp) e e' => Concur e e' w π (.columns p.width p.order)) parts es es' := by
  induction parts generalizing es with
  | nil => cases he; exact ⟨[], .nil, .nil⟩
  | cons p parts ih =>
    cases he with
    | @cons _ e _ es hb he =>
      obtain ⟨f', h1, h2⟩ := h p (by simp) e hb
      obtain ⟨es', h3, h4⟩ := ih he fun p hp => h p (by simp [hp])
      exact ⟨f' :: es', .cons h1 h3, .cons h2 h4⟩

theorem behaves_shuffled {w : Nat} {π : List Nat} {o o' : SkObj (Attrs (XR fp)) (PVal (XR fp)) (XR fp)} {k : Together} (h : Rearrange w π o o' k)
    {f : Methods (XR fp)} (hb : Behaves lib encode o f) : ∃ f', Behaves lib encode o' f' ∧ Concur f f' w π k := by
  have leaf : ∀ {c v} {a : Attrs (XR fp)} {s : Single (XR fp)} {f : Methods (XR fp)}, Learned c a s → Behaves lib encode (.leaf c v a) f →
      f = s.est lib encode ∧ ReadableVersion v := by
    intro c v a s f hl hb
    cases hb with
    | single hv hl1 => exact ⟨C89_behaviour_unique (.single hv hl1) (.single (lib := lib) (encode := encode) hv hl), hv⟩
  induction h generalizing f with
  | step h1 h2 hs =>
    obtain ⟨rfl, hv⟩ := leaf h1 hb
    exact ⟨_, .single hv h2, step_concurs hs lib encode⟩
  | fit h1 h2 hs =>
    obtain ⟨rfl, hv⟩ := leaf h1 hb
    exact ⟨_, .single hv h2, fit_concurs hs lib encode⟩
  | @lastStep w π v n o o' k _ ih =>
    cases hb with
    | @pipeline _ _ es hv hs =>
      cases hs with
      | @cons _ e _ _ he hn =>
        cases hn
        obtain ⟨e', h1, h2⟩ := ih he
        refine ⟨_, .pipeline (es := [e']) hv (.cons h1 .nil), ?_⟩
        show Concur (pipelineEst [(n, e)]) (pipelineEst [(n, e')]) _ _ _
        rw [pipeline_single, pipeline_single]
        exact h2
  | @firstStep w π w' ρ v n o o' s ss s' ss' k _ _ ih1 ih2 =>
    cases hb with
    | @pipeline _ _ es hv hs =>
      cases hs with
      | @cons _ e _ es he hn =>
        obtain ⟨e', h1, c1⟩ := ih1 he
        obtain ⟨f', h2, c2⟩ := ih2 (.pipeline (steps := s :: ss) hv hn)
        cases h2 with
        | @pipeline _ _ es' _ hn' =>
          refine ⟨_, .pipeline (es := e' :: es') hv (.cons h1 hn'), ?_⟩
          cases hn with
          | @cons _ e1 _ es _ _ =>
            cases hn' with
            | @cons _ e1' _ es' _ _ => exact pipe_concurs n c1 c2
  | @union w π v wts parts hne _ ih =>
    cases hb with
    | @union _ _ _ es hv he =>
      have he : List.Forall₂ (Behaves lib encode) (parts.map Part.before) es := by
        have := he
        rw [List.map_map] at this
        exact this
      obtain ⟨es', h1, h2⟩ := behaves_union he fun p hp f hf => ih p hp hf
      refine ⟨_, .union (es := es') hv (by rw [List.map_map]; exact h1), ?_⟩
      rw [List.map_map, List.map_map]
      exact union_concurs wts hne h2
  | @ensemble w π kd v cs ms ms' hlen _ ih =>
    cases hb with
    | @ensemble _ _ _ _ _ es hv hcs he =>
      obtain ⟨es', h1, h2⟩ := behaves_both he hlen fun p hp f hf => ih p hp hf
      exact ⟨_, .ensemble hv hcs h1, ensemble_concurs h2⟩
  | @subspaces w π kd v cs ms fs fs' hfs =>
    cases hb with
    | @ensemble _ _ _ _ _ es hv hcs he => exact ⟨_, .ensemble hv hcs he, subspaces_concurs hfs⟩
  | @boosting π v cs stages stages' init init' loss lr nf hl1 hl2 _ _ ihs ihi =>
    cases hb with
    | @boosting _ _ _ _ _ _ _ l' es e hv hcs' he h0 hl' =>
      obtain ⟨es', h1, h2⟩ := behaves_stages he hl1 hl2 fun p hp q hq f hf => ihs p hp q hq hf
      obtain ⟨e', h3, h4⟩ := ihi h0
      exact ⟨_, .boosting hv hcs' h1 h3 hl', boosting_concurs h2 h4⟩

end PurePredict
