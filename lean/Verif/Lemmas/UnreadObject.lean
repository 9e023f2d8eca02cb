import Verif.Lemmas.UnreadFit
import Verif.Lemmas.RisingObject
/-
Compound objects and the parts of a request they do not look at.
-/
namespace PurePredict
open Spec
variable {lib : String → TextLib} {encode : Str → List Nat} {fp : FP}

/-! ### Pipelines -/

theorem pipe_blind (n : String) {e : Methods (XR fp)} {s : String × Methods (XR fp)} {ss : List (String × Methods (XR fp))}
    {R : Data (XR fp) → Data (XR fp) → Prop} {vs : List Col} {k : Kept} (h1 : Blind e R (.columns vs)) (h2 : Blind (pipelineEst (s :: ss)) (SameColumns vs) k) :
    Blind (pipelineEst ((n, e) :: s :: ss)) R k := by
  obtain ⟨t, ht, h1⟩ := h1
  obtain ⟨a1, a2, a3, a4⟩ := pipeline_cons n ht s ss
  cases k with
  | columns us =>
    obtain ⟨u, hu, h2⟩ := h2
    exact ⟨fun X => t X >>= u, by rw [a1, hu]; rfl, fun X Y h => (h1 X Y h).bind fun A B hAB => h2 A B hAB⟩
  | all =>
    intro X Y h
    have h1 := h1 X Y h
    have go : ∀ {α : Type} {u : Data (XR fp) → Py α}, (∀ A B, SameColumns vs A B → u A = u B) → (t X >>= u) = (t Y >>= u) := by
      intro α u hu
      exact (h1.bind (S := Eq) fun A B hAB => by rw [hu A B hAB]; exact .refl (fun _ => rfl) _).eq
    refine ⟨fun f hf => ?_, fun f hf => ?_, fun f hf => ?_, fun f hf => ?_⟩
    · rw [a1] at hf
      obtain ⟨u, hu, rfl⟩ := Option.map_eq_some_iff.1 hf
      exact go fun A B hAB => (h2 A B hAB).1 u hu
    · rw [a2] at hf
      obtain ⟨u, hu, rfl⟩ := Option.map_eq_some_iff.1 hf
      exact go fun A B hAB => (h2 A B hAB).2.1 u hu
    · rw [a3] at hf
      obtain ⟨u, hu, rfl⟩ := Option.map_eq_some_iff.1 hf
      exact go fun A B hAB => (h2 A B hAB).2.2.1 u hu
    · rw [a4] at hf
      obtain ⟨u, hu, rfl⟩ := Option.map_eq_some_iff.1 hf
      exact go fun A B hAB => (h2 A B hAB).2.2.2 u hu

theorem pipe_blind_all (n : String) {e : Methods (XR fp)} {s : String × Methods (XR fp)} {ss : List (String × Methods (XR fp))}
    {R : Data (XR fp) → Data (XR fp) → Prop} (h1 : Blind e R .all) : Blind (pipelineEst ((n, e) :: s :: ss)) R .all := by
  intro X Y h
  have ht := (h1 X Y h).1
  have happ : ∀ l : List (String × Option (Methods (XR fp))), Pipeline.applyAll ((n, some e) :: l) X = Pipeline.applyAll ((n, some e) :: l) Y := by
    intro l
    cases he : e.transform with
    | none => simp only [Pipeline.applyAll, he]
    | some t => simp only [Pipeline.applyAll, he, ht t he]
  have hfront : ∀ p : Pipeline (Data (XR fp)) (List (PVal (XR fp))) (List (List (XR fp))),
      p = ⟨(n, some e) :: (s.1, some s.2) :: ss.map fun s => (s.1, some s.2)⟩ → Pipeline.applyAll p.front X = Pipeline.applyAll p.front Y := by
    rintro p rfl
    exact happ _
  have hall : ∀ p : Pipeline (Data (XR fp)) (List (PVal (XR fp))) (List (List (XR fp))),
      p = ⟨(n, some e) :: (s.1, some s.2) :: ss.map fun s => (s.1, some s.2)⟩ → p.transform X = p.transform Y := by
    rintro p rfl
    unfold Pipeline.transform
    simp only [happ]
  have hp : pipelineEst ((n, e) :: s :: ss) = Pipeline.asEst ⟨(n, some e) :: (s.1, some s.2) :: ss.map fun s => (s.1, some s.2)⟩ := rfl
  rw [hp]
  generalize hq : (⟨(n, some e) :: (s.1, some s.2) :: ss.map fun s => (s.1, some s.2)⟩ : Pipeline (Data (XR fp)) (List (PVal (XR fp))) (List (List (XR fp)))) = p
  have hfront := hfront p hq.symm
  have hall := hall p hq.symm
  refine ⟨fun f hf => ?_, fun f hf => ?_, fun f hf => ?_, fun f hf => ?_⟩
  · simp only [Pipeline.asEst] at hf
    split at hf
    · split at hf
      · cases hf
      · cases hf; exact hall
    · cases hf; exact hall
    · cases hf
  · simp only [Pipeline.asEst] at hf
    split at hf
    · cases hf
      simp only [Pipeline.predict, hfront]
    · cases hf
  · simp only [Pipeline.asEst] at hf
    split at hf
    · cases hf
      simp only [Pipeline.predictProba, hfront]
    · cases hf
  · simp only [Pipeline.asEst] at hf
    split at hf
    · cases hf
      simp only [Pipeline.predictLogProba, hfront]
    · cases hf

/-! ### Unions -/

theorem runTransform_same {e : Methods (XR fp)} {R : Data (XR fp) → Data (XR fp) → Prop} (h : Blind e R .all) {X Y : Data (XR fp)} (hXY : R X Y) :
    e.runTransform X = e.runTransform Y := by
  unfold Est.runTransform
  cases he : e.transform with
  | none => rfl
  | some t => simp only [(h X Y hXY).1 t he]

theorem records_check {X : Data (XR fp)} {n : Nat} (h : HasRecords X n) : X.check = .ok X ∧ X.len = .ok n := by
  cases h with
  | rows h => exact ⟨by simp only [Data.check, checkArray_ofMat h, py_ok_bind]; rfl, len_ofMat _⟩
  | docs h => exact ⟨by simp [Data.check, h], rfl⟩
  | mappings h => exact ⟨by simp [Data.check, h], rfl⟩

theorem unionOf_shape {len : Py Nat} {sh sh' : Py Shape} {Xs : List (Arr (XR fp))} (h : Xs ≠ []) : unionOf len sh Xs = unionOf len sh' Xs := by
  unfold unionOf
  have : Xs.isEmpty = false := by simpa using h
  simp only [this, Bool.false_eq_true, if_false]

theorem union_blind_all {steps : List (String × Methods (XR fp))} (hne : steps ≠ []) (wts : Option (List (String × XR fp)))
    {R : Data (XR fp) → Data (XR fp) → Prop} (hR : ∀ X Y, R X Y → ∃ n, HasRecords X n ∧ HasRecords Y n)
    (h : ∀ s ∈ steps, Blind s.2 R .all) : Blind (unionEst steps wts) R .all := by
  intro X Y hXY
  refine ⟨fun _ e => ?_, fun _ e => (by cases e), fun _ e => (by cases e), fun _ e => by cases e⟩
  cases e
  obtain ⟨n, hX, hY⟩ := hR X Y hXY
  obtain ⟨c1, l1⟩ := records_check hX
  obtain ⟨c2, l2⟩ := records_check hY
  have hXs : (steps.mapM fun s => transformOne s.2.runTransform X (weightOf wts s.1)) = steps.mapM fun s => transformOne s.2.runTransform Y (weightOf wts s.1) :=
    mapM_congr fun s hs => by
      unfold transformOne
      rw [runTransform_same (h s hs) hXY]
  show (do return Data.arr (← (do let X ← X.check; let Xs ← steps.mapM fun (s : String × Methods (XR fp)) => transformOne s.2.runTransform X (weightOf wts s.1); unionOf X.len X.shape Xs))) =
    (do return Data.arr (← (do let X ← Y.check; let Xs ← steps.mapM fun (s : String × Methods (XR fp)) => transformOne s.2.runTransform X (weightOf wts s.1); unionOf X.len X.shape Xs)))
  rw [c1, c2]
  simp only [py_ok_bind, hXs, l1, l2]
  cases hx : steps.mapM fun s => transformOne s.2.runTransform Y (weightOf wts s.1) with
  | error e => rfl
  | ok Xs =>
    have : Xs ≠ [] := fun e => hne (by
      have := mapM_length hx
      rw [e] at this
      exact List.length_eq_zero_iff.1 this.symm)
    simp only [py_ok_bind, unionOf_shape (sh := X.shape) (sh' := Y.shape) this]

theorem Tri.par {α β γ δ ε : Type} {T : α → β → γ → Prop} {S : α → δ → ε → Prop} {f : β → Py δ} {g : γ → Py ε} {as : List α} {bs : List β}
    {cs : List γ} (h : Tri T as bs cs) (hfg : ∀ a b c, T a b c → Par (S a) (f b) (g c)) : Par (Tri S as) (bs.mapM f) (cs.mapM g) := by
  induction h with
  | nil => exact .done .nil
  | cons h _ ih =>
    rw [mapM_cons', mapM_cons']
    exact (hfg _ _ _ h).bind fun u v huv => ih.bind fun us vs hus => .done (.cons huv hus)

theorem pyGet_par {α β : Type} {R : α → β → Prop} {l : List α} {l' : List β} (h : List.Forall₂ R l l') (i : Nat) :
    Par R (pyGet l (i : Int)) (pyGet l' (i : Int)) := by
  by_cases hi : i < l.length
  · have hi' : i < l'.length := by rw [← h.length_eq]; exact hi
    rw [pyGet_lt hi, pyGet_lt hi']
    exact .done (forall₂_get h hi hi')
  · rw [pyGet_ge (by omega), pyGet_ge (by rw [← h.length_eq]; omega)]
    exact .fail

/-- rows of two blocks -/
def RowMatch (ws : List Col) (r s : Row (XR fp)) : Prop := ∃ x y, r = .list x ∧ s = .list y ∧ AgreeOn ws x y

/-- two blocks -/
def PartMatch (ws : List Col) (A B : Arr (XR fp)) : Prop := ∃ M N, A = .ofMat M ∧ B = .ofMat N ∧ Matching ws M N

theorem denseRow_par {vss : List (List Col)} {Xs Ys : List (List (Row (XR fp)))}
    (h : Tri (fun ws X Y => List.Forall₂ (RowMatch ws) X Y) vss Xs Ys) (i : Nat) :
    Par (AgreeOn vss.flatten) (unionDenseRow Xs i) (unionDenseRow Ys i) := by
  unfold unionDenseRow
  refine Par.bind (R := Tri RowMatch vss) (h.par fun ws X Y hXY => pyGet_par hXY i) fun rs ss hrs => ?_
  have flat : Par (AgreeOn vss.flatten) (rs.mapM Row.asList >>= fun ls => .ok ls.flatten) (ss.mapM Row.asList >>= fun ls => .ok ls.flatten) := by
    refine Par.bind (R := Tri AgreeOn vss) (hrs.par fun ws r s hrs => ?_) fun ls ms hls => .done ?_
    · obtain ⟨x, y, rfl, rfl, h⟩ := hrs
      exact .done h
    · clear hrs h
      induction hls with
      | nil => exact .nil
      | cons h _ ih => exact agree_append h ih
  cases hrs with
  | nil => exact flat
  | @cons vs _ _ _ _ _ hr hrs =>
    cases hrs with
    | nil =>
      obtain ⟨x, y, e1, e2, hxy⟩ := hr
      subst e1 e2
      simp only [List.flatten_cons, List.flatten_nil, List.append_nil]
      exact .done hxy
    | cons _ _ => exact flat

theorem unionOf_par {n : Nat} (hn : 0 < n) (sh sh' : Py Shape) {vss : List (List Col)} {Xs Ys : List (Arr (XR fp))} (hne : vss ≠ [])
    (h : Tri PartMatch vss Xs Ys) : Par (PartMatch vss.flatten) (unionOf (.ok n) sh Xs) (unionOf (.ok n) sh' Ys) := by
  have hX : Xs ≠ [] ∧ Ys ≠ [] ∧ Xs.any Arr.issparse = false ∧ Ys.any Arr.issparse = false := by
    have hs : Xs.any Arr.issparse = false ∧ Ys.any Arr.issparse = false := by
      clear hne
      induction h with
      | nil => exact ⟨rfl, rfl⟩
      | cons h _ ih =>
        obtain ⟨M, N, rfl, rfl, -⟩ := h
        exact ⟨by simp [ih.1], by simp [ih.2]⟩
    cases h with
    | nil => exact absurd rfl hne
    | cons _ _ => exact ⟨by simp, by simp, hs⟩
  obtain ⟨h1, h2, h3, h4⟩ := hX
  unfold unionOf
  have e1 : Xs.isEmpty = false := by simpa using h1
  have e2 : Ys.isEmpty = false := by simpa using h2
  simp only [e1, e2, h3, h4, Bool.false_eq_true, if_false]
  refine Par.bind (R := Tri (fun ws X Y => List.Forall₂ (RowMatch ws) X Y) vss) (h.par fun ws A B hAB => ?_) fun ms ms' hms => ?_
  · obtain ⟨M, N, rfl, rfl, h⟩ := hAB
    rw [rows_ofMat, rows_ofMat]
    exact .done (moved_map h.2 fun x y hxy => ⟨x, y, rfl, rfl, hxy⟩)
  · simp only [py_ok_bind]
    have hrow : Par (List.Forall₂ (AgreeOn vss.flatten)) ((List.range n).mapM fun (i : Nat) => unionDenseRow ms i)
        ((List.range n).mapM fun (i : Nat) => unionDenseRow ms' i) :=
      Par.mapM (forall₂_same (R := fun i j : Nat => i = j) (fun _ => rfl) _) fun i j hij => by cases hij; exact denseRow_par hms i
    have hl : ∀ A, ((List.range n).mapM fun (i : Nat) => unionDenseRow ms i) = .ok A → A.length = n := fun A e => by simpa using mapM_length e
    revert hrow hl
    generalize ((List.range n).mapM fun (i : Nat) => unionDenseRow ms i) = p
    generalize ((List.range n).mapM fun (i : Nat) => unionDenseRow ms' i) = q
    intro hrow hl
    cases hrow with
    | fail => exact .fail
    | @done A B h' =>
      refine .done ⟨A, B, rfl, rfl, fun e => ?_, h'⟩
      have := hl A rfl
      rw [e] at this
      simp at this
      omega

theorem union_parts_par {ws : List Col} (wts : Option (List (String × XR fp)))
    (steps : List (String × SkObj (Attrs (XR fp)) (PVal (XR fp)) (XR fp) × List Col))
    (hw : ∀ s ∈ steps, ∀ c, weightOf wts s.1 = some c → .idle ∉ s.2.2)
    {es : List (Methods (XR fp))} (he : List.Forall₂ (Behaves lib encode) ((steps.map fun s => (s.1, s.2.1)).map Prod.snd) es)
    (H : ∀ s ∈ steps, ∀ f, Behaves lib encode s.2.1 f → Blind f (SameColumns ws) (.columns s.2.2)) {M N : List (List (XR fp))} (h : Matching ws M N) :
    Par (Tri PartMatch (steps.map fun s => s.2.2))
      ((((steps.map fun s => (s.1, s.2.1)).map Prod.fst).zip es).mapM fun s => transformOne s.2.runTransform (.arr (.ofMat M)) (weightOf wts s.1))
      ((((steps.map fun s => (s.1, s.2.1)).map Prod.fst).zip es).mapM fun s => transformOne s.2.runTransform (.arr (.ofMat N)) (weightOf wts s.1)) := by
  induction steps generalizing es with
  | nil =>
    cases he
    exact .done .nil
  | cons s steps ih =>
    simp only [List.map_cons] at he
    cases he with
    | @cons _ e _ es h1 he =>
      have ih := ih (fun s hs => hw s (by simp [hs])) he fun s hs => H s (by simp [hs])
      obtain ⟨t, ht, hr⟩ := H s (by simp) e h1
      simp only [List.map_cons, List.zip_cons_cons, mapM_cons']
      refine Par.bind (R := PartMatch s.2.2) ?_ fun A B hAB => ih.bind fun As Bs hAs => .done (.cons hAB hAs)
      unfold transformOne
      refine Par.bind (R := PartMatch s.2.2) ?_ fun A B hAB => ?_
      · unfold Est.runTransform
        rw [ht]
        refine (hr _ _ (.mk h)).bind fun A B hAB => ?_
        cases hAB with
        | mk h' => exact .done ⟨_, _, rfl, rfl, h'⟩
      · obtain ⟨M', N', rfl, rfl, h'⟩ := hAB
        cases hc : weightOf wts s.1 with
        | none => exact .done ⟨M', N', rfl, rfl, h'⟩
        | some c =>
          have hidle := hw s (by simp) c hc
          simp only [apply2d_ofMat_ok, py_ok_bind, py_pure]
          refine .done ⟨_, _, rfl, rfl, by simpa using h'.1, moved_map h'.2 fun x y hxy => ?_⟩
          generalize s.2.2 = vs at hxy hidle
          induction hxy with
          | nil => exact .nil
          | @cons w a b _ _ _ h _ ih =>
            refine .cons ?_ (ih fun hm => hidle (by simp [hm]))
            cases w with
            | read => cases (h : a = b); exact rfl
            | free => trivial
            | idle => exact absurd (by simp) hidle

theorem union_blind {ws : List Col} (wts : Option (List (String × XR fp)))
    {steps : List (String × SkObj (Attrs (XR fp)) (PVal (XR fp)) (XR fp) × List Col)} (hne : steps ≠ [])
    (hw : ∀ s ∈ steps, ∀ c, weightOf wts s.1 = some c → .idle ∉ s.2.2)
    {es : List (Methods (XR fp))} (he : List.Forall₂ (Behaves lib encode) ((steps.map fun s => (s.1, s.2.1)).map Prod.snd) es)
    (H : ∀ s ∈ steps, ∀ f, Behaves lib encode s.2.1 f → Blind f (SameColumns ws) (.columns s.2.2)) :
    Blind (unionEst (((steps.map fun s => (s.1, s.2.1)).map Prod.fst).zip es) wts) (SameColumns ws) (.columns (steps.map fun s => s.2.2).flatten) := by
  refine ⟨_, rfl, fun X Y hXY => ?_⟩
  cases hXY with
  | @mk M N h =>
    refine Par.bind (R := PartMatch (steps.map fun s => s.2.2).flatten) ?_ fun A B hAB => ?_
    · show Par _ (Data.check _ >>= fun X => _) (Data.check _ >>= fun X => _)
      rw [(records_check (.rows h.left.1)).1, (records_check (.rows h.right.1)).1]
      simp only [py_ok_bind]
      refine Par.bind (union_parts_par wts steps hw he H h) fun Xs Ys hXY => ?_
      rw [show (Data.arr (.ofMat M) : Data (XR fp)).len = .ok M.length from len_ofMat M,
        show (Data.arr (.ofMat N) : Data (XR fp)).len = .ok N.length from len_ofMat N, ← h.length]
      exact unionOf_par (List.length_pos_of_ne_nil h.left.1) _ _ (by simpa using hne) hXY
    · obtain ⟨M', N', rfl, rfl, h'⟩ := hAB
      exact .done (.mk h')

/-! ### Ensembles -/

theorem bagging_blind {b : Bagging (XR fp) (PVal (XR fp))} {ws : List Col}
    (h : ∀ M N, Matching ws M N → ∀ i : Nat, b.memberProba (.ofMat M) i = b.memberProba (.ofMat N) i) :
    Blind (classifier b.predict b.predictProba b.predictLogProba) (SameColumns ws) .all := by
  refine classifier_blind fun M N hMN => ?_
  have hacc : ∀ (l : List Nat) (P : List (List (XR fp))), b.accumulate (.ofMat M) l P = b.accumulate (.ofMat N) l P := by
    intro l
    induction l with
    | nil => exact fun P => rfl
    | cons i l ih =>
      intro P
      unfold Bagging.accumulate
      rw [h M N hMN i]
      congr 1
      funext p
      congr 1
      funext s
      exact ih s
  have hp : b.predictProba (.ofMat M) = b.predictProba (.ofMat N) := by
    unfold Bagging.predictProba
    rw [show b.memberProba (.ofMat M) 0 = b.memberProba (.ofMat N) 0 from h M N hMN 0]
    simp only [hacc]
  refine ⟨?_, hp, ?_⟩
  · unfold Bagging.predict
    rw [hp]
  · unfold Bagging.predictLogProba
    rw [hp]

theorem runProba_same {e : Methods (XR fp)} {ws : List Col} (h : Blind e (SameColumns ws) .all) {M N : List (List (XR fp))} (hMN : Matching ws M N) :
    e.runProba (.ofMat M) = e.runProba (.ofMat N) := by
  unfold Est.runProba
  cases he : e.predictProba with
  | none => rfl
  | some q => exact (h _ _ (.mk hMN)).2.2.1 q he

theorem ensemble_blind {es : List (Methods (XR fp))} {cs : List (PVal (XR fp))} {ws : List Col} (h : ∀ e ∈ es, Blind e (SameColumns ws) .all) :
    Blind (ensembleEst none cs es) (SameColumns ws) .all := by
  unfold ensembleEst
  refine bagging_blind fun M N hMN i => ?_
  unfold Bagging.memberProba
  cases he : pyGet (es.map fun m => (⟨m.runProba⟩ : Member (XR fp))) (i : Int) with
  | error x => rfl
  | ok m =>
    obtain ⟨e, hem, rfl⟩ := List.mem_map.1 (List.mem_of_getElem? (pyGet_ok_nat.1 he))
    simp only [py_ok_bind, Bagging.getFeats, featSlice]
    exact runProba_same (h e hem) hMN

theorem slice_par {ws : List Col} {f : List Int} (hf : ∀ i ∈ f, 0 ≤ i ∧ i < (ws.length : Int)) {x y : List (XR fp)} (h : AgreeOn ws x y) :
    Par (AgreeOn (pickCols ws f)) (f.mapM fun i => (Row.list x).getItem i) (f.mapM fun i => (Row.list y).getItem i) := by
  induction f with
  | nil => exact .done .nil
  | cons j f ih =>
    rw [mapM_cons', mapM_cons']
    obtain ⟨h0, h1⟩ := hf j (by simp)
    obtain ⟨m, rfl⟩ : ∃ m : Nat, j = (m : Int) := ⟨j.toNat, by omega⟩
    have hm : m < ws.length := by omega
    obtain ⟨a, b, ha, hb, hab⟩ := agree_get h (List.getElem?_eq_getElem hm)
    simp only [Row.getItem] at ih ⊢
    rw [pyGet_ok_nat.2 ha, pyGet_ok_nat.2 hb]
    refine (ih fun i hi => hf i (by simp [hi])).bind fun as bs has => .done ?_
    refine .cons ?_ has
    show (ws.getD m .free).Rel a b
    rw [List.getD_eq_getElem?_getD, List.getElem?_eq_getElem hm]
    exact hab

theorem subspaces_blind {es : List (Methods (XR fp))} {fs : List (List Int)} {cs : List (PVal (XR fp))} {ws : List Col}
    (hfs : ∀ f ∈ fs, ∀ i ∈ f, 0 ≤ i ∧ i < (ws.length : Int)) (h : ∀ p ∈ es.zip fs, Blind p.1 (SameColumns (pickCols ws p.2)) .all) :
    Blind (ensembleEst (some fs) cs es) (SameColumns ws) .all := by
  unfold ensembleEst
  refine bagging_blind fun M N hMN i => ?_
  by_cases hi : i < es.length
  · simp only [Bagging.memberProba, Bagging.getFeats, pyGet_lt (l := es.map fun m => (⟨m.runProba⟩ : Member (XR fp))) (by simpa using hi),
      py_ok_bind, List.getElem_map]
    cases hg : pyGet fs (i : Int) with
    | error x => rfl
    | ok f =>
      have hi2 : i < fs.length := (List.getElem?_eq_some_iff.1 (pyGet_ok_nat.1 hg)).1
      have hf : fs[i] = f := by
        have := pyGet_ok_nat.1 hg
        rw [List.getElem?_eq_getElem hi2] at this
        exact Option.some.inj this
      simp only [py_ok_bind, py_pure, featSlice, rows_ofMat, mapM_map']
      have hp := h (es[i], fs[i]) (mem_zip_get es fs hi hi2)
      rw [hf] at hp
      refine Par.eq ?_
      refine Par.bind (R := fun A B => ∃ M' N', A = Arr.ofMat M' ∧ B = Arr.ofMat N' ∧ Matching (pickCols ws f) M' N') ?_ fun A B hAB => ?_
      · refine (mapM_matching hMN fun x y hxy => slice_par (hfs f (by rw [← hf]; exact List.getElem_mem hi2)) hxy).bind fun M' N' h' => .done ⟨M', N', rfl, rfl, h'⟩
      · obtain ⟨M', N', rfl, rfl, h'⟩ := hAB
        rw [show es[i].runProba (.ofMat M') = es[i].runProba (.ofMat N') from runProba_same hp h']
        exact .refl (fun _ => rfl) _
  · have : ∃ x, pyGet (es.map fun m => (⟨m.runProba⟩ : Member (XR fp))) (i : Int) = .error x := by
      cases he : pyGet (es.map fun m => (⟨m.runProba⟩ : Member (XR fp))) (i : Int) with
      | error x => exact ⟨x, rfl⟩
      | ok a =>
        rw [pyGet_ok_nat, List.getElem?_eq_none (by simpa using hi)] at he
        cases he
    obtain ⟨x, hx⟩ := this
    simp only [Bagging.memberProba, hx]
    rfl

/-! ### Gradient boosting -/

theorem runNumbers_same {e : Methods (XR fp)} {ws : List Col} (h : Blind e (SameColumns ws) .all) {M N : List (List (XR fp))} (hMN : Matching ws M N) :
    e.runNumbers (.ofMat M) = e.runNumbers (.ofMat N) := by
  unfold Est.runNumbers
  cases he : e.predict with
  | none => rfl
  | some p =>
    simp only [(h _ _ (.mk hMN)).2.1 p he]

theorem rawColumn_same {C : Type} {g : GB (XR fp) C} {X Y : Arr (XR fp)} (k : Nat) (sts : List (List (Arr (XR fp) → Py (List (XR fp)))))
    (h : ∀ st ∈ sts, ∀ f ∈ st, f X = f Y) (c : List (XR fp)) : g.rawColumn X k sts c = g.rawColumn Y k sts c := by
  induction sts generalizing c with
  | nil => rfl
  | cons st sts ih =>
    unfold GB.rawColumn
    cases hg : pyGet st (k : Int) with
    | error x => rfl
    | ok f =>
      simp only [py_ok_bind, h st (by simp) f (List.mem_of_getElem? (pyGet_ok_nat.1 hg))]
      congr 1
      funext p
      congr 1
      funext c
      exact ih (fun st hst => h st (by simp [hst])) c

theorem boosting_blind {cs : List (PVal (XR fp))} {stages : List (List (Methods (XR fp)))} {init : Methods (XR fp)} {l : Loss} {lr : XR fp} {nf : Nat}
    {ws : List Col} (hst : ∀ st ∈ stages, ∀ m ∈ st, Blind m (SameColumns ws) .all) (hi : Blind init (SameColumns ws) .all) :
    Blind (boostingEst cs stages init l lr nf) (SameColumns ws) .all := by
  refine classifier_blind fun M N h => ?_
  generalize hg : (⟨cs, stages.map fun st => st.map fun m => m.runNumbers, init.runProba, lr, nf, l⟩ : GB (XR fp) (PVal (XR fp))) = g
  have hinit : g.rawPredictInit (.ofMat M) = g.rawPredictInit (.ofMat N) := by
    unfold GB.rawPredictInit
    rw [checkArray_ofMat h.left.1, checkArray_ofMat h.right.1]
    simp only [py_ok_bind, h.width]
    have : g.initProba (.ofMat M) = g.initProba (.ofMat N) := by
      subst hg
      exact runProba_same hi h
    rw [this]
  have hcol : ∀ k c, g.rawColumn (.ofMat M) k g.estimators c = g.rawColumn (.ofMat N) k g.estimators c := by
    intro k c
    refine rawColumn_same k _ (fun st hst' f hf => ?_) c
    subst hg
    obtain ⟨st', h1, rfl⟩ := List.mem_map.1 hst'
    obtain ⟨m, h2, rfl⟩ := List.mem_map.1 hf
    exact runNumbers_same (hst st' h1 m h2) h
  have hraw : g.rawPredict (.ofMat M) = g.rawPredict (.ofMat N) := by
    unfold GB.rawPredict
    rw [hinit]
    simp only [len_ofMat, h.length, hcol]
  have hp : g.predictProba (.ofMat M) = g.predictProba (.ofMat N) := by
    unfold GB.predictProba
    rw [hraw]
  refine ⟨?_, hp, ?_⟩
  · unfold GB.predict
    rw [hp]
  · unfold GB.predictLogProba
    rw [hp]

/-! ### All objects -/

theorem Blind_equal {f : Methods (XR fp)} {R : Data (XR fp) → Data (XR fp) → Prop} (h : ∀ X Y, R X Y → X = Y) : Blind f R .all := by
  intro X Y hXY
  cases h X Y hXY
  exact ⟨fun _ _ => rfl, fun _ _ => rfl, fun _ _ => rfl, fun _ _ => rfl⟩

theorem Blind_weaken {f : Methods (XR fp)} {R R' : Data (XR fp) → Data (XR fp) → Prop} {k : Kept} (h : ∀ X Y, R' X Y → R X Y) (hb : Blind f R k) : Blind f R' k := by
  cases k with
  | columns vs =>
    obtain ⟨t, ht, hr⟩ := hb
    exact ⟨t, ht, fun X Y hXY => hr X Y (h X Y hXY)⟩
  | all => exact fun X Y hXY => hb X Y (h X Y hXY)

theorem behaves_blind {o : SkObj (Attrs (XR fp)) (PVal (XR fp)) (XR fp)} {R : Data (XR fp) → Data (XR fp) → Prop} {k : Kept} (h : Unread lib o R k)
    {f : Methods (XR fp)} (hb : Behaves lib encode o f) : Blind f R k := by
  have leaf : ∀ {c v} {a : Attrs (XR fp)} {s : Single (XR fp)} {f : Methods (XR fp)}, Learned c a s → Behaves lib encode (.leaf c v a) f → f = s.est lib encode := by
    intro c v a s f hl hb
    cases hb with
    | single hv hl1 => exact C89_behaviour_unique (.single hv hl1) (.single (lib := lib) (encode := encode) hv hl)
  induction h generalizing f with
  | equal h => exact Blind_equal h
  | weaken h _ ih => exact Blind_weaken h (ih hb)
  | columns hl hs => rw [leaf hl hb]; exact columnStep_par hs lib encode
  | columnsAll hl hs => rw [leaf hl hb]; exact skips_blind hs lib encode
  | count hl hw => rw [leaf hl hb]; exact count_blind hw
  | tfidfVec hl hw => rw [leaf hl hb]; exact tfidfVec_blind hw
  | hashing hl hw => rw [leaf hl hb]; exact hashing_blind hw
  | dictVec hl => rw [leaf hl hb]; exact dictVec_blind
  | @lastStep v n o R k _ ih =>
    cases hb with
    | @pipeline _ _ es hv hs =>
      cases hs with
      | @cons _ e _ _ he hn =>
        cases hn
        show Blind (pipelineEst [(n, e)]) R k
        rw [pipeline_single]
        exact ih he
  | @firstStep v n o s ss R vs k _ _ ih1 ih2 =>
    cases hb with
    | @pipeline _ _ es hv hs =>
      cases hs with
      | @cons _ e _ es he hn =>
        have h2 := ih2 (.pipeline (steps := s :: ss) hv hn)
        have h1 := ih1 he
        cases hn with
        | @cons _ e1 _ es _ _ => exact pipe_blind n h1 h2
  | @firstAll v n o s ss R _ ih =>
    cases hb with
    | @pipeline _ _ es hv hs =>
      cases hs with
      | @cons _ e _ es he hn =>
        cases hn with
        | @cons _ e1 _ es _ _ => exact pipe_blind_all n (ih he)
  | @unionAll v wts R steps hne hR _ ih =>
    cases hb with
    | @union _ _ _ es hv he =>
      refine union_blind_all ?_ wts hR fun p hp => ?_
      · intro e
        have := congrArg List.length e
        have l := he.length_eq
        simp only [List.length_zip, List.length_map, List.length_nil] at this l
        rw [← l, Nat.min_self] at this
        exact hne (List.length_eq_zero_iff.1 this)
      · obtain ⟨i, hi, rfl⟩ := List.getElem_of_mem hp
        have l := he.length_eq
        simp only [List.length_zip, List.length_map] at hi l
        have i1 : i < steps.length := by omega
        have i2 : i < es.length := by omega
        rw [List.getElem_zip]
        have := forall₂_get he (i := i) (by simpa using i1) i2
        rw [List.getElem_map] at this
        exact ih steps[i] (List.getElem_mem i1) this
  | @union v wts ws steps hne hw _ ih =>
    cases hb with
    | @union _ _ _ es hv he => exact union_blind wts hne hw he fun s hs f hb => ih s hs hb
  | @ensemble kd v cs ms ws _ ih =>
    cases hb with
    | @ensemble _ _ _ _ _ es hv hcs he =>
      refine ensemble_blind fun e hem => ?_
      obtain ⟨m, hm, hme⟩ := rel_right he e hem
      exact ih m hm hme
  | @subspaces kd v fs cs ms ws hfs _ ih =>
    cases hb with
    | @ensemble _ _ _ _ _ es hv hcs he =>
      refine subspaces_blind hfs fun p hp => ?_
      obtain ⟨i, hi, rfl⟩ := List.getElem_of_mem hp
      rw [List.length_zip] at hi
      have l1 := he.length_eq
      have i1 : i < ms.length := by omega
      have i2 : i < es.length := by omega
      have i3 : i < fs.length := by omega
      rw [List.getElem_zip]
      exact ih _ (mem_zip_get ms fs i1 i3) (forall₂_get he i1 i2)
  | @boosting v cs stages init loss lr nf ws _ _ ihs ihi =>
    cases hb with
    | @boosting _ _ _ _ _ _ _ l' es e hv hcs' he h0 hl' =>
      refine boosting_blind (fun st hst e' he' => ?_) (ihi h0)
      obtain ⟨st', hm', hF⟩ := rel_right he st hst
      obtain ⟨m, hmm, hme⟩ := rel_right hF e' he'
      exact ihs st' hm' m hmm hme

end PurePredict
