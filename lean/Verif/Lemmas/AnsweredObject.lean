import Verif.Lemmas.AnsweredFit
import Verif.Props.C13
import Verif.Props.C16
import Verif.Props.C97
/-
Compound objects answer the requests they are fitted for.
-/
namespace PurePredict
open Spec
variable {lib : String → TextLib} {encode : Str → List Nat}

/-! ### Pipelines -/

theorem pipe_delivered (n : String) {e : Methods Ex} {s : String × Methods Ex} {ss : List (String × Methods Ex)} {A B : Ask} {r : Reply}
    (h1 : Delivered e A (.form B)) (h2 : Delivered (pipelineEst (s :: ss)) B r) :
    Delivered (pipelineEst ((n, e) :: s :: ss)) A r := by
  obtain ⟨t, ht, h1⟩ := h1
  obtain ⟨a1, a2, a3, a4⟩ := pipeline_cons n ht s ss
  have go : ∀ {α : Type} {u : Data Ex → Py α} {Q : Nat → α → Prop}, (∀ X n, B.Holds X n → ∃ y, u X = .ok y ∧ Q n y) →
      ∀ X n, A.Holds X n → ∃ y, (t X >>= u) = .ok y ∧ Q n y := by
    intro α u Q hu X n hX
    obtain ⟨Y, e1, e2⟩ := h1 X n hX
    obtain ⟨y, e3, e4⟩ := hu Y n e2
    exact ⟨y, by rw [e1, py_ok_bind, e3], e4⟩
  cases r with
  | form C =>
    obtain ⟨u, hu, h2⟩ := h2
    exact ⟨fun X => t X >>= u, by rw [a1, hu]; rfl, go h2⟩
  | labels cs d =>
    obtain ⟨⟨p, hp, h3⟩, h2⟩ := h2
    refine ⟨⟨fun X => t X >>= p, by rw [a2, hp]; rfl, go (Q := fun n (ls : List (PVal Ex)) => ls.length = n ∧ ∀ l ∈ ls, l ∈ cs) h3⟩, fun k hk => ?_⟩
    obtain ⟨⟨q, hq, h4⟩, h5⟩ := h2 k hk
    refine ⟨⟨fun X => t X >>= q, by rw [a3, hq]; rfl, fun X n hX => ?_⟩, fun g hg X n hX => ?_⟩
    · obtain ⟨Y, e1, e2⟩ := h1 X n hX
      obtain ⟨P, e3, e4⟩ := h4 Y n e2
      exact ⟨P, by show (t X >>= q) = _; rw [e1, py_ok_bind, e3], e4⟩
    · rw [a4] at hg
      cases hl : (pipelineEst (s :: ss)).predictLogProba with
      | none => rw [hl] at hg; cases hg
      | some u =>
        rw [hl] at hg
        cases hg
        exact go (Q := fun n (L : List (List Ex)) => L.length = n) (h5 u hl) X n hX
  | values =>
    obtain ⟨p, hp, h3⟩ := h2
    refine ⟨fun X => t X >>= p, by rw [a2, hp]; rfl, fun X n hX => ?_⟩
    obtain ⟨Y, e1, e2⟩ := h1 X n hX
    obtain ⟨ys, e3, e4⟩ := h3 Y n e2
    exact ⟨ys, by show (t X >>= p) = _; rw [e1, py_ok_bind, e3], e4⟩

/-! ### Unions -/

theorem Spec.Ask.Holds.check {A : Ask} {X : Data Ex} {n : Nat} (h : A.Holds X n) : 0 < n ∧ X.check = .ok X ∧ X.len = .ok n := by
  cases h with
  | @matrix P _ _ M n h1 h2 h3 =>
    obtain ⟨a1, a2⟩ := h1.check
    subst h3
    refine ⟨List.length_pos_of_ne_nil h1.rect.1, ?_, a2⟩
    simp only [Data.check, a1, py_ok_bind, py_pure]
  | @gaps M w n h1 h2 h3 =>
    subst h3
    refine ⟨List.length_pos_of_ne_nil h1, ?_, len_ofMat _⟩
    simp only [Data.check, checkArray_ofMat h1, py_ok_bind, py_pure]
  | @docs ds n h1 h2 =>
    subst h2
    have : ds.isEmpty = false := by simpa using h1
    exact ⟨List.length_pos_of_ne_nil h1, by simp [Data.check, this], rfl⟩
  | @records xs n h1 _ h3 =>
    subst h3
    have : xs.isEmpty = false := by simpa using h1
    exact ⟨List.length_pos_of_ne_nil h1, by simp [Data.check, this], rfl⟩
  | @table xs w n h1 h2 h3 =>
    subst h3
    refine ⟨List.length_pos_of_ne_nil h1, ?_, len_ofMat _⟩
    simp only [Data.check, checkArray_ofMat h1, py_ok_bind, py_pure]

/-- A union is sparse exactly if one of its blocks is. -/
theorem unionOf_issparse {F : Type} [Arith F] {n : Nat} {sh : Py Shape} {Xs : List (Arr F)} (hne : Xs ≠ []) {R : Arr F}
    (h : unionOf (.ok n) sh Xs = .ok R) : R.issparse = Xs.any Arr.issparse := by
  unfold unionOf at h
  rw [if_neg (by simpa using hne)] at h
  cases hsp : Xs.any Arr.issparse with
  | false =>
    rw [hsp] at h
    simp only [Bool.false_eq_true, if_false] at h
    obtain ⟨mats, -, h⟩ := bind_ok_iff.1 h
    simp only [py_ok_bind] at h
    obtain ⟨rows, -, h⟩ := bind_ok_iff.1 h
    cases h
    rfl
  | true =>
    rw [hsp] at h
    simp only [if_true] at h
    obtain ⟨blocks, -, h⟩ := bind_ok_iff.1 h
    simp only [py_ok_bind] at h
    obtain ⟨rows, -, h⟩ := bind_ok_iff.1 h
    by_cases hr : rows = []
    · subst hr
      rw [List.map_nil, sparseList_dicts_nil] at h
      cases h
    · rw [sparseList_dicts hr] at h
      cases h
      rfl

theorem join_fits {F : Type} {ls : List Layout} {Xs : List (Arr F)} (h : List.Forall₂ (fun (l : Layout) X => l.Fits X.issparse) ls Xs) :
    (Layout.join ls).Fits (Xs.any Arr.issparse) := by
  unfold Layout.join
  split
  · rename_i hs
    show _ = true
    induction h with
    | nil => cases hs
    | @cons l X ls Xs h1 _ ih =>
      rw [List.any_cons]
      rcases List.mem_cons.1 hs with rfl | hs
      · rw [show X.issparse = true from h1]; rfl
      · rw [ih hs, Bool.or_true]
  · rename_i hs
    split
    · trivial
    · rename_i ha
      show _ = false
      induction h with
      | nil => rfl
      | @cons l X ls Xs h1 _ ih =>
        simp only [List.mem_cons, not_or] at hs ha
        rw [List.any_cons, ih hs.2 ha.2, Bool.or_false]
        cases l with
        | dense => exact h1
        | sparse => exact absurd rfl hs.1
        | any => exact absurd rfl ha.1

theorem union_blocks {A : Ask} (ws : Option (List (String × Ex)))
    (steps : List (String × SkObj (Attrs Ex) (PVal Ex) Ex × Layout × Nat))
    (hw : ∀ s ∈ steps, 0 < s.2.2.2 ∧ (weightOf ws s.1 = none ∨ s.2.2.1 = .dense ∧ ∃ c, weightOf ws s.1 = some (.fin c)))
    {es : List (Methods Ex)} (he : List.Forall₂ (Behaves lib encode) ((steps.map fun s => (s.1, s.2.1)).map Prod.snd) es)
    (H : ∀ s ∈ steps, ∀ f, Behaves lib encode s.2.1 f → Delivered f A (.form (.matrix s.2.2.1 s.2.2.2)))
    {X : Data Ex} {n : Nat} (hX : A.Holds X n) :
    ∃ Xs bs, ((((steps.map fun s => (s.1, s.2.1)).map Prod.fst).zip es).mapM fun s => transformOne s.2.runTransform X (weightOf ws s.1)) = .ok Xs ∧
      (bs : List (Nat × List (List Ex))).map Prod.fst = steps.map (fun s => s.2.2.2) ∧
      List.Forall₂ (fun P b => Shows .exact P b.1 b.2 ∧ b.2.length = n ∧ 0 < b.1) Xs bs ∧
      List.Forall₂ (fun (l : Layout) X => l.Fits X.issparse) (steps.map fun s => s.2.2.1) Xs := by
  induction steps generalizing es with
  | nil =>
    cases he
    exact ⟨[], [], rfl, rfl, .nil, .nil⟩
  | cons s steps ih =>
    simp only [List.map_cons] at he
    cases he with
    | @cons _ e _ es h1 he =>
      obtain ⟨Xs, bs, e1, e2, e3, e4⟩ := ih (fun s hs => hw s (by simp [hs])) he fun s hs => H s (by simp [hs])
      obtain ⟨t, ht, hs⟩ := H s (by simp) e h1
      obtain ⟨Y, hY1, hY2⟩ := hs X n hX
      obtain ⟨hpos, hwt⟩ := hw s (by simp)
      have hrun : ∀ P, Y = .arr P → e.runTransform X = .ok P := by
        rintro P rfl
        unfold Est.runTransform
        rw [ht]
        simp only [hY1, py_ok_bind]
        rfl
      have key : ∃ (P : Arr Ex) (M : List (List Ex)), transformOne e.runTransform X (weightOf ws s.1) = .ok P ∧ Shows .exact P s.2.2.2 M ∧
          M.length = n ∧ s.2.2.1.Fits P.issparse := by
        rcases hwt with hwt | ⟨hd, c, hwt⟩
        · obtain ⟨P, R, rfl, hP, hl, -, -, hn⟩ := hY2.shows_real
          refine ⟨P, R.map fins, ?_, hP, by simpa using hn, hl⟩
          rw [hwt, transformOne, hrun P rfl]
          rfl
        · rw [hd] at hY2
          obtain ⟨R, rfl, hR, hRw, hn⟩ := hY2.dense_real
          refine ⟨.ofMat ((R.map fun r => r.map (· * c)).map fins), (R.map fun r => r.map (· * c)).map fins, ?_,
            shows_fins (by simpa using hR) (fun r hr => ?_), by simpa using hn, by rw [hd, issparse_ofMat]; rfl⟩
          · rw [hwt, transformOne, hrun _ rfl, py_ok_bind]
            simp only [apply2d_ofMat_ok, py_ok_bind, py_pure]
            congr 2
            simp only [List.map_map]
            apply List.map_congr_left
            intro r _
            simp only [Function.comp, fins, List.map_map]
            apply List.map_congr_left
            intro x _
            exact XR.mul_exact x c
          · obtain ⟨x, hx, rfl⟩ := List.mem_map.1 hr
            rw [List.length_map]; exact hRw x hx
      obtain ⟨P, M, k1, k2, k3, k4⟩ := key
      refine ⟨P :: Xs, (s.2.2.2, M) :: bs, ?_, by simp [e2], .cons ⟨k2, k3, hpos⟩ e3, .cons k4 e4⟩
      simp only [List.map_cons, List.zip_cons_cons, mapM_cons', k1, e1, py_ok_bind]
      rfl

theorem union_delivered {A : Ask} (ws : Option (List (String × Ex)))
    {steps : List (String × SkObj (Attrs Ex) (PVal Ex) Ex × Layout × Nat)} (hne : steps ≠ [])
    (hw : ∀ s ∈ steps, 0 < s.2.2.2 ∧ (weightOf ws s.1 = none ∨ s.2.2.1 = .dense ∧ ∃ c, weightOf ws s.1 = some (.fin c)))
    {es : List (Methods Ex)} (he : List.Forall₂ (Behaves lib encode) ((steps.map fun s => (s.1, s.2.1)).map Prod.snd) es)
    (H : ∀ s ∈ steps, ∀ f, Behaves lib encode s.2.1 f → Delivered f A (.form (.matrix s.2.2.1 s.2.2.2))) :
    Delivered (unionEst (((steps.map fun s => (s.1, s.2.1)).map Prod.fst).zip es) ws) A
      (.form (.matrix (Layout.join (steps.map fun s => s.2.2.1)) (steps.map fun s => s.2.2.2).sum)) := by
  refine delivered_of fun X n hX => ?_
  obtain ⟨hpos, c1, l1⟩ := hX.check
  obtain ⟨Xs, bs, e1, e2, e3, e4⟩ := union_blocks ws steps hw he H hX
  have hbs : bs ≠ [] := by
    rintro rfl
    exact hne (by simpa using e2.symm)
  have hXs : Xs ≠ [] := by
    rintro rfl
    cases e3
    exact hbs rfl
  obtain ⟨P, h1, h2⟩ := unionOf_shows (g := .exact) rfl hpos X.shape hbs e3
  refine ⟨P, ?_, ?_⟩
  · simp only [c1, py_ok_bind, e1, l1, h1]
  · rw [e2] at h2
    refine .matrix h2 ?_ (by simp)
    rw [unionOf_issparse hXs h1]
    exact join_fits e4

/-! ### Ensembles -/

theorem mat_fin {P : List (List ℝ)} {n k : Nat} (h : P.length = n) (hk : ∀ p ∈ P, IsDist k p) :
    P.map fins = mat n k fun i c => .fin ((P.getD i []).getD c 0) := by
  conv_lhs => rw [mat_getD h fun p hp => (hk p hp).1]
  simp [mat, fins, Function.comp_def]

theorem getD_isDist {P : List (List ℝ)} {k : Nat} (hk : ∀ p ∈ P, IsDist k p) {i : Nat} (hi : i < P.length) :
    IsDist k ((List.range k).map fun c => (P.getD i []).getD c 0) := by
  have hd := hk P[i] (List.getElem_mem hi)
  have : (List.range k).map (fun c => (P.getD i []).getD c 0) = P[i] := by
    rw [List.getD_eq_getElem?_getD, List.getElem?_eq_getElem hi, Option.getD_some]
    apply List.ext_getElem
    · simp [hd.1]
    · intro j h1 h2
      simp [h2]
  rw [this]; exact hd

/-- An ensemble whose members return distributions. -/
theorem bagging_answers {C : Type} (b : Bagging Ex C) {R : List (List ℝ)} (hR : R ≠ []) (hfit : b.Fits R) (hm : b.members ≠ [])
    (h : ∀ m ∈ b.members, ∃ P : List (List ℝ), m.1.predictProba (.ofMat (R.map fun x => fins (columns 0 m.2 x))) = .ok (P.map fins) ∧
      P.length = R.length ∧ ∀ p ∈ P, IsDist b.classes.length p) :
    (∃ ls, b.predict (.ofMat (R.map fins)) = .ok ls ∧ ls.length = R.length ∧ ∀ l ∈ ls, l ∈ b.classes) ∧
    (∃ P : List (List ℝ), b.predictProba (.ofMat (R.map fins)) = .ok (P.map fins) ∧ P.length = R.length ∧ ∀ q ∈ P, IsDist b.classes.length q) ∧
    ∃ L, b.predictLogProba (.ofMat (R.map fins)) = .ok L ∧ L.length = R.length := by
  have hn : 0 < R.length := List.length_pos_of_ne_nil hR
  choose! P hP1 hP2 hP3 using h
  have hF : List.Forall₂ (Returns R b.classes.length) b.members (b.members.map fun m i c => ((P m).getD i []).getD c 0) := by
    rw [List.forall₂_map_right_iff, List.forall₂_same]
    intro m hmm
    rw [Returns, hP1 m hmm, mat_fin (hP2 m hmm) (hP3 m hmm)]
  have hne : (b.members.map fun m (i c : Nat) => ((P m).getD i []).getD c 0) ≠ [] := by simpa using hm
  obtain ⟨Q, e1, e2, e3⟩ := C13_proba_is_distribution b R hR hfit b.classes.length _ hne hF (fun P' hP' i hi => by
    obtain ⟨m, hmm, rfl⟩ := List.mem_map.1 hP'
    exact getD_isDist (hP3 m hmm) (by rw [hP2 m hmm]; exact hi))
  have hk : 0 < b.classes.length := by
    obtain ⟨q, hq⟩ := List.exists_mem_of_length_pos (by rw [e2]; exact hn)
    rw [← (e3 q hq).1]
    exact List.length_pos_of_ne_nil (isDist_ne_nil (e3 q hq))
  obtain ⟨ls, f1, f2, f3⟩ := C13_predict_is_argmax b R hR hfit b.classes.length hk rfl _ hne hF
  refine ⟨⟨ls, f1, f2, fun l hl => ?_⟩, ⟨Q, e1, e2, e3⟩, ?_⟩
  · obtain ⟨i, hi, rfl⟩ := List.getElem_of_mem hl
    obtain ⟨c, -, hc⟩ := f3 i (by rw [← f2]; exact hi)
    rw [List.getElem?_eq_getElem hi] at hc
    exact List.mem_of_getElem? hc.symm
  · rw [Bagging.predictLogProba, e1, py_ok_bind, ← e2]
    exact log_rows2d Q

theorem delivered_runProba {f : Methods Ex} {A : Ask} {cs : List (PVal Ex)} {k : Nat} (h : Delivered f A (.labels cs (some k)))
    {B : Arr Ex} {n : Nat} (hB : A.Holds (.arr B) n) :
    ∃ P : List (List ℝ), f.runProba B = .ok (P.map fins) ∧ P.length = n ∧ ∀ p ∈ P, IsDist k p := by
  obtain ⟨q, hq, h⟩ := (h.2 k rfl).1
  unfold Est.runProba
  rw [hq]
  exact h _ n hB

theorem ensemble_delivered {cs : List (PVal Ex)} {es : List (Methods Ex)} {l : Layout} {w : Nat} (hne : es ≠ [])
    (h : ∀ e ∈ es, ∃ ls, Delivered e (.matrix l w) (.labels ls (some cs.length))) :
    Delivered (ensembleEst none cs es) (.matrix l w) (.labels cs (some cs.length)) := by
  refine classifier_delivered fun X n hX => ?_
  obtain ⟨A, R, rfl, hA, hl, hR, hw, rfl⟩ := hX.shows_real
  refine ⟨A, rfl, ?_⟩
  obtain ⟨s1, s2, s3⟩ := Bagging.same (fp := FP.exact) cs (ms := es.map fun m => (⟨m.runProba⟩ : Member Ex))
    (ms' := es.map fun m => (⟨fun _ => m.runProba A⟩ : Member Ex)) (P := A) (Q := .ofMat (R.map fins)) (by
      rw [List.forall₂_map_left_iff, List.forall₂_map_right_iff, List.forall₂_same]
      exact fun _ _ => rfl)
  simp only [s1, s2, s3]
  refine bagging_answers (⟨none, cs, es.map fun m => ⟨fun _ => m.runProba A⟩⟩ : Bagging Ex (PVal Ex)) hR
    ⟨fun fs h => (by cases h), fun fs h => (by cases h)⟩ (by simpa [Bagging.members] using hne) fun m hm => ?_
  simp only [Bagging.members, List.map_map] at hm
  obtain ⟨e, he, rfl⟩ := List.mem_map.1 hm
  obtain ⟨ls, hd⟩ := h e he
  exact delivered_runProba hd hX

theorem subspaces_delivered {cs : List (PVal Ex)} {es : List (Methods Ex)} {fs : List (List Int)} {w : Nat} (hne : es ≠ [])
    (hlen : fs.length = es.length) (hfs : ∀ f ∈ fs, ∀ i ∈ f, 0 ≤ i ∧ i < (w : Int))
    (h : ∀ p ∈ es.zip fs, ∃ ls, Delivered p.1 (.matrix .dense p.2.length) (.labels ls (some cs.length))) :
    Delivered (ensembleEst (some fs) cs es) (.matrix .dense w) (.labels cs (some cs.length)) := by
  refine classifier_delivered fun X n hX => ?_
  obtain ⟨R, rfl, hR, hw, rfl⟩ := hX.dense_real
  refine ⟨_, rfl, bagging_answers (⟨some fs, cs, es.map fun m => ⟨m.runProba⟩⟩ : Bagging Ex (PVal Ex)) hR
    ⟨fun fs' hf => ?_, fun fs' hf => ?_⟩ ?_ fun m hm => ?_⟩
  · cases hf
    simpa using hlen
  · cases hf
    intro f hf x hx i hi
    rw [hw x hx]
    exact hfs f hf i hi
  · intro h0
    have := congrArg List.length h0
    simp only [Bagging.members, List.length_zipWith, List.length_map, List.length_nil] at this
    rw [hlen, Nat.min_self] at this
    exact hne (List.length_eq_zero_iff.1 this)
  · simp only [Bagging.members] at hm
    rw [← List.map_uncurry_zip_eq_zipWith, List.zip_map_left, List.map_map] at hm
    obtain ⟨⟨e, f⟩, hef, rfl⟩ := List.mem_map.1 hm
    obtain ⟨ls, hd⟩ := h _ hef
    have hH := holds_fins (l := .dense) (w := f.length) (R := R.map (columns 0 (some f))) (by simpa using hR) (fun r hr => by
      obtain ⟨x, hx, rfl⟩ := List.mem_map.1 hr
      simp [columns]) rfl
    obtain ⟨P, e1, e2, e3⟩ := delivered_runProba hd hH
    refine ⟨P, ?_, by simpa using e2, e3⟩
    rw [← e1, List.map_map]
    rfl

/-! ### Gradient boosting -/

theorem delivered_runNumbers {f : Methods Ex} {A : Ask} (h : Delivered f A .values) {B : Arr Ex} {n : Nat} (hB : A.Holds (.arr B) n) :
    ∃ ys : List ℝ, f.runNumbers B = .ok (fins ys) ∧ ys.length = n := by
  obtain ⟨p, hp, h⟩ := h
  obtain ⟨ys, e1, e2⟩ := h _ n hB
  refine ⟨ys, ?_, e2⟩
  unfold Est.runNumbers
  rw [hp]
  simp only [e1, py_ok_bind]
  rw [mapM_map']
  exact mapM_ok_map (g := fun y => (.fin y : Ex)) fun y _ => rfl

theorem range_getD {ys : List ℝ} {n : Nat} (h : ys.length = n) : fins ys = (List.range n).map fun i => .fin (ys.getD i 0) := by
  rw [fins_getD h]
  simp [fins, Function.comp_def]

/-- Labels from rows of probabilities. -/
theorem argmax_labels {cs : List (PVal Ex)} {P : List (List ℝ)} (hP : ∀ p ∈ P, p.length = cs.length) (hc : cs ≠ []) :
    ∃ ls, ((P.map fins).mapM fun a => (argmax a >>= fun (i : Nat) => pyGet cs (i : Int))) = .ok ls ∧ ls.length = P.length ∧ ∀ l ∈ ls, l ∈ cs := by
  have hex : ∀ p ∈ P, ∃ l, (argmax (fins p) >>= fun (i : Nat) => pyGet cs (i : Int)) = .ok l ∧ l ∈ cs := by
    intro p hp
    have hpos : 0 < p.length := by rw [hP p hp]; exact List.length_pos_of_ne_nil hc
    obtain ⟨i, hi⟩ := argmax_total (l := fins p) (by
      intro h
      have := congrArg List.length h
      rw [fins_length] at this
      simp at this
      subst this
      exact absurd hpos (by simp))
    obtain ⟨hlt, -⟩ := argmax_fins.1 hi
    rw [hP p hp] at hlt
    exact ⟨cs[i], by rw [hi, py_ok_bind, pyGet_lt hlt], List.getElem_mem hlt⟩
  have : Nonempty (PVal Ex) := ⟨cs.head hc⟩
  choose! g hg1 hg2 using hex
  refine ⟨P.map g, ?_, by simp, fun l hl => ?_⟩
  · rw [mapM_map']
    exact mapM_ok_map hg1
  · obtain ⟨p, hp, rfl⟩ := List.mem_map.1 hl
    exact hg2 p hp

theorem probaReal_length {l : Loss} {k : Nat} (h : match l with | .multinomial n => k = n | _ => k = 2) (r : List ℝ) :
    (l.probaReal r).length = k := by
  cases l <;> simp_all [Loss.probaReal]

theorem boosting_raw {cs : List (PVal Ex)} {ess : List (List (Methods Ex))} {e0 : Methods Ex} {l : Loss} {lr : ℝ} {nf : Nat}
    {ls : List (PVal Ex)} (hl : match l with | .multinomial n => cs.length = n ∧ 0 < n | _ => cs.length = 2)
    (h0 : Delivered e0 (.matrix .dense nf) (.labels ls (some cs.length))) (hne : ess ≠ [])
    (hlen : ∀ st ∈ ess, st.length = stageSize l) (hst : ∀ st ∈ ess, ∀ e ∈ st, Delivered e (.matrix .dense nf) .values)
    {R : List (List ℝ)} (hR : R ≠ []) (hw : Rect nf R) :
    ∃ raw : List (List ℝ), (⟨cs, ess.map fun st => st.map fun m => m.runNumbers, e0.runProba, .fin lr, nf, l⟩ : GB Ex (PVal Ex)).rawPredict
        (.ofMat (R.map fins)) = .ok (raw.map fins) ∧ raw.length = R.length ∧ Rect l.cols raw := by
  have hX := holds_fins (l := .dense) hR hw rfl
  obtain ⟨Q, q1, q2, q3⟩ := delivered_runProba h0 hX
  have hex : ∀ s c : Nat, ∃ ys : List ℝ, ∀ (hs : s < ess.length) (hc : c < ess[s].length),
      ess[s][c].runNumbers (.ofMat (R.map fins)) = .ok (fins ys) ∧ ys.length = R.length := by
    intro s c
    by_cases h : ∃ hs : s < ess.length, c < ess[s].length
    · obtain ⟨hs, hc⟩ := h
      obtain ⟨ys, h⟩ := delivered_runNumbers (hst ess[s] (List.getElem_mem hs) _ (List.getElem_mem hc)) hX
      exact ⟨ys, fun _ _ => h⟩
    · exact ⟨[], fun hs hc => absurd ⟨hs, hc⟩ h⟩
  choose T hT using hex
  refine ⟨mat R.length l.cols fun i c => boosted (initScore l.kind (fun j => (Q.getD i []).getD j 0) c) lr ess.length fun s => (T s c).getD i 0,
    ?_, by simp [mat], fun r hr => ?_⟩
  · have := C15_raw_scores_additive (⟨cs, ess.map fun st => st.map fun m => m.runNumbers, e0.runProba, .fin lr, nf, l⟩ : GB Ex (PVal Ex))
      R hR hw lr rfl cs.length (by
        cases l with
        | multinomial n => exact hl
        | _ => exact (show cs.length = 2 from hl).ge) (fun i c => (Q.getD i []).getD c 0) (fun s c i => (T s c).getD i 0)
      (by simpa using hne) ⟨?_, ?_, ?_⟩
    · rw [this]
      simp [mat, fins, Function.comp_def]
    · rw [← mat_fin q2 q3]; exact q1
    · intro st hm
      obtain ⟨st', hm', rfl⟩ := List.mem_map.1 hm
      rw [List.length_map, hlen st' hm']
      cases l <;> rfl
    · intro s hs c hc
      simp only [List.length_map, List.getElem_map] at hs hc
      obtain ⟨a1, a2⟩ := hT s c hs hc
      refine (congrFun (show _ = ess[s][c].runNumbers by simp) _).trans ?_
      rw [a1, range_getD a2]
  · obtain ⟨i, -, rfl⟩ := List.mem_map.1 hr
    simp

theorem lossOf_classes {loss : String} {k : Nat} {l : Loss} :
    lossOf loss k = some l → match l with | .multinomial n => k = n ∧ 0 < n | _ => k = 2 := by
  intro hloss
  unfold lossOf at hloss
  split at hloss
  · rename_i h
    cases hloss
    exact ⟨rfl, by omega⟩
  · split at hloss
    · rename_i h
      cases hloss
      exact h.2
    · split at hloss
      · rename_i h
        cases hloss
        exact h.2
      · cases hloss

theorem boosting_delivered {cs : List (PVal Ex)} {ess : List (List (Methods Ex))} {e0 : Methods Ex} {l : Loss} {loss : String} {lr : ℝ} {nf : Nat}
    {ls : List (PVal Ex)} (hloss : lossOf loss cs.length = some l) (hcs : cs ≠ [])
    (h0 : Delivered e0 (.matrix .dense nf) (.labels ls (some cs.length))) (hne : ess ≠ [])
    (hlen : ∀ st ∈ ess, st.length = stageSize l) (hst : ∀ st ∈ ess, ∀ e ∈ st, Delivered e (.matrix .dense nf) .values) :
    Delivered (boostingEst cs ess e0 l (.fin lr) nf) (.matrix .dense nf)
      (.labels cs (if l = .exponential then none else some cs.length)) := by
  have hl := lossOf_classes hloss
  have hcols : 0 < l.cols := by
    cases l with
    | multinomial n => exact hl.2
    | _ => exact Nat.one_pos
  have hraw := fun R hR hw => boosting_raw (lr := lr) hl h0 hne hlen hst (R := R) hR hw
  have hplen : ∀ r, (l.probaReal r).length = cs.length := probaReal_length (by
    cases l with
    | multinomial n => exact hl.1
    | _ => exact hl)
  have hp : ∀ X n, (Ask.matrix .dense nf).Holds X n → ∃ B, X = .arr B ∧ ∃ lb, (⟨cs, ess.map fun st => st.map fun m => m.runNumbers,
      e0.runProba, .fin lr, nf, l⟩ : GB Ex (PVal Ex)).predict B = .ok lb ∧ lb.length = n ∧ ∀ x ∈ lb, x ∈ cs := by
    intro X n hX
    obtain ⟨R, rfl, hR, hw, rfl⟩ := hX.dense_real
    obtain ⟨raw, r1, r2, r3⟩ := hraw R hR hw
    have hrne : raw ≠ [] := by
      rintro rfl
      exact hR (List.length_eq_zero_iff.1 r2.symm)
    have e := proba_of_raw _ hcols hrne r3 r1
    obtain ⟨lb, a1, a2, a3⟩ := argmax_labels (cs := cs) (P := raw.map l.probaReal) (fun p hp => by
      obtain ⟨r, -, rfl⟩ := List.mem_map.1 hp
      exact hplen r) hcs
    refine ⟨_, rfl, lb, ?_, by rw [a2, List.length_map, r2], a3⟩
    rw [GB.predict, e, py_ok_bind]
    exact a1
  split
  · exact labels_delivered rfl hp
  · rename_i hnexp
    refine classifier_delivered fun X n hX => ?_
    obtain ⟨B, rfl, hpB⟩ := hp X n hX
    refine ⟨B, rfl, hpB, ?_⟩
    obtain ⟨R, hB, hR, hw, rfl⟩ := hX.dense_real
    cases hB
    obtain ⟨raw, r1, r2, r3⟩ := hraw R hR hw
    have hrne : raw ≠ [] := by
      rintro rfl
      exact hR (List.length_eq_zero_iff.1 r2.symm)
    obtain ⟨P, e1, e2, e3⟩ := C16_deviance_distribution_partial
      (⟨cs, ess.map fun st => st.map fun m => m.runNumbers, e0.runProba, .fin lr, nf, l⟩ : GB Ex (PVal Ex)) cs.length (by
        cases l with
        | multinomial n => exact .inl (by rw [hl.1])
        | binomial => exact .inr ⟨rfl, hl⟩
        | exponential => exact absurd rfl hnexp) (List.length_pos_of_ne_nil hcs) _ raw hrne r3 r1
    refine ⟨⟨P, e1, by rw [e2, r2], e3⟩, ?_⟩
    rw [GB.predictLogProba, e1, py_ok_bind, ← r2, ← e2]
    exact log_rows2d P

/-! ### All objects -/

/-- What behaves as an object that is ready for a kind of requests answers them. -/
theorem behaves_delivered {o : SkObj (Attrs Ex) (PVal Ex) Ex} {A : Ask} {r : Reply} (h : Ready o A r) {f : Methods Ex}
    (hb : Behaves lib encode o f) : Delivered f A r := by
  induction h generalizing f with
  | @step c v e s A B hl hs =>
    cases hb with
    | single hv hl1 =>
      rw [C89_behaviour_unique (.single hv hl1) (.single (lib := lib) (encode := encode) hv hl)]
      exact sure_delivered lib encode hs
  | @final c v e s A r hl hs =>
    cases hb with
    | single hv hl1 =>
      rw [C89_behaviour_unique (.single hv hl1) (.single (lib := lib) (encode := encode) hv hl)]
      exact replies_delivered lib encode hs
  | @lastStep v n o A r _ ih =>
    cases hb with
    | @pipeline _ _ es hv hs =>
      cases hs with
      | @cons _ e _ _ he hn =>
        cases hn
        show Delivered (pipelineEst [(n, e)]) A r
        rw [pipeline_single]
        exact ih he
  | @firstStep v n o s ss A B r _ _ ih1 ih2 =>
    cases hb with
    | @pipeline _ _ es hv hs =>
      cases hs with
      | @cons _ e _ es he hn =>
        have h2 := ih2 (.pipeline (steps := s :: ss) hv hn)
        have h1 := ih1 he
        cases hn with
        | @cons _ e1 _ es _ _ => exact pipe_delivered n h1 h2
  | @union v ws A steps hne hw _ ih =>
    cases hb with
    | @union _ _ _ es hv hs => exact union_delivered ws hne hw hs fun s hs f hb => ih s hs hb
  | @ensemble kd v cs ms l w ls hne _ ih =>
    cases hb with
    | @ensemble _ _ _ _ _ es hv hcs hs =>
      refine ensemble_delivered (fun h => ?_) fun e he => ?_
      · subst h
        cases hs
        exact hne rfl
      · obtain ⟨m, hm, hme⟩ := rel_right hs e he
        exact ⟨_, ih m hm hme⟩
  | @subspaces kd v fs cs ms w ls hne hlen hfs _ ih =>
    cases hb with
    | @ensemble _ _ _ _ _ es hv hcs hs =>
      refine subspaces_delivered (fun h => ?_) (by rw [hlen, hs.length_eq]) hfs fun p hp => ?_
      · subst h
        cases hs
        exact hne rfl
      · obtain ⟨i, hi, rfl⟩ := List.getElem_of_mem hp
        rw [List.length_zip] at hi
        have l1 := hs.length_eq
        have i1 : i < ms.length := by omega
        have i2 : i < es.length := by omega
        have i3 : i < fs.length := by omega
        have hb1 := forall₂_get hs i1 i2
        have hz : (ms[i], fs[i]) ∈ ms.zip fs := by
          rw [← List.getElem_zip (h := by rw [List.length_zip]; omega)]
          exact List.getElem_mem _
        rw [List.getElem_zip]
        exact ⟨_, ih _ hz hb1⟩
  | @boosting v cs stages init loss l ls lr nf hloss hcs _ hne hlen _ ih0 ihs =>
    cases hb with
    | @boosting _ _ _ _ _ _ _ l' es e hv hcs' hs h0 hl' =>
      obtain rfl : l' = l := Option.some.inj (hl'.symm.trans hloss)
      refine boosting_delivered hloss hcs (ih0 h0) (fun h => ?_) (fun st hst => ?_) fun st hst e he => ?_
      · subst h
        cases hs
        exact hne rfl
      · obtain ⟨st', hm, hF⟩ := rel_right hs st hst
        rw [← hF.length_eq]; exact hlen st' hm
      · obtain ⟨st', hm, hF⟩ := rel_right hs st hst
        obtain ⟨m, hmm, hme⟩ := rel_right hF e he
        exact ihs st' hm m hmm hme

end PurePredict
