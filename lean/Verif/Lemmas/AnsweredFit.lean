import Verif.Lemmas.AnsweredStep
import Verif.Props.C05
import Verif.Props.C10
import Verif.Props.C12
import Verif.Props.C18
import Verif.Props.C19
import Verif.Props.C20
import Verif.Props.C21
import Verif.Props.C91
/-
Predictors answer the requests they are fitted for.
-/
namespace PurePredict
open Spec

/-- A matrix request shows a real matrix. -/
theorem Spec.Ask.Holds.shows_real {l : Layout} {w n : Nat} {X : Data Ex} (h : (Ask.matrix l w).Holds X n) :
    ∃ (A : Arr Ex) (R : List (List ℝ)), X = .arr A ∧ Shows .exact A w (R.map fins) ∧ l.Fits A.issparse ∧ R ≠ [] ∧ Rect w R ∧ R.length = n := by
  cases h with
  | @matrix A _ _ M n h1 h2 h3 =>
    obtain ⟨R, rfl⟩ := exists_fins fun r hr => h1.entries r hr
    refine ⟨A, R, rfl, h1, h2, by simpa using h1.rect.1, fun r hr => ?_, by simpa using h3⟩
    have := h1.rect.2 (fins r) (List.mem_map.2 ⟨r, hr, rfl⟩)
    rwa [fins_length] at this

/-- A dense matrix request is a real matrix. -/
theorem Spec.Ask.Holds.dense_real {w n : Nat} {X : Data Ex} (h : (Ask.matrix .dense w).Holds X n) :
    ∃ R : List (List ℝ), X = .arr (.ofMat (R.map fins)) ∧ R ≠ [] ∧ Rect w R ∧ R.length = n := by
  rcases h.matrix_cases with ⟨R, h1, h2, h3, h4, -⟩ | ⟨ds, dt, -, -, -, -, hl⟩
  · exact ⟨R, h1, h2, h3, h4⟩
  · cases hl

theorem safeLog_real (x : ℝ) : ∃ y, safeLog (.fin x : Ex) = .ok y := by
  rcases lt_trichotomy x 0 with h | h | h
  · exact ⟨Arith.nan, by
      simp only [safeLog, XR.ofInt_exact, XR.eq_fin, XR.lt_fin, Int.cast_zero, h.ne, h, decide_false, decide_true,
        Bool.false_eq_true, if_false, if_true]⟩
  · exact ⟨Arith.ninf, by
      simp only [safeLog, XR.ofInt_exact, XR.eq_fin, Int.cast_zero, h, decide_true, if_true]⟩
  · exact ⟨_, safeLog_pos h⟩

theorem log_rows (P : List (List ℝ)) : ∃ L, (P.map fins).mapM (fun a => a.mapM (safeLog (F := Ex))) = .ok L ∧ L.length = P.length := by
  have hx : ∀ x : ℝ, ∃ y, safeLog (.fin x : Ex) = .ok y := safeLog_real
  choose g hg using hx
  refine ⟨P.map fun p => p.map g, ?_, by simp⟩
  rw [mapM_map']
  refine mapM_ok_map fun p _ => ?_
  rw [show fins p = p.map XR.fin from rfl, mapM_map']
  exact mapM_ok_map fun x _ => hg x

theorem log_rows2d (P : List (List ℝ)) : ∃ L, apply2d (.ofMat (P.map fins)) (safeLog (F := Ex)) = .ok L ∧ L.length = P.length := by
  rw [apply2d_ofMat]; exact log_rows P

/-! ### Classes -/

theorem classifier_delivered {A : Ask} {cs : List (PVal Ex)} {k : Nat} {p : Arr Ex → Py (List (PVal Ex))}
    {pp pl : Arr Ex → Py (List (List Ex))}
    (h : ∀ X n, A.Holds X n → ∃ B, X = .arr B ∧ (∃ ls, p B = .ok ls ∧ ls.length = n ∧ ∀ l ∈ ls, l ∈ cs) ∧
      (∃ P : List (List ℝ), pp B = .ok (P.map fins) ∧ P.length = n ∧ ∀ q ∈ P, IsDist k q) ∧ ∃ L, pl B = .ok L ∧ L.length = n) :
    Delivered (classifier p pp pl) A (.labels cs (some k)) := by
  refine ⟨⟨_, rfl, fun X n hX => ?_⟩, fun k' hk => ⟨⟨_, rfl, fun X n hX => ?_⟩, fun g hg X n hX => ?_⟩⟩
  · obtain ⟨B, rfl, h1, -⟩ := h X n hX
    exact h1
  · cases hk
    obtain ⟨B, rfl, -, h1, -⟩ := h X n hX
    exact h1
  · cases hg
    obtain ⟨B, rfl, -, -, h1⟩ := h X n hX
    exact h1

theorem probabilist_delivered {A : Ask} {cs : List (PVal Ex)} {k : Nat} {p : Arr Ex → Py (List (PVal Ex))}
    {pp : Arr Ex → Py (List (List Ex))}
    (h : ∀ X n, A.Holds X n → ∃ B, X = .arr B ∧ (∃ ls, p B = .ok ls ∧ ls.length = n ∧ ∀ l ∈ ls, l ∈ cs) ∧
      ∃ P : List (List ℝ), pp B = .ok (P.map fins) ∧ P.length = n ∧ ∀ q ∈ P, IsDist k q) :
    Delivered (probabilist p pp) A (.labels cs (some k)) := by
  refine ⟨⟨_, rfl, fun X n hX => ?_⟩, fun k' hk => ⟨⟨_, rfl, fun X n hX => ?_⟩, fun g hg X n hX => ?_⟩⟩
  · obtain ⟨B, rfl, h1, -⟩ := h X n hX
    exact h1
  · cases hk
    obtain ⟨B, rfl, -, h1⟩ := h X n hX
    exact h1
  · cases hg

theorem labels_delivered {A : Ask} {cs : List (PVal Ex)} {f : Methods Ex} {p : Arr Ex → Py (List (PVal Ex))}
    (hf : f.predict = some (Data.onArr p))
    (h : ∀ X n, A.Holds X n → ∃ B, X = .arr B ∧ ∃ ls, p B = .ok ls ∧ ls.length = n ∧ ∀ l ∈ ls, l ∈ cs) :
    Delivered f A (.labels cs none) := by
  refine ⟨⟨_, hf, fun X n hX => ?_⟩, fun k' hk => by cases hk⟩
  obtain ⟨B, rfl, h1⟩ := h X n hX
  exact h1

/-! ### Linear classifiers -/

theorem goodLinear_exact {C : Type} {m : Linear Ex C} {w k : Nat} (h : GoodLinear m w k) :
    ∃ W b, m.IsExact w k W b := by
  obtain ⟨hk, hc, ⟨b, hb, hv⟩, -⟩ := h
  obtain ⟨W, hW, hlen, hrect⟩ := finiteMat_fins hc
  obtain ⟨b', rfl, hb'⟩ := finiteVec_fins hv
  exact ⟨W, b', ⟨hW, hrect, hlen, hb, hb', hk⟩⟩

theorem goodLinear_same {C : Type} {m : Linear Ex C} {w k : Nat} (h : GoodLinear m w k) {A : Arr Ex} {M : List (List Ex)}
    (hA : Shows .exact A w M) : m.SameOutputs A (.ofMat M) := by
  refine Linear.same (g := .exact) rfl (fun b hb => ?_) hA
  obtain ⟨xs, rfl, hx⟩ := h.2.1.2 b hb
  refine ⟨by rw [List.length_map]; exact hx, fun y hy => ?_⟩
  obtain ⟨a, -, rfl⟩ := List.mem_map.1 hy
  exact ⟨a, rfl⟩

theorem linear_labels {C : Type} {m : Linear Ex C} {w k : Nat} (h : GoodLinear m w k) {R : List (List ℝ)} (hR : R ≠ []) (hw : Rect w R) :
    ∃ ls, m.predict (.ofMat (R.map fins)) = .ok ls ∧ ls.length = R.length ∧ ∀ l ∈ ls, l ∈ m.classes := by
  obtain ⟨W, b, hE⟩ := goodLinear_exact h
  have key : ∃ ls, m.predict (.ofMat (R.map fins)) = .ok ls ∧ ls.length = R.length := by
    by_cases h1 : k = 1
    · subst h1
      have hc : m.classes.length = 2 := by simpa using h.2.2.2
      obtain ⟨c0, c1, hcs⟩ : ∃ c0 c1, m.classes = [c0, c1] := List.length_eq_two.1 hc
      exact ⟨_, (C04_binary m w W b hE c0 c1 hcs R hR hw).2, by simp⟩
    · have hc : m.classes.length = k := by simpa [h1] using h.2.2.2
      obtain ⟨-, ls, e, hF⟩ := C04_multiclass m w k W b hE (by have := hE.pos; omega) hc R hR hw
      exact ⟨ls, e, hF.length_eq.symm⟩
  obtain ⟨ls, e, hl⟩ := key
  exact ⟨ls, e, hl, C04_labels_in_classes m _ ls e⟩

theorem linear_delivered {kind : LinKind} {m : Linear Ex (PVal Ex)} {l : Layout} {w k : Nat} (h : GoodLinear m w k) :
    Delivered (kind.est m) (.matrix l w) (.labels m.classes none) := by
  have hp : (kind.est m).predict = some (Data.onArr m.predict) := by
    cases kind with
    | sgd =>
      simp only [LinKind.est]
      split <;> rfl
    | _ => rfl
  refine labels_delivered hp fun X n hX => ?_
  obtain ⟨A, R, rfl, hA, -, hR, hw, rfl⟩ := hX.shows_real
  refine ⟨A, rfl, ?_⟩
  rw [(goodLinear_same h hA).2.1]
  exact linear_labels h hR hw

theorem logistic_delivered {m : Linear Ex (PVal Ex)} {l : Layout} {w k : Nat} (h : GoodLinear m w k) {mc so : String}
    (hmc : m.multiClass = some mc) (hso : m.solver = some so) :
    Delivered (LinKind.logistic.est m) (.matrix l w) (.labels m.classes (some m.classes.length)) := by
  refine classifier_delivered fun X n hX => ?_
  obtain ⟨A, R, rfl, hA, -, hR, hw, rfl⟩ := hX.shows_real
  have hs := goodLinear_same h hA
  obtain ⟨W, b, hE⟩ := goodLinear_exact h
  obtain ⟨p, e, hd⟩ := C05_probabilities_are_distributions m w k W b hE mc so hmc hso R hR hw
  have e' : m.predictProba (.ofMat (R.map fins)) = .ok ((R.map p).map fins) := by rw [e, List.map_map]; rfl
  refine ⟨A, rfl, ?_, ⟨R.map p, ?_, by simp, fun q hq => ?_⟩, ?_⟩
  · rw [hs.2.1]; exact linear_labels h hR hw
  · rw [hs.2.2.2.1, e']
  · obtain ⟨x, -, rfl⟩ := List.mem_map.1 hq
    rw [h.2.2.2]; exact hd x
  · rw [hs.2.2.2.2.1, Linear.predictLogProba, e', py_ok_bind]
    simpa using log_rows (R.map p)

theorem sgdLog_delivered {m : Linear Ex (PVal Ex)} {l : Layout} {w k : Nat} (h : GoodLinear m w k) (hl : m.loss = some "log") :
    Delivered (LinKind.sgd.est m) (.matrix l w) (.labels m.classes (some m.classes.length)) := by
  have hcp : m.checkProba = .ok () := by simp [Linear.checkProba, hl, attr]
  have he : LinKind.sgd.est m = classifier m.predict m.sgdPredictProba m.sgdPredictLogProba := by
    simp only [LinKind.est, hcp]
  rw [he]
  refine classifier_delivered fun X n hX => ?_
  obtain ⟨A, R, rfl, hA, -, hR, hw, rfl⟩ := hX.shows_real
  have hs := goodLinear_same h hA
  obtain ⟨W, b, hE⟩ := goodLinear_exact h
  obtain ⟨-, p, e, hd⟩ := C05_sgd_log m w k W b hE hl R hR hw
  have e' : m.sgdPredictProba (.ofMat (R.map fins)) = .ok ((R.map p).map fins) := by rw [e, List.map_map]; rfl
  refine ⟨A, rfl, ?_, ⟨R.map p, ?_, by simp, fun q hq => ?_⟩, ?_⟩
  · rw [hs.2.1]; exact linear_labels h hR hw
  · rw [hs.2.2.2.2.2.1, e']
  · obtain ⟨x, -, rfl⟩ := List.mem_map.1 hq
    rw [h.2.2.2]; exact hd x
  · rw [hs.2.2.2.2.2.2, Linear.sgdPredictLogProba, hcp, e', py_ok_bind, py_ok_bind]
    simpa using log_rows (R.map p)

/-! ### Trees -/

/-- The tree a fitted tree is read as. -/
theorem Spec.FittedTree.encodes {F C : Type} [Arith F] {t : Tree F C} {w : Nat} {Good : List F → Prop} (h : FittedTree t w Good) :
    ∃ dt : DTree F, t.Encodes 0 dt ∧ (∀ f ∈ dt.features, f < w) ∧ ∀ v ∈ dt.leaves, Good v := by
  have key : ∀ k i, t.childrenLeft.length - i = k → i < t.childrenLeft.length →
      ∃ dt : DTree F, t.Encodes i dt ∧ (∀ f ∈ dt.features, f < w) ∧ ∀ v ∈ dt.leaves, Good v := by
    intro k
    induction k using Nat.strong_induction_on with
    | _ k ih =>
      intro i hk hi
      rcases h.node i hi with ⟨a, v, h1, h2, h3, h4⟩ | ⟨l, r, f, th, h1, h2, h3, h4, hne, hil, hir, hl, hr, hf⟩
      · exact ⟨.leaf v, .leaf h1 h2 h3, by simp [DTree.features], by simpa [DTree.leaves] using h4⟩
      · obtain ⟨lt, hlt, a1, a2⟩ := ih _ (by omega) l rfl hl
        obtain ⟨rt, hrt, b1, b2⟩ := ih _ (by omega) r rfl hr
        refine ⟨.node f th lt rt, .node h1 h2 hne h3 h4 hlt hrt, fun g hg => ?_, fun v hv => ?_⟩
        · simp only [DTree.features, List.mem_cons, List.mem_append] at hg
          rcases hg with rfl | hg | hg
          · exact hf
          · exact a1 g hg
          · exact b1 g hg
        · simp only [DTree.leaves, List.mem_append] at hv
          rcases hv with hv | hv
          · exact a2 v hv
          · exact b2 v hv
  exact key _ 0 rfl h.pos

theorem pyGet_index {α : Type} {l : List α} {n : Int} {a : α} (h : pyGet l n = .ok a) :
    ∃ i : Nat, (if n < 0 then n + l.length else n) = i ∧ i < l.length ∧ l[i]? = some a := by
  unfold pyGet at h
  generalize (if n < 0 then n + (l.length : Int) else n) = j at *
  simp only at h
  by_cases hj : j < 0
  · rw [if_pos hj] at h; cases h
  · rw [if_neg hj] at h
    cases hb : l[j.toNat]? with
    | none => rw [hb] at h; cases h
    | some b =>
      rw [hb] at h
      cases h
      exact ⟨j.toNat, by omega, (List.getElem?_eq_some_iff.1 hb).1, hb⟩

theorem Spec.FittedTree.testsBelow {C : Type} {t : Tree Ex C} {w : Nat} {Good : List Ex → Prop} (h : FittedTree t w Good) :
    TestsBelow t w := by
  intro n l r f h1 h2 hne h3
  obtain ⟨i, e1, hi, g1⟩ := pyGet_index h1
  obtain ⟨i', e2, -, g2⟩ := pyGet_index h2
  obtain ⟨i'', e3, -, g3⟩ := pyGet_index h3
  rw [h.right] at e2
  rw [h.feat] at e3
  have : i' = i := by rw [e1] at e2; exact_mod_cast e2.symm
  subst this
  have : i'' = i' := by rw [e1] at e3; exact_mod_cast e3.symm
  subst this
  rcases h.node i'' hi with ⟨a, v, k1, k2, -⟩ | ⟨l', r', f', th, -, -, k3, -, -, -, -, -, -, hf⟩
  · rw [k1] at g1; rw [k2] at g2
    cases g1; cases g2
    exact absurd rfl hne
  · rw [k3] at g3; cases g3
    omega

theorem firstMax_labels {C : Type} {cs : List C} {Q : List (List ℝ)} {ls : List C}
    (h : List.Forall₂ (fun p l => ∃ i, IsFirstMax p i ∧ cs[i]? = some l) Q ls) : ls.length = Q.length ∧ ∀ l ∈ ls, l ∈ cs := by
  refine ⟨h.length_eq.symm, fun l hl => ?_⟩
  induction h with
  | nil => cases hl
  | cons h _ ih =>
    rcases List.mem_cons.1 hl with rfl | hl
    · obtain ⟨i, -, hi⟩ := h
      exact List.mem_of_getElem? hi
    · exact ih hl

theorem treeClassifier_delivered {t : Tree Ex (PVal Ex)} {l : Layout} {w : Nat} (h : FittedTree t w (Counts t.classes.length)) :
    Delivered (classifier t.predict t.predictProba t.predictLogProba) (.matrix l w) (.labels t.classes (some t.classes.length)) := by
  refine classifier_delivered fun X n hX => ?_
  obtain ⟨A, R, rfl, hA, -, hR, hw, rfl⟩ := hX.shows_real
  obtain ⟨s1, s2, s3, -⟩ := Tree.same (g := .exact) rfl h.testsBelow hA
  obtain ⟨dt, henc, hf, hl⟩ := h.encodes
  obtain ⟨cs, ls, h1, h2, h3, h4, h5⟩ := C12_tree_probabilities t dt henc _ rfl hl (R.map fins) (by simpa using hR)
    (fun x hx f hfm => by
      obtain ⟨r, hr, rfl⟩ := List.mem_map.1 hx
      rw [fins_length, hw r hr]; exact hf f hfm)
  have hlen : cs.length = R.length := by simpa using h1.length_eq.symm
  have h5' : List.Forall₂ (fun p l => ∃ i, IsFirstMax p i ∧ t.classes[i]? = some l) (cs.map fun c => c.map fun a => a / c.sum) ls := by
    rw [List.forall₂_map_left_iff]; exact h5
  have e' : t.predictProba (.ofMat (R.map fins)) = .ok ((cs.map fun c => c.map fun a => a / c.sum).map fins) := by
    rw [h2, List.map_map]; rfl
  refine ⟨A, rfl, ⟨ls, by rw [s1, h4], ?_, (firstMax_labels h5').2⟩, ⟨cs.map fun c => c.map fun a => a / c.sum, by rw [s2, e'], by simpa using hlen, fun q hq => ?_⟩, ?_⟩
  · rw [(firstMax_labels h5').1]; simpa using hlen
  · obtain ⟨c, hc, rfl⟩ := List.mem_map.1 hq
    exact h3 c hc
  · rw [s3, Tree.predictLogProba, e', py_ok_bind]
    obtain ⟨L, g1, g2⟩ := log_rows2d (cs.map fun c => c.map fun a => a / c.sum)
    exact ⟨L, by first | exact g1 | (rw [apply2d_ofMat] at g1; exact g1), by rw [g2]; simpa using hlen⟩

/-- A fitted regression tree returns numbers. -/
theorem Spec.FittedTree.reg {C : Type} {t : Tree Ex C} {w : Nat} (h : FittedTree t w OneValue) {R : List (List ℝ)} (hR : R ≠ []) (hw : Rect w R) :
    ∃ f : List ℝ → ℝ, t.predictReg (.ofMat (R.map fins)) = .ok (R.map fun x => .fin (f x)) := by
  obtain ⟨dt, henc, hf, hl⟩ := h.encodes
  have hex : ∀ x ∈ R.map fins, ∃ v, dt.eval (Row.list x).look = some v ∧ ∃ a : ℝ, v[0]? = some (.fin a) := by
    intro x hx
    obtain ⟨r, hr, rfl⟩ := List.mem_map.1 hx
    obtain ⟨v, k, hv, -, -⟩ := C10_total t dt henc (fins r) (fun f hfm => by rw [fins_length, hw r hr]; exact hf f hfm)
    exact ⟨v, hv, hl v (DTree.eval_mem_leaves hv)⟩
  choose! g hg a ha using hex
  refine ⟨fun x => a (fins x), ?_⟩
  rw [C10_regressor_predict t dt henc (R.map fins) (by simpa using hR) g hg (fun x => .fin (a x)) ha, List.map_map]
  rfl

theorem treeRegressor_delivered {t : Tree Ex (PVal Ex)} {l : Layout} {w : Nat} (h : FittedTree t w OneValue) :
    Delivered (predictor fun X => do return (← t.predictReg X).map .float) (.matrix l w) .values := by
  refine ⟨_, rfl, fun X n hX => ?_⟩
  obtain ⟨A, R, rfl, hA, -, hR, hw, rfl⟩ := hX.shows_real
  obtain ⟨-, -, -, s4⟩ := Tree.same (g := .exact) rfl h.testsBelow hA
  obtain ⟨f, hf⟩ := h.reg hR hw
  refine ⟨R.map f, ?_, by simp⟩
  show (t.predictReg A >>= fun ys => .ok (ys.map PVal.float)) = _
  rw [s4, hf, py_ok_bind, List.map_map, List.map_map]
  rfl

/-! ### Naive Bayes -/

theorem nb_delivered {jll : Arr Ex → Py (List (List Ex))} {cs : List (PVal Ex)} (hc : cs ≠ []) {w : Nat} (score : List ℝ → Nat → ℝ)
    (hj : ∀ R : List (List ℝ), R ≠ [] → Rect w R → jll (.ofMat (R.map fins)) = .ok (R.map fun x => fins ((List.range cs.length).map (score x)))) :
    Delivered (classifier (nbPredict jll cs) (nbPredictProba jll) (nbPredictLogProba jll)) (.matrix .dense w)
      (.labels cs (some cs.length)) := by
  refine classifier_delivered fun X n hX => ?_
  obtain ⟨R, rfl, hR, hw, rfl⟩ := hX.dense_real
  have hjR := hj R hR hw
  obtain ⟨ls, e1, hF⟩ := nbPredict_exact hc hR hjR
  obtain ⟨e2, hd⟩ := C20_distribution_exact_partial jll cs.length (List.length_pos_iff.2 hc) R hR score hjR
  have hF' : List.Forall₂ (fun p l => ∃ i, IsFirstMax p i ∧ cs[i]? = some l) (R.map fun x => (List.range cs.length).map (score x)) ls := by
    rw [List.forall₂_map_left_iff]; exact hF
  refine ⟨_, rfl, ⟨ls, e1, by rw [(firstMax_labels hF').1, List.length_map], (firstMax_labels hF').2⟩,
    ⟨R.map fun x => (List.range cs.length).map (softmax cs.length (score x)), by rw [e2, List.map_map]; rfl, by simp, fun q hq => ?_⟩, ?_⟩
  · obtain ⟨x, -, rfl⟩ := List.mem_map.1 hq
    exact hd x
  · unfold nbPredictProba at e2
    obtain ⟨L, g1, g2⟩ := bind_ok_iff.1 e2
    exact ⟨L, g1, by have := mapM_length g2; simpa using this.symm⟩

theorem mat_getD {R : List (List ℝ)} {k w : Nat} (h : R.length = k) (hw : Rect w R) :
    R = mat k w fun c i => (R.getD c []).getD i 0 := by
  subst h
  apply List.ext_getElem
  · simp [mat]
  · intro i h1 h2
    have hr := hw R[i] (List.getElem_mem _)
    simp only [mat, List.getElem_map, List.getElem_range, List.getD_eq_getElem?_getD, List.getElem?_eq_getElem h1, Option.getD_some]
    apply List.ext_getElem
    · simp [hr]
    · intro j h3 h4
      simp [h3]

theorem gaussianNB_delivered {m : GaussianNB Ex (PVal Ex)} {w : Nat} {p : List ℝ} (hc : m.classes ≠ []) (hp : p.length = m.classes.length)
    (hprior : m.classPrior = p.map .fin) (hpos : ∀ x ∈ p, 0 < x) (hθ : FiniteMat m.theta m.classes.length w)
    (hσ : FiniteMat m.sigma m.classes.length w) (hσp : ∀ r ∈ m.sigma, ∀ x ∈ r, ∀ a, x = .fin a → 0 < a) :
    Delivered (classifier (nbPredict m.jll m.classes) (nbPredictProba m.jll) (nbPredictLogProba m.jll)) (.matrix .dense w)
      (.labels m.classes (some m.classes.length)) := by
  obtain ⟨T, hT, hT1, hT2⟩ := finiteMat_fins hθ
  obtain ⟨S, hS, hS1, hS2⟩ := finiteMat_fins hσ
  have hk : 0 < m.classes.length := List.length_pos_iff.2 hc
  refine nb_delivered hc _ fun R hR hw => jllGaussian_exact rfl hk (prior := fun c => p.getD c 0)
    (θ := fun c i => (T.getD c []).getD i 0) (σ := fun c i => (S.getD c []).getD i 0) ?_ ?_ ?_ ?_ ?_ hw
  · rw [hprior, ← fins_getD hp]; rfl
  · rw [hT, ← mat_getD hT1 hT2]
  · rw [hS, ← mat_getD hS1 hS2]
  · intro c hcl
    rw [List.getD_eq_getElem?_getD, List.getElem?_eq_getElem (by rw [hp]; exact hcl)]
    exact hpos _ (List.getElem_mem _)
  · intro c hcl i hi
    have h1 : c < S.length := by rw [hS1]; exact hcl
    have h2 : i < S[c].length := by rw [hS2 _ (List.getElem_mem _)]; exact hi
    simp only [List.getD_eq_getElem?_getD, List.getElem?_eq_getElem h1, Option.getD_some, List.getElem?_eq_getElem h2]
    exact hσp (fins S[c]) (by rw [hS]; exact List.mem_map.2 ⟨_, List.getElem_mem _, rfl⟩) (.fin S[c][i])
      (List.mem_map.2 ⟨_, List.getElem_mem _, rfl⟩) _ rfl

theorem multinomialNB_delivered {m : DiscreteNB Ex (PVal Ex)} {w : Nat} (hc : m.classes ≠ []) (hp : FiniteVec m.classLogPrior m.classes.length)
    (hf : FiniteMat m.featureLogProb m.classes.length w) :
    Delivered (classifier (nbPredict m.jllMultinomial m.classes) (nbPredictProba m.jllMultinomial) (nbPredictLogProba m.jllMultinomial))
      (.matrix .dense w) (.labels m.classes (some m.classes.length)) := by
  obtain ⟨T, hT, hT1, hT2⟩ := finiteMat_fins hf
  obtain ⟨p, hp, hp1⟩ := finiteVec_fins hp
  refine nb_delivered hc _ fun R hR hw => jllMultinomial_exact rfl (fun c => p.getD c 0)
    (fun c i => (T.getD c []).getD i 0) ?_ ?_ hw
  · rw [hp, ← fins_getD hp1]
  · rw [hT, ← mat_getD hT1 hT2]

theorem complementNB_delivered {m : DiscreteNB Ex (PVal Ex)} {w : Nat} (hc : m.classes ≠ []) (hp : FiniteVec m.classLogPrior m.classes.length)
    (hf : FiniteMat m.featureLogProb m.classes.length w) :
    Delivered (classifier (nbPredict m.jllComplement m.classes) (nbPredictProba m.jllComplement) (nbPredictLogProba m.jllComplement))
      (.matrix .dense w) (.labels m.classes (some m.classes.length)) := by
  obtain ⟨T, hT, hT1, hT2⟩ := finiteMat_fins hf
  obtain ⟨p, hp, hp1⟩ := finiteVec_fins hp
  refine nb_delivered hc _ fun R hR hw => jllComplement_exact rfl (fun c => p.getD c 0)
    (fun c i => (T.getD c []).getD i 0) ?_ ?_ hw
  · rw [hp, ← fins_getD hp1]
  · rw [hT, ← mat_getD hT1 hT2]

/-! ### The dummy classifier -/

theorem isDist_ne_nil {k : Nat} {p : List ℝ} (h : IsDist k p) : p ≠ [] := by
  rintro rfl
  simpa using h.2.2

theorem dummy_delivered {d : Dummy Ex} {l : Layout} {w k : Nat} {p : List ℝ} (hp : d.classPrior = p.map .fin) (hd : IsDist k p) :
    Delivered (classifier (fun X => do return (← d.predict X).map fun (i : Nat) => .int i) d.predictProba d.predictLogProba)
      (.matrix l w) (.labels ((List.range k).map fun (i : Nat) => .int i) (some k)) := by
  refine classifier_delivered fun X n hX => ?_
  obtain ⟨A, R, rfl, hA, -, hR, hw, rfl⟩ := hX.shows_real
  have hlen : A.len = .ok R.length := by rw [hA.check.2, List.length_map]
  have hne := isDist_ne_nil hd
  obtain ⟨i, hi⟩ := argmax_total (l := fins p) (by simpa [fins] using hne)
  have hik : i < k := by
    obtain ⟨h, -⟩ := argmax_fins.1 hi
    rw [← hd.1]; exact h
  have e1 := C21_predict_is_position d A _ i hlen (by rw [hp]; exact hi)
  have e2 : d.predictProba A = .ok ((List.replicate R.length p).map fins) := by
    rw [C21_proba_is_prior d A _ hlen, hp, List.map_replicate]; rfl
  refine ⟨A, rfl, ⟨List.replicate R.length (.int i), ?_, by simp, fun x hx => ?_⟩, ⟨_, e2, by simp, fun q hq => ?_⟩, ?_⟩
  · simp only [e1, py_ok_bind, py_pure, List.map_replicate]
  · obtain ⟨-, rfl⟩ := List.mem_replicate.1 hx
    exact List.mem_map.2 ⟨i, List.mem_range.2 hik, rfl⟩
  · obtain ⟨-, rfl⟩ := List.mem_replicate.1 hq
    exact hd
  · rw [Dummy.predictLogProba, e2, py_ok_bind]
    simpa using log_rows2d (List.replicate R.length p)

/-! ### XGBoost -/

theorem reg_returns {C : Type} {t : Tree Ex C} {w : Nat} (h : FittedTree t w OneValue) {R : List (List ℝ)} (hR : R ≠ []) (hw : Rect w R) :
    ∃ o : Nat → ℝ, TreeReturns (.ofMat (R.map fins)) (R.map fins).length t fun i => .fin (o i) := by
  obtain ⟨f, hf⟩ := h.reg hR hw
  refine ⟨fun i => f (R.getD i []), ?_⟩
  rw [TreeReturns, hf, List.length_map]
  congr 1
  apply List.ext_getElem
  · simp
  · intro i h1 h2
    simp only [List.length_map] at h1
    simp [h1]

theorem xgb_delivered {m : Xgb Ex (PVal Ex)} {w k : Nat} (hk : 0 < k) (hc : m.classes.length = k)
    (h : ∀ R : List (List ℝ), R ≠ [] → Rect w R → ∃ P : List (List ℝ), m.predictProba (.ofMat (R.map fins)) = .ok (P.map fins) ∧
      P.length = R.length ∧ ∀ q ∈ P, IsDist k q) :
    Delivered (probabilist m.predict m.predictProba) (.matrix .dense w) (.labels m.classes (some k)) := by
  refine probabilist_delivered fun X n hX => ?_
  obtain ⟨R, rfl, hR, hw, rfl⟩ := hX.dense_real
  obtain ⟨P, e1, e2, e3⟩ := h R hR hw
  obtain ⟨ls, e4, hF⟩ := C18_predict_is_argmax m _ P k e1 (fun r hr => (e3 r hr).1) hk hc
  exact ⟨_, rfl, ⟨ls, e4, by rw [(firstMax_labels hF).1, e2], (firstMax_labels hF).2⟩, P, e1, e2, e3⟩

theorem xgbBinary_delivered {m : Xgb Ex (PVal Ex)} {w : Nat} {ts : List (Tree Ex (PVal Ex))} (ho : m.objective = .binaryLogistic)
    (ht : m.trees = .binary ts) (hts : ∀ t ∈ ts, FittedTree t w OneValue) (hc : m.classes.length = 2) :
    Delivered (probabilist m.predict m.predictProba) (.matrix .dense w) (.labels m.classes (some 2)) := by
  refine xgb_delivered (by norm_num) hc fun R hR hw => ?_
  obtain ⟨os, hos⟩ : ∃ os : List (Nat → ℝ), List.Forall₂ (fun t o => TreeReturns (.ofMat (R.map fins)) (R.map fins).length t fun i => .fin (o i)) ts os := by
    have hex : ∀ t ∈ ts, ∃ o : Nat → ℝ, TreeReturns (.ofMat (R.map fins)) (R.map fins).length t fun i => .fin (o i) :=
      fun t htm => reg_returns (hts t htm) hR hw
    choose! o ho using hex
    refine ⟨ts.map o, ?_⟩
    rw [List.forall₂_map_right_iff, List.forall₂_same]
    exact ho
  obtain ⟨e, hd⟩ := C18_binary m ho ts ht (R.map fins) (by simpa using hR) os hos
  refine ⟨(List.range R.length).map fun i => [1 - sigmoid (total os i), sigmoid (total os i)], ?_, by simp, fun q hq => ?_⟩
  · rw [e, List.map_map, List.length_map]; rfl
  · obtain ⟨i, -, rfl⟩ := List.mem_map.1 hq
    exact hd i

theorem xgbMulti_delivered {m : Xgb Ex (PVal Ex)} {w : Nat} {rounds : List (List (Tree Ex (PVal Ex)))} (ho : m.objective = .multiSoftprob)
    (ht : m.trees = .multi rounds) (hn : m.nEstimators = rounds.length) (hpos : 0 < m.nClasses)
    (hr : ∀ r ∈ rounds, r.length = m.nClasses ∧ ∀ t ∈ r, FittedTree t w OneValue) (hc : m.classes.length = m.nClasses) :
    Delivered (probabilist m.predict m.predictProba) (.matrix .dense w) (.labels m.classes (some m.nClasses)) := by
  refine xgb_delivered hpos hc fun R hR hw => ?_
  have hex : ∀ e c : Nat, ∃ o : Nat → ℝ, ∀ (he : e < rounds.length) (hcl : c < rounds[e].length),
      TreeReturns (.ofMat (R.map fins)) (R.map fins).length rounds[e][c] fun i => .fin (o i) := by
    intro e c
    by_cases h : ∃ he : e < rounds.length, c < rounds[e].length
    · obtain ⟨he, hcl⟩ := h
      obtain ⟨o, h⟩ := reg_returns ((hr rounds[e] (List.getElem_mem _)).2 _ (List.getElem_mem hcl)) hR hw
      exact ⟨o, fun _ _ => h⟩
    · exact ⟨fun _ => 0, fun he hcl => absurd ⟨he, hcl⟩ h⟩
  choose o ho' using hex
  obtain ⟨e, hd⟩ := C18_multi m ho rounds ht hn hpos (fun r hrm => (hr r hrm).1) (R.map fins) (by simpa using hR) o
    (fun e he c hcl => ho' e c he _)
  refine ⟨(List.range R.length).map fun i => (List.range m.nClasses).map
    (softmax m.nClasses fun c => ∑ e ∈ Finset.range rounds.length, o e c i), ?_, by simp, fun q hq => ?_⟩
  · rw [e, List.map_map, List.length_map]; rfl
  · obtain ⟨i, -, rfl⟩ := List.mem_map.1 hq
    exact hd i

/-- Every predictor fitted for a kind of requests answers them. -/
theorem replies_delivered (lib : String → TextLib) (encode : Str → List Nat) {s : Single Ex} {A : Ask} {r : Reply} (h : Replies s A r) :
    Delivered (s.est lib encode) A r := by
  cases h with
  | linear h => exact linear_delivered h
  | logistic h h1 h2 => exact logistic_delivered h h1 h2
  | sgdLog h h1 => exact sgdLog_delivered h h1
  | treeClassifier h => exact treeClassifier_delivered h
  | treeRegressor h => exact treeRegressor_delivered h
  | gaussianNB h1 h2 h3 h4 h5 h6 h7 h8 h9 =>
    subst h6 h8
    exact gaussianNB_delivered h1 h2 h3 h4 h5 h7 h9
  | multinomialNB h1 h2 h3 => exact multinomialNB_delivered h1 h2 h3
  | complementNB h1 h2 h3 => exact complementNB_delivered h1 h2 h3
  | dummy h1 h2 => exact dummy_delivered h1 h2
  | xgbBinary h1 h2 h3 h4 => exact xgbBinary_delivered h1 h2 h3 h4
  | xgbMulti h1 h2 h3 h4 h5 h6 => exact xgbMulti_delivered h1 h2 h3 h4 h5 h6

end PurePredict
