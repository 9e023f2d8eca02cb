import Verif.Lemmas.UnfailingStep
import Verif.Lemmas.AnsweredFit
import Verif.Lemmas.TreeEncode
/-
Predictors answer whatever numbers a well-formed request contains.
-/
namespace PurePredict
open Spec
variable {fp : FP}

/-! ### Requests and replies -/

/-- A row of a dense or of a sparse matrix of the width. -/
def RowOf {F : Type} (w : Nat) : Row F → Prop
  | .list xs => xs.length = w
  | .dict d => ValidRow w d
  | .scalar _ => False

/-- A matrix request consists of rows. -/
theorem Spec.Posed.Holds.rows {l : Layout} {w n : Nat} {X : Data (XR fp)} (h : (Posed.matrix l w).Holds X n) :
    ∃ (B : Arr (XR fp)) (rs : List (Row (XR fp))), X = .arr B ∧ checkArray B .allow = .ok B ∧ B.rows = .ok rs ∧ B.len = .ok n ∧
      rs.length = n ∧ rs ≠ [] ∧ (∀ r ∈ rs, RowOf w r) ∧
      ∀ {C : Type} (m : Linear (XR fp) C), m.coef ≠ [] → Rect w m.coef → m.Accepts B rs := by
  rcases h.matrix_cases with ⟨M, rfl, hM, hw, rfl, hl⟩ | ⟨ds, dt, rfl, hds, hd, rfl, hl⟩
  · refine ⟨_, _, rfl, checkArray_ofMat hM _, rows_ofMat M, ?_, by simp, by simpa using hM, fun r hr => ?_,
      fun m h1 h2 => Linear.accepts_dense h1 h2 hM hw⟩
    · simp [Arr.len, rows_ofMat]
    · obtain ⟨x, hx, rfl⟩ := List.mem_map.1 hr
      exact hw x hx
  · refine ⟨_, _, rfl, rfl, rfl, by simp [Arr.len, Arr.rows], by simp, by simpa using hds, fun r hr => ?_, fun m h1 h2 => Linear.accepts_sparse h1 h2 hds dt⟩
    obtain ⟨x, hx, rfl⟩ := List.mem_map.1 hr
    exact hd x hx

theorem Spec.Posed.Holds.dense_mat {w n : Nat} {X : Data (XR fp)} (h : (Posed.matrix .dense w).Holds X n) :
    ∃ M : List (List (XR fp)), X = .arr (.ofMat M) ∧ M ≠ [] ∧ Rect w M ∧ M.length = n := by
  rcases h.matrix_cases with ⟨M, h1, h2, h3, h4, -⟩ | ⟨ds, dt, -, -, -, -, hl⟩
  · exact ⟨M, h1, h2, h3, h4⟩
  · cases hl

section
variable {F : Type} [Arith F]

theorem logs_total (hF : NoTrap F) {P : List (List F)} {k : Nat} (hP : Rect k P) :
    ∃ L, P.mapM (fun a => a.mapM (safeLog (F := F))) = .ok L ∧ L.length = P.length ∧ Rect k L :=
  mapM_all fun r hr => by
    obtain ⟨y, hy⟩ := mapM_total fun a (_ : a ∈ r) => hF.log a
    exact ⟨y, hy, (mapM_length hy).trans (hP r hr)⟩

theorem labels_total {C : Type} {cs : List C} {P : List (List F)} {k : Nat} (hP : Rect k P) (hk : 0 < k) (hc : cs.length = k) :
    ∃ ls, (P.mapM fun a => do pyGet cs (← argmax a)) = .ok ls ∧ ls.length = P.length ∧ ∀ l ∈ ls, l ∈ cs :=
  mapM_all fun r hr => by
    have hl := hP r hr
    obtain ⟨i, hi⟩ := argmax_total (l := r) (by rintro rfl; simp at hl; omega)
    have hlt := argmax_lt hi
    have hlt' : i < cs.length := by omega
    exact ⟨cs[i], by rw [hi, py_ok_bind, pyGet_lt hlt'], List.getElem_mem _⟩

end

theorem classifier_unfailing {A : Posed} {cs : List (PVal (XR fp))} {k : Nat} {p : Arr (XR fp) → Py (List (PVal (XR fp)))}
    {pp pl : Arr (XR fp) → Py (List (List (XR fp)))}
    (h : ∀ X n, A.Holds X n → ∃ B, X = .arr B ∧ (∃ ls, p B = .ok ls ∧ ls.length = n ∧ ∀ l ∈ ls, l ∈ cs) ∧
      (∃ P, pp B = .ok P ∧ P.length = n ∧ ∀ q ∈ P, q.length = k) ∧ ∃ L, pl B = .ok L ∧ L.length = n ∧ ∀ q ∈ L, q.length = k) :
    Unfailing (classifier p pp pl) A (.labels cs (some k)) := by
  refine ⟨⟨_, rfl, fun X n hX => ?_⟩, fun k' hk => ⟨⟨_, rfl, fun X n hX => ?_⟩, fun g hg X n hX => ?_⟩⟩
  · obtain ⟨B, rfl, h1, -⟩ := h X n hX
    exact h1
  · cases hk
    obtain ⟨B, rfl, -, h1, -⟩ := h X n hX
    exact h1
  · cases hg
    cases hk
    obtain ⟨B, rfl, -, -, h1⟩ := h X n hX
    exact h1

theorem probabilist_unfailing {A : Posed} {cs : List (PVal (XR fp))} {k : Nat} {p : Arr (XR fp) → Py (List (PVal (XR fp)))}
    {pp : Arr (XR fp) → Py (List (List (XR fp)))}
    (h : ∀ X n, A.Holds X n → ∃ B, X = .arr B ∧ (∃ ls, p B = .ok ls ∧ ls.length = n ∧ ∀ l ∈ ls, l ∈ cs) ∧
      ∃ P, pp B = .ok P ∧ P.length = n ∧ ∀ q ∈ P, q.length = k) :
    Unfailing (probabilist p pp) A (.labels cs (some k)) := by
  refine ⟨⟨_, rfl, fun X n hX => ?_⟩, fun k' hk => ⟨⟨_, rfl, fun X n hX => ?_⟩, fun g hg X n hX => ?_⟩⟩
  · obtain ⟨B, rfl, h1, -⟩ := h X n hX
    exact h1
  · cases hk
    obtain ⟨B, rfl, -, h1⟩ := h X n hX
    exact h1
  · cases hg

/-! ### Linear classifiers -/

section
variable {F : Type} [Arith F]

theorem dot_total {w : Nat} {x : Row F} (hx : RowOf w x) {B : List (List F)} (hB : Rect w B) : ∃ d, dot x B = .ok d ∧ d.length = B.length := by
  cases x with
  | list xs => exact ⟨_, dot_list xs B, by simp⟩
  | dict d =>
    obtain ⟨y, hy⟩ : ∃ y, dot (.dict d) B = .ok y :=
      mapM_total fun b hb => ⟨_, dotDict_valid hx (hB b hb) (ofInt 0)⟩
    exact ⟨y, hy, dot_length hy⟩
  | scalar a => cases hx

theorem scores_total {C : Type} {m : Linear F C} {w k : Nat} {b : List F} (hk : m.coef.length = k) (hB : Rect w m.coef)
    (hb : m.intercept = some b) (hbl : b.length = k) {rs : List (Row F)} (hr : ∀ r ∈ rs, RowOf w r) :
    ∃ S, rs.mapM m.rowScores = .ok S ∧ S.length = rs.length ∧ Rect k S :=
  mapM_all fun r hrm => by
    obtain ⟨d, hd, hl⟩ := dot_total (hr r hrm) hB
    exact ⟨List.zipWith Arith.add d b, by simp only [Linear.rowScores, hd, py_ok_bind, hb, attr, py_pure], by simp [hl, hk, hbl]⟩

end

/-- The scores of a request. -/
theorem decision_total {C : Type} {m : Linear (XR fp) C} {l : Layout} {w k n : Nat} (h : FormedLinear m w k) {X : Data (XR fp)}
    (hX : (Posed.matrix l w).Holds X n) : ∃ B, X = .arr B ∧
      ((k = 1 ∧ ∃ s, m.decisionFunction B = .ok (.flat s) ∧ s.length = n) ∨
       (k ≠ 1 ∧ ∃ S, m.decisionFunction B = .ok (.mat S) ∧ S.length = n ∧ Rect k S)) := by
  obtain ⟨hk, hc, hB, ⟨b, hb, hbl⟩, -⟩ := h
  obtain ⟨B, rs, rfl, -, -, -, hn, -, hr, hacc⟩ := hX.rows
  have hne : m.coef ≠ [] := by rw [Ne, ← List.length_eq_zero_iff]; omega
  obtain ⟨S, h1, h2, h3⟩ := scores_total hc hB hb hbl hr
  refine ⟨B, rfl, ?_⟩
  have e := Linear.decision_eq (hacc m hne hB) hb
  rw [h1, py_ok_bind, hc, hbl, Nat.min_self] at e
  by_cases hk1 : k = 1
  · subst hk1
    refine .inl ⟨rfl, _, by rw [e, if_pos rfl], ?_⟩
    rw [← hn, ← h2]
    clear e h1 h2
    induction S with
    | nil => rfl
    | cons r S ih =>
      obtain ⟨a, rfl⟩ := List.length_eq_one_iff.1 (h3 r (by simp))
      simpa using ih fun r hr => h3 r (by simp [hr])
  · exact .inr ⟨hk1, S, by rw [e, if_neg hk1], h2.trans hn, h3⟩

theorem linear_labels_total {C : Type} {m : Linear (XR fp) C} {l : Layout} {w k n : Nat} (h : FormedLinear m w k) {B : Arr (XR fp)}
    (hX : (Posed.matrix l w).Holds (.arr B) n) : ∃ ls, m.predict B = .ok ls ∧ ls.length = n ∧ ∀ l ∈ ls, l ∈ m.classes := by
  obtain ⟨B', e, hs⟩ := decision_total h hX
  cases e
  obtain ⟨hk, -, -, -, hcl⟩ := h
  unfold Linear.predict
  rcases hs with ⟨rfl, s, hs, hl⟩ | ⟨hk1, S, hs, hl, hS⟩
  · rw [if_pos rfl] at hcl
    rw [hs, py_ok_bind, ← hl]
    refine mapM_all fun x _ => ?_
    by_cases hx : (ofInt 0 <ₚ x) = true
    · refine ⟨m.classes[1]'(by omega), ?_, List.getElem_mem _⟩
      rw [if_pos hx]
      exact pyGet_lt (i := 1) (by omega)
    · refine ⟨m.classes[0]'(by omega), ?_, List.getElem_mem _⟩
      rw [if_neg hx]
      exact pyGet_lt (i := 0) (by omega)
  · rw [if_neg hk1] at hcl
    rw [hs, py_ok_bind, ← hl]
    exact labels_total hS hk hcl

theorem linear_unfailing {kind : LinKind} {m : Linear (XR fp) (PVal (XR fp))} {l : Layout} {w k : Nat} (h : FormedLinear m w k) :
    Unfailing (kind.est m) (.matrix l w) (.labels m.classes none) := by
  have hp : (kind.est m).predict = some (Data.onArr m.predict) := by
    cases kind with
    | sgd =>
      simp only [LinKind.est]
      split <;> rfl
    | _ => rfl
  refine ⟨⟨_, hp, fun X n hX => ?_⟩, fun k' hk => by cases hk⟩
  obtain ⟨B, rfl, -⟩ := decision_total h hX
  exact linear_labels_total h hX

theorem normRow_total {F : Type} [Arith F] (hF : NoTrap F) (a : List F) : ∃ y, Linear.normRow a = .ok y ∧ y.length = a.length := by
  obtain ⟨y, hy⟩ : ∃ y, Linear.normRow a = .ok y := mapM_total fun b _ => by
    cases hz : (pySum a ==ₚ ofInt 0) with
    | true => exact ⟨_, rfl⟩
    | false => exact hF.div _ _ hz
  exact ⟨y, hy, mapM_length hy⟩

theorem probaLr_total (hF : NoTrap (XR fp)) {C : Type} {m : Linear (XR fp) C} {l : Layout} {w k n : Nat} (h : FormedLinear m w k)
    {B : Arr (XR fp)} (hX : (Posed.matrix l w).Holds (.arr B) n) :
    ∃ P, m.predictProbaLr B = .ok P ∧ P.length = n ∧ Rect m.classes.length P := by
  obtain ⟨B', e, hs⟩ := decision_total h hX
  cases e
  obtain ⟨hk, -, -, -, hcl⟩ := h
  unfold Linear.predictProbaLr
  rcases hs with ⟨rfl, s, hs, hl⟩ | ⟨hk1, S, hs, hl, hS⟩
  · rw [if_pos rfl] at hcl
    rw [hs, py_ok_bind, ← hl]
    refine mapM_all fun x _ => ?_
    obtain ⟨a, ha⟩ := hF.expit x
    exact ⟨[ofInt 1 -ₚ a, a], by rw [ha]; rfl, by rw [hcl]; rfl⟩
  · rw [if_neg hk1] at hcl
    rw [hs, py_ok_bind]
    obtain ⟨P, h1, h2, h3⟩ := mapM_all (l := S) (f := fun a => a.mapM expit) (Q := fun r : List (XR fp) => r.length = k) fun r hr => by
      obtain ⟨y, hy⟩ := mapM_total fun a (_ : a ∈ r) => hF.expit a
      exact ⟨y, hy, (mapM_length hy).trans (hS r hr)⟩
    simp only [h1, py_ok_bind]
    rw [← hl, ← h2, hcl]
    exact mapM_all fun r hr => by
      obtain ⟨y, hy, e⟩ := normRow_total hF r
      exact ⟨y, hy, e.trans (h3 r hr)⟩

theorem logistic_unfailing (hF : NoTrap (XR fp)) {m : Linear (XR fp) (PVal (XR fp))} {l : Layout} {w k : Nat} (h : FormedLinear m w k)
    {mc so : String} (hmc : m.multiClass = some mc) (hso : m.solver = some so)
    (hc : k = 1 ∨ mc = "ovr" ∨ mc = "warn" ∨ mc = "auto" ∧ so = "liblinear") :
    Unfailing (LinKind.logistic.est m) (.matrix l w) (.labels m.classes (some m.classes.length)) := by
  refine classifier_unfailing fun X n hX => ?_
  obtain ⟨B, rfl, hs⟩ := decision_total h hX
  have key : ∃ P, m.predictProba B = .ok P ∧ P.length = n ∧ Rect m.classes.length P := by
    obtain ⟨b, hb⟩ : ∃ b, m.isOvr = .ok b := by
      unfold Linear.isOvr
      rw [hmc, hso]
      simp only [attr, py_ok_bind, py_pure]
      split
      · exact ⟨_, rfl⟩
      · split
        · split <;> exact ⟨_, rfl⟩
        · exact ⟨_, rfl⟩
    unfold Linear.predictProba
    rw [hb, py_ok_bind]
    cases b with
    | true => exact probaLr_total hF h hX
    | false =>
      have hk1 : k = 1 := by
        rcases hc with hc | hc
        · exact hc
        · unfold Linear.isOvr at hb
          rw [hmc, hso] at hb
          simp only [attr, py_ok_bind, py_pure] at hb
          exfalso
          rcases hc with rfl | rfl | ⟨rfl, rfl⟩
          · simp at hb
          · simp at hb
          · simp only [show ("auto" == "ovr" || "auto" == "warn") = false from by decide, Bool.false_eq_true, if_false,
              show ("auto" == "auto") = true from rfl, if_true, show ("liblinear" == "liblinear") = true from rfl] at hb
            split at hb <;> cases hb
      have hcl := h.2.2.2.2
      rw [if_pos hk1] at hcl
      rcases hs with ⟨-, s, hs, hl⟩ | ⟨hk1', -⟩
      · simp only [Bool.false_eq_true, if_false, hs, py_ok_bind, hcl]
        rw [← hl]
        exact mapM_all fun x _ => by
          obtain ⟨y, z, e⟩ := hF.pair x
          exact ⟨_, e, rfl⟩
      · exact absurd hk1 hk1'
  obtain ⟨P, h1, h2, h3⟩ := key
  refine ⟨B, rfl, linear_labels_total h hX, ⟨P, h1, h2, h3⟩, ?_⟩
  obtain ⟨L, g1, g2, g3⟩ := logs_total hF h3
  exact ⟨L, by rw [Linear.predictLogProba, h1, py_ok_bind, g1], g2.trans h2, g3⟩

theorem sgdLog_unfailing (hF : NoTrap (XR fp)) {m : Linear (XR fp) (PVal (XR fp))} {l : Layout} {w k : Nat} (h : FormedLinear m w k)
    (hl : m.loss = some "log") : Unfailing (LinKind.sgd.est m) (.matrix l w) (.labels m.classes (some m.classes.length)) := by
  have hcp : m.checkProba = .ok () := by simp [Linear.checkProba, hl, attr]
  have he : LinKind.sgd.est m = classifier m.predict m.sgdPredictProba m.sgdPredictLogProba := by
    simp only [LinKind.est, hcp]
  rw [he]
  refine classifier_unfailing fun X n hX => ?_
  obtain ⟨B, rfl, hs⟩ := decision_total h hX
  obtain ⟨P, h1, h2, h3⟩ := probaLr_total hF h hX
  have e : m.sgdPredictProba B = .ok P := by
    simp only [Linear.sgdPredictProba, hcp, py_ok_bind, Linear.sgdPredictProba_, hl, attr, h1]
    rfl
  refine ⟨B, rfl, linear_labels_total h hX, ⟨P, e, h2, h3⟩, ?_⟩
  obtain ⟨L, g1, g2, g3⟩ := logs_total hF h3
  exact ⟨L, by rw [Linear.sgdPredictLogProba, hcp, e, py_ok_bind, py_ok_bind, g1], g2.trans h2, g3⟩

/-! ### Trees -/

section
variable {F C : Type} [Arith F]

theorem leaves_total {dt : DTree F} {w : Nat} {Good : List F → Prop} (hf : ∀ f ∈ dt.features, f < w) (hl : ∀ v ∈ dt.leaves, Good v)
    {rs : List (Row F)} (hr : ∀ r ∈ rs, RowOf w r) : ∃ vs, rs.mapM dt.evalPy = .ok vs ∧ vs.length = rs.length ∧ ∀ v ∈ vs, Good v :=
  mapM_all fun r hrm => by
    obtain ⟨v, hv⟩ := DTree.eval_of_features (dt := dt) (x := r.look) fun f hfm => by
      have := hr r hrm
      cases r with
      | list xs => exact ⟨_, List.getElem?_eq_getElem (by rw [show xs.length = w from this]; exact hf f hfm)⟩
      | dict d => exact ⟨_, rfl⟩
      | scalar a => cases this
    exact ⟨v, by simp only [DTree.evalPy, hv], hl v (DTree.eval_mem_leaves hv)⟩

end

theorem weights_nn {k : Nat} {v : List (XR fp)} (h : Weights k v) : v.length = k ∧ (∀ x ∈ v, XR.NN x) ∧ ∃ r : ℝ, 0 < r ∧ XR.fin r ∈ v := by
  obtain ⟨c, rfl, hl, hc, a, ha, hpos⟩ := h
  refine ⟨by simp [hl], fun x hx => ?_, a, hpos, List.mem_map.2 ⟨a, ha, rfl⟩⟩
  obtain ⟨r, hr, rfl⟩ := List.mem_map.1 hx
  exact XR.NN.fin (hc r hr).1 (hc r hr).2

theorem weights_sum (hs : fp.Sound) {k : Nat} {v : List (XR fp)} (h : Weights k v) : pySum v ≠ .fin 0 := by
  obtain ⟨-, h2, r, hr, hm⟩ := weights_nn h
  exact XR.NN.ne_zero ((XR.pySum_NN hs h2).2 _ hm) hr

theorem treeClassifier_unfailing (hs : fp.Sound) (hF : NoTrap (XR fp)) {t : Tree (XR fp) (PVal (XR fp))} {l : Layout} {w : Nat}
    (h : FittedTree t w (Weights t.classes.length)) :
    Unfailing (classifier t.predict t.predictProba t.predictLogProba) (.matrix l w) (.labels t.classes (some t.classes.length)) := by
  refine classifier_unfailing fun X n hX => ?_
  obtain ⟨B, rs, rfl, hc, hrs, -, hn, -, hr, -⟩ := hX.rows
  obtain ⟨dt, henc, hf, hl⟩ := h.encodes
  obtain ⟨vs, h1, h2, h3⟩ := leaves_total hf hl hr
  have hP : ∃ P, t.predictProba B = .ok P ∧ P.length = n ∧ Rect t.classes.length P := by
    rw [Tree.predictProba_eq henc hc hrs, h1, py_ok_bind, ← hn, ← h2]
    exact mapM_all fun v hv => by
      obtain ⟨y, hy⟩ := mapM_total (l := v) (f := fun a => a /ₚ pySum v) fun a _ => XR.div_total (weights_sum hs (h3 v hv))
      exact ⟨y, hy, (mapM_length hy).trans (weights_nn (h3 v hv)).1⟩
  have hL : ∃ ls, t.predict B = .ok ls ∧ ls.length = n ∧ ∀ l ∈ ls, l ∈ t.classes := by
    rw [Tree.predict_eq henc hc hrs, h1, py_ok_bind]
    obtain ⟨is, g1, g2, g3⟩ := mapM_all (l := vs) (f := argmax) (Q := fun i => i < t.classes.length) fun v hv => by
      obtain ⟨k1, -, r, -, hm⟩ := weights_nn (h3 v hv)
      obtain ⟨i, hi⟩ := argmax_total (l := v) (List.ne_nil_of_mem hm)
      exact ⟨i, hi, by rw [← k1]; exact argmax_lt hi⟩
    rw [g1, py_ok_bind, ← hn, ← h2, ← g2]
    exact mapM_all fun i hi => ⟨_, pyGet_lt (g3 i hi), List.getElem_mem _⟩
  obtain ⟨P, e1, e2, e3⟩ := hP
  refine ⟨B, rfl, hL, ⟨P, e1, e2, e3⟩, ?_⟩
  obtain ⟨L, g1, g2, g3⟩ := logs_total hF e3
  exact ⟨L, by rw [Tree.predictLogProba, e1, py_ok_bind, g1], g2.trans e2, g3⟩

theorem reg_total {C : Type} {t : Tree (XR fp) C} {l : Layout} {w n : Nat} (h : FittedTree t w (· ≠ [])) {X : Data (XR fp)}
    (hX : (Posed.matrix l w).Holds X n) : ∃ B, X = .arr B ∧ ∃ ys, t.predictReg B = .ok ys ∧ ys.length = n := by
  obtain ⟨B, rs, rfl, hc, hrs, -, hn, -, hr, -⟩ := hX.rows
  obtain ⟨dt, henc, hf, hl⟩ := h.encodes
  obtain ⟨vs, h1, h2, h3⟩ := leaves_total hf hl hr
  obtain ⟨ys, hy, hyl, -⟩ := mapM_all (l := vs) (f := fun v => pyGet v 0) (Q := fun _ => True) fun v hv => by
    obtain ⟨a, v', rfl⟩ := List.exists_cons_of_ne_nil (h3 v hv)
    exact ⟨a, pyGet_lt (i := 0) (by simp), trivial⟩
  exact ⟨B, rfl, ys, by rw [Tree.predictReg_eq henc hc hrs, h1, py_ok_bind, hy], by rw [hyl, h2, hn]⟩

theorem treeRegressor_unfailing {t : Tree (XR fp) (PVal (XR fp))} {l : Layout} {w : Nat} (h : FittedTree t w (· ≠ [])) :
    Unfailing (predictor fun X => do return (← t.predictReg X).map .float) (.matrix l w) .values := by
  refine ⟨_, rfl, fun X n hX => ?_⟩
  obtain ⟨B, rfl, ys, hy, hn⟩ := reg_total h hX
  refine ⟨ys, ?_, hn⟩
  show (t.predictReg B >>= fun ys => .ok (ys.map PVal.float)) = _
  rw [hy]
  rfl

/-! ### Naive Bayes -/

theorem nb_unfailing (hF : NoTrap (XR fp)) {jll : Arr (XR fp) → Py (List (List (XR fp)))} {cs : List (PVal (XR fp))} (hc : cs ≠ []) {w : Nat}
    (hj : ∀ M : List (List (XR fp)), M ≠ [] → Rect w M → ∃ J, jll (.ofMat M) = .ok J ∧ J.length = M.length ∧ Rect cs.length J) :
    Unfailing (classifier (nbPredict jll cs) (nbPredictProba jll) (nbPredictLogProba jll)) (.matrix .dense w)
      (.labels cs (some cs.length)) := by
  refine classifier_unfailing fun X n hX => ?_
  obtain ⟨M, rfl, hM, hw, rfl⟩ := hX.dense_mat
  obtain ⟨J, h1, h2, h3⟩ := hj M hM hw
  have hlog : ∃ L, nbPredictLogProba jll (.ofMat M) = .ok L ∧ L.length = M.length ∧ Rect cs.length L := by
    simp only [nbPredictLogProba, checkArray_ofMat hM, py_ok_bind, h1]
    rw [← h2]
    exact mapM_all fun r hr => by
      obtain ⟨y, hy⟩ := mapM_total fun a (_ : a ∈ r) => hF.exp a
      obtain ⟨z, hz⟩ := hF.log (pySum y)
      exact ⟨r.map fun x => x -ₚ z, by simp only [logNormalize, hy, py_ok_bind, hz, py_pure], by simp [h3 r hr]⟩
  obtain ⟨L, g1, g2, g3⟩ := hlog
  refine ⟨_, rfl, ?_, ?_, L, g1, g2, g3⟩
  · simp only [nbPredict, checkArray_ofMat hM, py_ok_bind, h1]
    rw [← h2]
    exact labels_total h3 (List.length_pos_iff.2 hc) rfl
  · simp only [nbPredictProba, g1, py_ok_bind]
    rw [← g2]
    exact mapM_all fun r hr => by
      obtain ⟨y, hy⟩ := mapM_total fun a (_ : a ∈ r) => hF.exp a
      exact ⟨y, hy, (mapM_length hy).trans (g3 r hr)⟩

theorem multinomialNB_unfailing (hF : NoTrap (XR fp)) {m : DiscreteNB (XR fp) (PVal (XR fp))} {w : Nat} (hc : m.classes ≠ [])
    (hp : m.classLogPrior.length = m.classes.length) (hf : m.featureLogProb.length = m.classes.length) :
    Unfailing (classifier (nbPredict m.jllMultinomial m.classes) (nbPredictProba m.jllMultinomial) (nbPredictLogProba m.jllMultinomial))
      (.matrix .dense w) (.labels m.classes (some m.classes.length)) := by
  refine nb_unfailing hF hc fun M hM hw => ?_
  simp only [DiscreteNB.jllMultinomial, rows_ofMat, py_ok_bind]
  rw [mapM_map']
  refine mapM_all fun r hr => ?_
  simp only [dot_list, py_ok_bind]
  obtain ⟨y, hy⟩ : ∃ y, ((List.range m.classes.length).mapM fun (i : Nat) => (do
      return (← pyGet (m.featureLogProb.map fun b => dotList r b) (i : Int)) +ₚ (← pyGet m.classLogPrior (i : Int)) : Py (XR fp))) = .ok y := by
    refine mapM_total fun i hi => ?_
    have hi := List.mem_range.1 hi
    exact ⟨_, by rw [pyGet_lt (by rw [List.length_map, hf]; exact hi), pyGet_lt (by rw [hp]; exact hi)]; rfl⟩
  exact ⟨y, hy, by simpa using mapM_length hy⟩

theorem complementNB_unfailing (hF : NoTrap (XR fp)) {m : DiscreteNB (XR fp) (PVal (XR fp))} {w : Nat} (hc : m.classes ≠ [])
    (hp : m.classLogPrior.length = m.classes.length) (hf : m.featureLogProb.length = m.classes.length) :
    Unfailing (classifier (nbPredict m.jllComplement m.classes) (nbPredictProba m.jllComplement) (nbPredictLogProba m.jllComplement))
      (.matrix .dense w) (.labels m.classes (some m.classes.length)) := by
  refine nb_unfailing hF hc fun M hM hw => ?_
  simp only [DiscreteNB.jllComplement, rows_ofMat, py_ok_bind]
  obtain ⟨J, h1, h2, h3⟩ := mapM_all (l := M) (f := fun x => dot (.list x) m.featureLogProb)
    (Q := fun r : List (XR fp) => r.length = m.classes.length) fun r _ => ⟨_, dot_list r _, by simp [hf]⟩
  rw [mapM_map', h1, py_ok_bind]
  cases he : (m.classes.length == 1) with
  | false =>
    simp only [Bool.false_eq_true, if_false]
    exact ⟨J, rfl, h2, h3⟩
  | true =>
    simp only [if_true]
    have he : m.classes.length = 1 := by simpa using he
    rw [← h2]
    refine mapM_all fun r hr => ?_
    have hr := h3 r hr
    obtain ⟨a, rfl⟩ := List.length_eq_one_iff.1 (hr.trans he)
    obtain ⟨b, hb⟩ := List.length_eq_one_iff.1 (hp.trans he)
    exact ⟨[a +ₚ b], by rw [hb]; rfl, by rw [he]; rfl⟩

/-! ### The dummy classifier -/

theorem dummy_unfailing (hF : NoTrap (XR fp)) {d : Dummy (XR fp)} {l : Layout} {w : Nat} (hp : d.classPrior ≠ []) :
    Unfailing (classifier (fun X => do return (← d.predict X).map fun (i : Nat) => .int i) d.predictProba d.predictLogProba)
      (.matrix l w) (.labels ((List.range d.classPrior.length).map fun (i : Nat) => .int i) (some d.classPrior.length)) := by
  refine classifier_unfailing fun X n hX => ?_
  obtain ⟨B, rs, rfl, -, -, hlen, -⟩ := hX.rows
  obtain ⟨i, hi⟩ := argmax_total hp
  have e1 := C21_predict_is_position d B _ i hlen hi
  have e2 := C21_proba_is_prior d B _ hlen
  have hP : Rect d.classPrior.length (List.replicate n d.classPrior) := fun r hr => by
    obtain ⟨-, rfl⟩ := List.mem_replicate.1 hr
    rfl
  refine ⟨B, rfl, ⟨List.replicate n (.int i), ?_, by simp, fun x hx => ?_⟩, ⟨_, e2, by simp, hP⟩, ?_⟩
  · simp only [e1, py_ok_bind, py_pure, List.map_replicate]
  · obtain ⟨-, rfl⟩ := List.mem_replicate.1 hx
    exact List.mem_map.2 ⟨i, List.mem_range.2 (argmax_lt hi), rfl⟩
  · obtain ⟨L, g1, g2, g3⟩ := logs_total hF hP
    exact ⟨L, by rw [Dummy.predictLogProba, e2, py_ok_bind, apply2d_ofMat, g1], by simpa using g2, g3⟩

/-! ### XGBoost -/

theorem xgbBinary_unfailing (hF : NoTrap (XR fp)) {m : Xgb (XR fp) (PVal (XR fp))} {w : Nat} {ts : List (Tree (XR fp) (PVal (XR fp)))}
    (ho : m.objective = .binaryLogistic) (ht : m.trees = .binary ts) (hts : ∀ t ∈ ts, FittedTree t w (· ≠ []))
    (hc : m.classes.length = 2) : Unfailing (probabilist m.predict m.predictProba) (.matrix .dense w) (.labels m.classes (some 2)) := by
  refine probabilist_unfailing fun X n hX => ?_
  obtain ⟨M, rfl, hM, hw, rfl⟩ := hX.dense_mat
  have hsum : ∀ acc : List (XR fp), acc.length = M.length → ∃ s, ts.foldlM (Xgb.addTree (.ofMat M)) acc = .ok s ∧ s.length = M.length := by
    clear ht
    induction ts with
    | nil => exact fun acc h => ⟨acc, rfl, h⟩
    | cons t ts ih =>
      intro acc hacc
      obtain ⟨B, e, ys, hy, hl⟩ := reg_total (hts t (by simp)) hX
      cases e
      rw [List.foldlM_cons, Xgb.addTree, hy]
      simp only [py_ok_bind, py_pure]
      exact ih (fun t ht => hts t (by simp [ht])) _ (by simp [hacc, hl])
  obtain ⟨s, h1, h2⟩ := hsum (List.replicate M.length (ofInt 0)) (by simp)
  obtain ⟨o, g1, g2, -⟩ := mapM_all (l := s) (f := expit) (Q := fun _ => True) fun a _ => (hF.expit a).imp fun _ h => ⟨h, trivial⟩
  have hb : m.predictBinary (.ofMat M) = .ok s := by
    simp only [Xgb.predictBinary, ht]
    rw [show (Arr.ofMat M : Arr (XR fp)).len = .ok M.length by simp [Arr.len, rows_ofMat], py_ok_bind, h1]
  have hP : m.predictProba (.ofMat M) = .ok (o.map fun x => [ofInt 1 -ₚ x, x]) := by
    simp only [Xgb.predictProba, checkArray_ofMat hM, py_ok_bind, ho, hb, g1, py_pure]
  have hR : Rect 2 (o.map fun x => [ofInt 1 -ₚ x, x]) := fun r hr => by
    obtain ⟨x, -, rfl⟩ := List.mem_map.1 hr
    rfl
  refine ⟨_, rfl, ?_, _, hP, by simp [g2, h2], hR⟩
  rw [Xgb.predict, hP, py_ok_bind]
  obtain ⟨ls, k1, k2, k3⟩ := labels_total hR (by norm_num) hc
  exact ⟨ls, k1, by rw [k2]; simp [g2, h2], k3⟩

/-- Every predictor whose parameters have the right sizes answers. -/
theorem calmFit_unfailing (hs : fp.Sound) (hF : NoTrap (XR fp)) (lib : String → TextLib) (encode : Str → List Nat) {s : Single (XR fp)}
    {A : Posed} {r : Outcome fp} (h : CalmFit s A r) : Unfailing (s.est lib encode) A r := by
  cases h with
  | linear h => exact linear_unfailing h
  | logistic h h1 h2 h3 => exact logistic_unfailing hF h h1 h2 h3
  | sgdLog h h1 => exact sgdLog_unfailing hF h h1
  | treeClassifier h => exact treeClassifier_unfailing hs hF h
  | treeRegressor h => exact treeRegressor_unfailing h
  | multinomialNB h1 h2 h3 => exact multinomialNB_unfailing hF h1 h2 h3
  | complementNB h1 h2 h3 => exact complementNB_unfailing hF h1 h2 h3
  | dummy h => exact dummy_unfailing hF h
  | xgbBinary h1 h2 h3 h4 => exact xgbBinary_unfailing hF h1 h2 h3 h4

end PurePredict
