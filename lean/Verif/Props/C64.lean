import Verif.Props.C10
import Verif.Props.C11
import Verif.Props.C62
import Verif.Lemmas.TreeEncode
import Verif.Model.NaiveBayes
/-
C64: a wrong feature count given to the classifiers other than the linear ones (C07).  The full
statement is false of all of them; gradient boosting checks the first record.
-/
namespace PurePredict
open Spec
variable {F C : Type} [Arith F]

/-- The claim: any dense request containing a record of the wrong width raises ValueError. -/
def WidthChecked {β : Type} (w : Nat) (f : Arr F → Py β) : Prop :=
  ∀ M : List (List F), M ≠ [] → (∃ r ∈ M, r.length ≠ w) → f (.ofMat M) = .error .valueError

/-- **C64** (part: gradient boosting, first record): if the *first* record has the wrong width,
every method raises ValueError.  Missing: wrong widths in later records
(`C64_gb_later_false`). -/
theorem C64_gb_first_partial (g : GB F C) (r : List F) (M : List (List F)) (hr : r.length ≠ g.nFeatures) :
    g.predict (.ofMat (r :: M)) = .error .valueError ∧
    g.predictProba (.ofMat (r :: M)) = .error .valueError ∧
    g.predictLogProba (.ofMat (r :: M)) = .error .valueError := by
  have h : g.predictProba (.ofMat (r :: M)) = .error .valueError := by
    simp [GB.predictProba, GB.rawPredict, GB.rawPredictInit, checkArray_ofMat_cons, width_ofMat_cons, hr]
  exact ⟨by simp [GB.predict, h], h, by simp [GB.predictLogProba, h]⟩

theorem Tree.step_take {t : Tree F C} {w : Nat} (h : t.FeaturesBelow w) (r : List F)
    (n : Int) : t.step (.list (r.take w)) n = t.step (.list r) n := by
  simp only [Tree.step]
  cases hl : pyGet t.childrenLeft n with
  | error e => rfl
  | ok l =>
    cases hr : pyGet t.childrenRight n with
    | error e => rfl
    | ok rr =>
      simp only [py_ok_bind]
      by_cases hne : l = rr
      · simp [hne]
      · have hne' : (l == rr) = false := by simpa using hne
        simp only [hne', Bool.false_eq_true, if_false]
        have : t.featureValue (.list (r.take w)) n = t.featureValue (.list r) n := by
          simp only [Tree.featureValue]
          cases hf : pyGet t.feature n with
          | error e => rfl
          | ok f =>
            obtain ⟨h0, h1⟩ := h n l rr f hl hr hne hf
            obtain ⟨k, rfl⟩ : ∃ k : Nat, f = k := ⟨f.toNat, by omega⟩
            simp only [py_ok_bind, pyGet_nat]
            rw [List.getElem?_take_of_lt (by omega)]
        rw [this]

theorem Tree.leaf_take {t : Tree F C} {w : Nat} (h : t.FeaturesBelow w) (r : List F) :
    t.getLeafNode (.list (r.take w)) = t.getLeafNode (.list r) := by
  have : ∀ fuel n, t.walk (.list (r.take w)) fuel n = t.walk (.list r) fuel n := by
    intro fuel
    induction fuel with
    | zero => intro n; rfl
    | succ k ih =>
      intro n
      simp only [Tree.walk, Tree.step_take h]
      congr 1
      funext o
      cases o with
      | none => rfl
      | some m => exact ih m
  exact this _ _

/-- What trees do instead: extra columns are silently ignored.  For every tree fitted on `w`
features and every request, the answer is the answer to the records cut off after `w` columns. -/
theorem C64_tree_extra_ignored (t : Tree F C) (w : Nat) (h : t.FeaturesBelow w) (M : List (List F)) :
    t.predict (.ofMat M) = t.predict (.ofMat (M.map (·.take w))) ∧
    t.predictProba (.ofMat M) = t.predictProba (.ofMat (M.map (·.take w))) ∧
    t.predictReg (.ofMat M) = t.predictReg (.ofMat (M.map (·.take w))) := by
  cases M with
  | nil => simp
  | cons r M =>
    have key : ((r :: M).map Row.list).mapM t.getLeafNode =
        (((r :: M).map (·.take w)).map Row.list).mapM t.getLeafNode := by
      rw [List.map_map, mapM_map', mapM_map']
      exact mapM_congr fun x _ => (Tree.leaf_take h x).symm
    refine ⟨?_, ?_, ?_⟩ <;>
    · simp only [Tree.predict, Tree.predictProba, Tree.predictReg, List.map_cons,
        checkArray_ofMat_cons, py_ok_bind, rows_ofMat]
      rw [← List.map_cons, ← List.map_cons, key]
      rfl

/-- What trees do instead: a record too short for its own decision path raises IndexError (and not
ValueError); a short record whose path tests only features it has is answered (C10_total). -/
theorem C64_tree_short (t : Tree F C) (dt : DTree F) (henc : t.Encodes 0 dt) (M : List (List F))
    (h : ∃ r ∈ M, dt.eval (fun f => r[f]?) = none) :
    t.predict (.ofMat M) = .error .indexError ∧ t.predictProba (.ofMat M) = .error .indexError ∧
    t.predictReg (.ofMat M) = .error .indexError := by
  obtain ⟨r, hr, hev⟩ := h
  have key : (M.map Row.list).mapM t.getLeafNode = .error .indexError := by
    refine mapM_error_same (x := Row.list r) (List.mem_map_of_mem hr) ?_ ?_
    · have := Tree.getLeafNode_encodes henc (.list r)
      rw [show dt.eval (Row.list r).look = none from hev] at this
      exact this
    · intro y hy e he
      obtain ⟨s, _, rfl⟩ := List.mem_map.1 hy
      have := Tree.getLeafNode_encodes henc (.list s)
      cases hs : dt.eval (Row.list s).look with
      | none => rw [hs] at this; rw [this] at he; cases he; rfl
      | some v =>
        rw [hs] at this
        obtain ⟨k, hk, _⟩ := this
        rw [hk] at he
        cases he
  have hM : M ≠ [] := List.ne_nil_of_mem hr
  refine ⟨?_, ?_, ?_⟩ <;>
    simp [Tree.predict, Tree.predictProba, Tree.predictReg, checkArray_ofMat hM, key]

theorem dotList_take (x b : List F) (n : Nat) (hb : b.length ≤ n) : dotList (x.take n) b = dotList x b := by
  unfold dotList
  congr 1
  induction x generalizing b n with
  | nil => simp
  | cons a x ih =>
    cases b with
    | nil => simp
    | cons c b =>
      obtain ⟨n, rfl⟩ : ∃ k, n = k + 1 := ⟨n - 1, by simp at hb; omega⟩
      simp only [List.take_succ_cons, List.zipWith_cons_cons]
      rw [ih b n (by simpa using hb)]

theorem dotList_take_right (x b : List F) (n : Nat) (hx : x.length ≤ n) :
    dotList x (b.take n) = dotList x b := by
  unfold dotList
  congr 1
  induction x generalizing b n with
  | nil => simp
  | cons a x ih =>
    cases b with
    | nil => simp
    | cons c b =>
      obtain ⟨n, rfl⟩ : ∃ k, n = k + 1 := ⟨n - 1, by simp at hx; omega⟩
      simp only [List.take_succ_cons, List.zipWith_cons_cons]
      rw [ih b n (by simpa using hx)]

/-- What multinomial and complement naive Bayes do instead: extra columns are ignored, and records
that are too short are scored with the first columns of the model. -/
theorem C64_discrete_bayes_truncates (m : DiscreteNB F C) (w : Nat) (hw : Rect w m.featureLogProb)
    (M : List (List F)) :
    (m.jllMultinomial (.ofMat M) = m.jllMultinomial (.ofMat (M.map (·.take w))) ∧
      m.jllComplement (.ofMat M) = m.jllComplement (.ofMat (M.map (·.take w)))) ∧
    ∀ v, (∀ r ∈ M, r.length ≤ v) →
      let m' : DiscreteNB F C := ⟨m.classLogPrior, m.classes, m.featureLogProb.map (·.take v)⟩
      m.jllMultinomial (.ofMat M) = m'.jllMultinomial (.ofMat M) ∧
      m.jllComplement (.ofMat M) = m'.jllComplement (.ofMat M) := by
  have h1 : ∀ r : List F, dot (.list (r.take w)) m.featureLogProb = dot (.list r) m.featureLogProb := by
    intro r
    exact mapM_congr fun b hb => congrArg Except.ok (dotList_take r b w (hw b hb).le)
  refine ⟨⟨?_, ?_⟩, fun v hv => ?_⟩
  · simp only [DiscreteNB.jllMultinomial, rows_ofMat, py_ok_bind, List.map_map]
    rw [mapM_map', mapM_map']
    refine mapM_congr fun r _ => ?_
    simp only [Function.comp, h1]
  · simp only [DiscreteNB.jllComplement, rows_ofMat, py_ok_bind, List.map_map]
    rw [mapM_map', mapM_map']
    congr 1
    refine mapM_congr fun r _ => ?_
    simp only [Function.comp, h1]
  · have h2 : ∀ r ∈ M, dot (.list r) (m.featureLogProb.map (·.take v)) = dot (.list r) m.featureLogProb := by
      intro r hr
      simp only [dot]
      rw [mapM_map']
      exact mapM_congr fun b hb => congrArg Except.ok (dotList_take_right r b v (hv r hr))
    constructor
    · simp only [DiscreteNB.jllMultinomial, rows_ofMat, py_ok_bind]
      rw [mapM_map', mapM_map']
      refine mapM_congr fun r hr => ?_
      rw [h2 r hr]
    · simp only [DiscreteNB.jllComplement, rows_ofMat, py_ok_bind]
      rw [mapM_map', mapM_map']
      congr 1
      refine mapM_congr fun r hr => ?_
      rw [h2 r hr]

/-- … and none of it raises: for every multinomial model whose parameters have one row per class,
joint log likelihoods are returned for records of any widths. -/
theorem C64_multinomial_answers (m : DiscreteNB F C) (hf : m.featureLogProb.length = m.classes.length)
    (hp : m.classLogPrior.length = m.classes.length) (M : List (List F)) :
    ∃ j, m.jllMultinomial (.ofMat M) = .ok j ∧ j.length = M.length := by
  have : ∃ j, m.jllMultinomial (.ofMat M) = .ok j := by
    simp only [DiscreteNB.jllMultinomial, rows_ofMat, py_ok_bind]
    rw [mapM_map']
    refine mapM_total fun r _ => ?_
    have hd : dot (.list r) m.featureLogProb = .ok (m.featureLogProb.map (dotList r)) :=
      mapM_ok_map fun _ _ => rfl
    rw [hd, py_ok_bind]
    refine mapM_total fun i hi => ?_
    have hi : i < m.classes.length := by simpa using hi
    rw [pyGet_lt (by simpa [hf] using hi), pyGet_lt (by simpa [hp] using hi)]
    exact ⟨_, rfl⟩
  obtain ⟨j, hj⟩ := this
  refine ⟨j, hj, ?_⟩
  simp only [DiscreteNB.jllMultinomial, rows_ofMat, py_ok_bind] at hj
  rw [mapM_length hj]
  simp

/-- Gaussian naive Bayes: no record longer than a class's parameters is answered. -/
theorem C64_gaussian_long (theta sigma a : List F)
    (h : theta.length < a.length ∨ sigma.length < a.length) :
    ∃ e, GaussianNB.terms theta sigma (.list a) = .error e := by
  simp only [GaussianNB.terms, Row.len, py_ok_bind]
  rcases h with h | h
  · have hx : theta.length ∈ List.range a.length := by simpa using h
    refine mapM_error hx (e := .indexError) ?_
    simp only [Row.getItem, pyGet_lt h, py_ok_bind, pyGet_ge (le_refl theta.length)]
    rfl
  · cases hm : (List.range a.length).mapM (fun (b : Nat) => (do
        let num ← Arith.sq ((← (Row.list a).getItem (b : Int)) -ₚ (← pyGet theta (b : Int)))
        num /ₚ (← pyGet sigma (b : Int)) : Py F)) with
    | error e => exact ⟨e, rfl⟩
    | ok ys =>
      exfalso
      obtain ⟨y, hy⟩ : ∃ y, (do
        let num ← Arith.sq ((← (Row.list a).getItem (sigma.length : Int)) -ₚ (← pyGet theta (sigma.length : Int)))
        num /ₚ (← pyGet sigma (sigma.length : Int)) : Py F) = .ok y := by
        have hi : sigma.length < (List.range a.length).length := by simpa using h
        have := mapM_getElem hm sigma.length hi (by rw [mapM_length hm]; exact hi)
        simp only [List.getElem_range] at this
        exact ⟨_, this⟩
      obtain ⟨_, _, hy⟩ := bind_ok_iff.1 hy
      obtain ⟨_, _, hy⟩ := bind_ok_iff.1 hy
      obtain ⟨_, _, hy⟩ := bind_ok_iff.1 hy
      rw [pyGet_ge (le_refl _)] at hy
      cases hy

/-- A stump on the second of two features, as a classifier. -/
def stumpClf : Tree Ex String :=
  ⟨[1, -1, -1], [2, -1, -1], [1, -2, -2], [.fin 5, .fin 0, .fin 0],
    [[.fin 1, .fin 1], [.fin 1, .fin 0], [.fin 0, .fin 1]], ["a", "b"]⟩

theorem stumpClf_encodes : stumpClf.Encodes 0
    (.node 1 (.fin 5) (.leaf [.fin 1, .fin 0]) (.leaf [.fin 0, .fin 1])) :=
  .node rfl rfl (by decide) rfl rfl (.leaf rfl rfl rfl) (.leaf rfl rfl rfl)

/-- **C64 is false** of trees: a tree fitted on two features answers a record of three, and raises
IndexError, not ValueError, on a record of one. -/
theorem C64_tree_false : stumpClf.FeaturesBelow 2 ∧
    stumpClf.predict (.ofMat [[.fin 0, .fin 7, .fin 1]]) = .ok ["b"] ∧
    stumpClf.predict (.ofMat [[.fin 0]]) = .error .indexError ∧
    ¬ WidthChecked 2 stumpClf.predict := by
  have hb : stumpClf.FeaturesBelow 2 := by
    intro n l r f hl hr hne hf
    obtain ⟨h1, h2⟩ := Tree.pyGet_range hl
    simp [stumpClf] at h1 h2
    have : n = -3 ∨ n = -2 ∨ n = -1 ∨ n = 0 ∨ n = 1 ∨ n = 2 := by omega
    rcases this with rfl | rfl | rfl | rfl | rfl | rfl <;>
      simp [pyGet, stumpClf] at hl hr hf <;> omega
  have h2 : stumpClf.predict (.ofMat [[.fin 0]]) = .error .indexError :=
    (C64_tree_short _ _ stumpClf_encodes [[.fin 0]] ⟨[.fin 0], by simp, by simp [DTree.eval]⟩).1
  refine ⟨hb, ?_, h2, fun h => ?_⟩
  · rw [Tree.predict_eq stumpClf_encodes (checkArray_ofMat_cons _ _ _) rfl]
    have e : (DTree.node 1 (.fin 5) (.leaf [.fin 1, .fin 0]) (.leaf [.fin 0, .fin 1]) :
        DTree Ex).evalPy (.list [.fin 0, .fin 7, .fin 1]) = .ok (fins [0, 1]) := by
      simp [DTree.evalPy, DTree.eval, Row.look, fins]
      norm_num
    have a : argmax (fins [0, 1]) = .ok 1 := argmax_fins.2 (by simpa using isFirstMax_pair (a := 0) (b := 1))
    simp only [List.map_cons, List.map_nil, mapM_cons', mapM_nil', e, py_ok_bind, py_pure, a]
    rfl
  · rw [h [[.fin 0]] (by simp) ⟨[.fin 0], by simp, by simp⟩] at h2
    cases h2

/-- What gradient boosting does with the later records: when its members ignore extra columns (as
trees do, `C64_tree_extra_ignored`), a request whose first record has the fitted width is answered
as if the other records were cut off. -/
theorem C64_gb_later_ignored (g : GB F C)
    (hinit : ∀ M, g.initProba (.ofMat M) = g.initProba (.ofMat (M.map (·.take g.nFeatures))))
    (hst : ∀ st ∈ g.estimators, ∀ e ∈ st, ∀ M, e (.ofMat M) = e (.ofMat (M.map (·.take g.nFeatures))))
    (r : List F) (hr : r.length = g.nFeatures) (M : List (List F)) :
    g.predictProba (.ofMat (r :: M)) =
      g.predictProba (.ofMat ((r :: M).map (·.take g.nFeatures))) ∧
    g.predict (.ofMat (r :: M)) = g.predict (.ofMat ((r :: M).map (·.take g.nFeatures))) := by
  have hr' : (r.take g.nFeatures).length = g.nFeatures := by simp [hr]
  have hi : g.rawPredictInit (.ofMat (r :: M)) =
      g.rawPredictInit (.ofMat ((r :: M).map (·.take g.nFeatures))) := by
    simp only [GB.rawPredictInit, List.map_cons, checkArray_ofMat_cons, py_ok_bind, width_ofMat_cons,
      hr, hr']
    rw [hinit (r :: M)]
    rfl
  have hcol : ∀ (sts : List (List (Arr F → Py (List F)))), (∀ st ∈ sts, st ∈ g.estimators) →
      ∀ k col, g.rawColumn (.ofMat (r :: M)) k sts col =
        g.rawColumn (.ofMat ((r :: M).map (·.take g.nFeatures))) k sts col := by
    intro sts
    induction sts with
    | nil => intro _ k col; rfl
    | cons st sts ih =>
      intro hsts k col
      simp only [GB.rawColumn]
      cases he : pyGet st (k : Int) with
      | error e => rfl
      | ok e =>
        simp only [py_ok_bind]
        rw [hst st (hsts st (by simp)) e (pyGet_ok_mem he) (r :: M)]
        congr 1
        funext preds
        congr 1
        funext col'
        exact ih (fun st hst => hsts st (by simp [hst])) k col'
  have hraw : g.rawPredict (.ofMat (r :: M)) =
      g.rawPredict (.ofMat ((r :: M).map (·.take g.nFeatures))) := by
    simp only [GB.rawPredict, hi, hcol g.estimators (fun _ h => h), len_ofMat, List.length_map]
  constructor
  · simp only [GB.predictProba, hraw]
  · simp only [GB.predict, GB.predictProba, hraw]

/-- **C64 is false** of gradient boosting beyond the first record, for every model that ignores
extra columns and answers some request of two records: appending a column to the second record
changes nothing. -/
theorem C64_gb_later_false (g : GB F C)
    (hinit : ∀ M, g.initProba (.ofMat M) = g.initProba (.ofMat (M.map (·.take g.nFeatures))))
    (hst : ∀ st ∈ g.estimators, ∀ e ∈ st, ∀ M, e (.ofMat M) = e (.ofMat (M.map (·.take g.nFeatures))))
    (r s : List F) (hr : r.length = g.nFeatures) (hs : s.length = g.nFeatures) (y : List C)
    (hy : g.predict (.ofMat [r, s]) = .ok y) (v : F) :
    g.predict (.ofMat [r, s ++ [v]]) = .ok y ∧ ¬ WidthChecked g.nFeatures g.predict := by
  have h : g.predict (.ofMat [r, s ++ [v]]) = .ok y := by
    rw [(C64_gb_later_ignored g hinit hst r hr [s ++ [v]]).2, ← hy]
    congr 2
    simp [← hr]
    rw [hr, ← hs, List.take_left']
    rfl
  refine ⟨h, fun hc => ?_⟩
  rw [hc _ (by simp) ⟨s ++ [v], by simp, by simp [hs]⟩] at h
  cases h

/-- **C64 is false** of multinomial naive Bayes, for every model: no request is refused for its
width before the scores are computed. -/
theorem C64_multinomial_false (m : DiscreteNB F C) (hf : m.featureLogProb.length = m.classes.length)
    (hp : m.classLogPrior.length = m.classes.length) (w : Nat) :
    ¬ WidthChecked w m.jllMultinomial := by
  intro h
  obtain ⟨j, hj, _⟩ := C64_multinomial_answers m hf hp [List.replicate (w + 1) (ofInt 0)]
  rw [h _ (by simp) ⟨List.replicate (w + 1) (ofInt 0), by simp, by simp⟩] at hj
  cases hj

/-- Non-vacuity: the truncation theorems on records that are too long. -/
example : stumpClf.predict (.ofMat [[.fin 0, .fin 7, .fin 1]]) =
    stumpClf.predict (.ofMat [[.fin 0, .fin 7]]) :=
  (C64_tree_extra_ignored stumpClf 2 C64_tree_false.1 [[.fin 0, .fin 7, .fin 1]]).1

example : (⟨[.fin 0], ["a"], [[.fin 2, .fin 3]]⟩ : DiscreteNB Ex String).jllMultinomial
    (.ofMat [[.fin 1]]) =
    (⟨[.fin 0], ["a"], [[.fin 2]]⟩ : DiscreteNB Ex String).jllMultinomial (.ofMat [[.fin 1]]) := by
  simpa using ((C64_discrete_bayes_truncates
    (⟨[.fin 0], ["a"], [[.fin 2, .fin 3]]⟩ : DiscreteNB Ex String) 2 (by simp [Rect])
    [[.fin 1]]).2 1 (by simp)).1

/-- Non-vacuity: a model on one feature with one stage, a stump without test, answers a second record
of width two. -/
example : ∃ y, (⟨["a", "b"], [[fun X => X.rows >>= fun rs => .ok (rs.map fun _ => .fin 1)]],
      fun X => X.rows >>= fun rs => .ok (rs.map fun _ => [.fin (1/2), .fin (1/2)]), .fin 1, 1,
      .binomial⟩ : GB Ex String).predict (.ofMat [[.fin 0], [.fin 0, .fin 1]]) = .ok y := by
  let g : GB Ex String := ⟨["a", "b"],
    [[fun X => X.rows >>= fun rs => .ok (rs.map fun _ => .fin 1)]],
    fun X => X.rows >>= fun rs => .ok (rs.map fun _ => [.fin (1/2), .fin (1/2)]), .fin 1, 1, .binomial⟩
  have hret := C15_raw_scores_additive g [[0], [0]]
    (by simp) (by intro r hr; simp at hr; subst hr; rfl) 1 rfl 2 (by simp [g])
    (fun _ _ => 1 / 2) (fun _ _ _ => 1) (by simp [g]) ⟨by simp [g, mat, List.range_succ], by
      intro st hst; simp [g] at hst; subst hst; rfl, by
      intro s hs c hc
      match s, hs, c, hc with
      | 0, _, 0, _ => simp [g, List.range_succ]⟩
  have hraw : g.rawPredict (.ofMat [[.fin 0], [.fin 0]]) =
      .ok ([[boosted (initScore .binomial (fun _ => 1 / 2) 0) 1 1 fun _ => 1],
     [boosted (initScore .binomial (fun _ => 1 / 2) 0) 1 1 fun _ => 1]].map fins) := hret
  clear hret
  obtain ⟨y, hy, _⟩ := C62_deviance_partial g 2 (.inr ⟨rfl, rfl⟩) (by norm_num) rfl _
    _ (by simp) (by intro r hr; simp at hr; subst hr; rfl) hraw
  exact ⟨y, (C64_gb_later_false g (fun M => by simp [g, Function.comp_def])
    (fun st hst e he M => by
      simp [g] at hst; subst hst; simp at he; subst he; simp [Function.comp_def])
    [.fin 0] [.fin 0] rfl rfl y hy (.fin 1)).1⟩

end PurePredict
