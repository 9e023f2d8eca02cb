import Verif.Lemmas.ClassOrderFit
import Verif.Lemmas.AlikeObject
import Verif.Lemmas.GB
/-
Compound classifiers with their classes in another order.
-/
namespace PurePredict
open Spec
variable {lib : String → TextLib} {encode : Str → List Nat} {w : Nat} {π : List Nat}

theorem Spec.Par.along {α β : Type} {R : α → β → Prop} {p : Py α} {q : Py β} (h : Par R p q) : Alongside R p q := by
  cases h with
  | fail => exact .fail
  | done h => exact .done h

/-! ### Pipelines -/

theorem pipe_reordered {e e' : Methods Ex} (h : SameChances w π e e') (l : List (String × Methods Ex)) (n : String) :
    SameChances w π (pipelineEst (l ++ [(n, e)])) (pipelineEst (l ++ [(n, e')])) := by
  have shape : ∀ x : Methods Ex, pipelineEst (l ++ [(n, x)]) = Pipeline.asEst ⟨(l.map fun s => (s.1, some s.2)) ++ [(n, some x)]⟩ :=
    fun x => by simp [pipelineEst]
  have fr : ∀ x : Methods Ex, (⟨(l.map fun s => (s.1, some s.2)) ++ [(n, some x)]⟩ : Pipeline (Data Ex) (List (PVal Ex)) (List (List Ex))).front =
      l.map fun s => (s.1, some s.2) := fun x => by simp [Pipeline.front]
  obtain ⟨⟨h1, h2⟩, h3, h4⟩ := h
  rw [shape, shape]
  constructor
  · simp only [Pipeline.asEst, delegated_last]
    cases he : e.predictProba with
    | none =>
      rw [h2 he]
      exact rowsReordered_none
    | some q =>
      obtain ⟨q', hq', hr⟩ := h1 q he
      rw [hq']
      refine ⟨fun t ht => ?_, fun e => nomatch e⟩
      cases ht
      refine ⟨_, rfl, fun X => ?_⟩
      simp only [Pipeline.predictProba, delegated_last, fr, he, hq', py_ok_bind]
      exact .after _ fun Y _ => hr Y
  · simp only [Pipeline.asEst, delegated_last]
    cases he : e.predictLogProba with
    | none =>
      rw [h4 he]
      exact rowsReordered_none
    | some q =>
      obtain ⟨q', hq', hr⟩ := h3 q he
      rw [hq']
      refine ⟨fun t ht => ?_, fun e => nomatch e⟩
      cases ht
      refine ⟨_, rfl, fun X => ?_⟩
      simp only [Pipeline.predictLogProba, delegated_last, fr, he, hq', py_ok_bind]
      exact .after _ fun Y _ => hr Y

/-! ### Ensembles -/

theorem runProba_reordered {e e' : Methods Ex} (h : SameChances w π e e') (X : Arr Ex) : Alongside (Rows w π) (e.runProba X) (e'.runProba X) := by
  unfold Est.runProba
  cases he : e.predictProba with
  | none => rw [h.1.2 he]; exact .fail
  | some q =>
    obtain ⟨q', hq', hX⟩ := h.1.1 q he
    rw [hq']
    exact hX _

theorem ensemble_reordered (hp : π.Perm (List.range w)) {es es' : List (Methods Ex)} (fs : Option (List (List Int))) (cs cs' : List (PVal Ex))
    (h : List.Forall₂ (SameChances w π) es es') : SameChances w π (ensembleEst fs cs es) (ensembleEst fs cs' es') := by
  unfold ensembleEst
  generalize hb : (⟨fs, cs, es.map fun m => ⟨m.runProba⟩⟩ : Bagging Ex (PVal Ex)) = b
  generalize hb' : (⟨fs, cs', es'.map fun m => ⟨m.runProba⟩⟩ : Bagging Ex (PVal Ex)) = b'
  have hm : ∀ X (i : Nat), Alongside (Rows w π) (b.memberProba X i) (b'.memberProba X i) := by
    intro X i
    subst hb hb'
    unfold Bagging.memberProba
    refine Alongside.bind (R := fun m m' => ∀ X, Alongside (Rows w π) (m.predictProba X) (m'.predictProba X)) ?_ fun m m' hmm => ?_
    · exact pyGet_along (moved_map h fun e e' he => by exact runProba_reordered he) _
    · exact .after _ fun _ _ => .after _ fun Y _ => hmm Y
  have hn : b'.estimators.length = b.estimators.length := by subst hb hb'; simp [h.length_eq]
  have hacc : ∀ X (l : List Nat) (P Q : List (List Ex)), Rows w π P Q → Alongside (Rows w π) (b.accumulate X l P) (b'.accumulate X l Q) := by
    intro X l
    induction l with
    | nil => exact fun P Q h => .done h
    | cons i l ih =>
      intro P Q hPQ
      unfold Bagging.accumulate
      exact (hm X i).bind fun p q hpq => (operate2d_rows hp hPQ hpq _).bind fun s s' hs => ih s s' hs
  have hpp : ∀ X, Alongside (Rows w π) (b.predictProba X) (b'.predictProba X) := by
    intro X
    unfold Bagging.predictProba
    rw [hn]
    exact (hm X 0).bind fun p q hpq => (hacc X _ p q hpq).bind fun s s' hs => apply2d_rows hp hs _
  exact classifier_reordered hpp fun X => (hpp X).bind fun P Q hPQ => apply2d_rows hp hPQ _

/-! ### Boosting -/

theorem rawColumn_reordered {g g' : GB Ex (PVal Ex)} (hlr : g'.learningRate = g.learningRate) (X : Arr Ex) {j k : Nat} (hjk : π[j]? = some k)
    {sts sts' : List (List (Arr Ex → Py (List Ex)))} (h : List.Forall₂ (Rearranged w π) sts sts') (c : List Ex) :
    g'.rawColumn X j sts' c = g.rawColumn X k sts c := by
  induction h generalizing c with
  | nil => rfl
  | cons h _ ih =>
    unfold GB.rawColumn
    simp only [pyGet_reordered h hjk, hlr, ih]

theorem multinomial_proba (hp : π.Perm (List.range w)) {R S : List (List Ex)} (h : Rows w π R S) :
    Alongside (Rows w π) ((Loss.multinomial w).rawToProba R) ((Loss.multinomial w).rawToProba S) := by
  unfold Loss.rawToProba
  refine (apply2d_rows hp h _).bind fun A B hAB => ?_
  have hs : applyAxis2d (.ofMat B) (fun a => .ok (pySum a)) = applyAxis2d (.ofMat A) fun a => (.ok (pySum a) : Py Ex) := by
    rw [applyAxis2d_ofMat, applyAxis2d_ofMat]
    exact (mapM_eq_of hAB fun x y hxy => by rw [sum_reordered hp hxy]).symm
  rw [hs]
  refine .after _ fun sums _ => .after _ fun lse _ => ?_
  refine Alongside.mapM (R := fun a b => Rearranged w π a.1 b.1 ∧ b.2 = a.2) ?_ fun a b hab => ?_
  · rename_i hl1 hl2
    clear hAB hs hl2
    induction h generalizing lse with
    | nil => simp
    | cons h _ ih =>
      cases lse with
      | nil => simp
      | cons x lse => exact .cons ⟨h, rfl⟩ (ih lse)
  · refine mapM_range_reordered hp _ _ fun j i hij => ?_
    rw [pyGet_reordered hab.1 hij, hab.2]

theorem boosting_reordered (hp : π.Perm (List.range w)) (cs cs' : List (PVal Ex)) {stages stages' : List (List (Methods Ex))} {init init' : Methods Ex} (lr : Ex) (nf : Nat)
    (hs : List.Forall₂ (Rearranged w π) stages stages') (hi : SameChances w π init init') :
    SameChances w π (boostingEst cs stages init (.multinomial w) lr nf) (boostingEst cs' stages' init' (.multinomial w) lr nf) := by
  unfold boostingEst
  generalize hg : (⟨cs, stages.map fun st => st.map fun m => m.runNumbers, init.runProba, lr, nf, .multinomial w⟩ : GB Ex (PVal Ex)) = g
  generalize hg' : (⟨cs', stages'.map fun st => st.map fun m => m.runNumbers, init'.runProba, lr, nf, .multinomial w⟩ : GB Ex (PVal Ex)) = g'
  have hF : List.Forall₂ (Rearranged w π) g.estimators g'.estimators := by
    subst hg hg'
    exact moved_map hs fun st st' h => h.map _
  have e2 : g.loss = .multinomial w := by subst hg; rfl
  have e2' : g'.loss = .multinomial w := by subst hg'; rfl
  have e3 : g'.learningRate = g.learningRate := by subst hg hg'; rfl
  have e4 : g'.nFeatures = g.nFeatures := by subst hg hg'; rfl
  have hinit : ∀ X, Alongside (Rows w π) (g.rawPredictInit X) (g'.rawPredictInit X) := by
    intro X
    unfold GB.rawPredictInit
    refine .after _ fun X _ => .after _ fun wd _ => ?_
    cases wd with
    | none => exact .fail
    | some n =>
      simp only [e4, e2, e2']
      split
      · exact .fail
      · refine Alongside.bind (R := Rows w π) ?_ fun P Q hPQ => apply2d_rows hp hPQ _
        subst hg hg'
        exact runProba_reordered hi X
  have hpp : ∀ X, Alongside (Rows w π) (g.predictProba X) (g'.predictProba X) := by
    intro X
    unfold GB.predictProba
    rw [e2, e2']
    refine Alongside.bind (R := Rows w π) ?_ fun R S h => multinomial_proba hp h
    unfold GB.rawPredict
    refine (hinit X).bind fun I J hIJ => (pyGet_along hF 0).bind fun st st' hst => ?_
    rw [hst.1, hst.len hp]
    refine Alongside.bind (R := Rearranged w π) (mapM_range_reordered hp _ _ fun j i hij => ?_) fun A B hAB => ?_
    · congr 1
      funext n
      exact rawColumn_reordered e3 X hij hF _
    · rw [transpose_ofMat, transpose_ofMat]
      exact operate2d_rows hp hIJ (zipStar_reordered hp hAB) _
  exact classifier_reordered hpp fun X => (hpp X).bind fun P Q hPQ => apply2d_rows hp hPQ _

/-! ### Boosting, two classes -/

theorem mul_comm_ex (a b : Ex) : a *ₚ b = b *ₚ a := by
  show XR.mul a b = XR.mul b a
  cases a <;> cases b <;> simp only [XR.mul]
  rw [mul_comm]

theorem opp_map {u v : List Ex} (h : List.Forall₂ Opp u v) : v = u.map Arith.neg := by
  induction h with
  | nil => rfl
  | cons h _ ih => rw [List.map_cons, ih, show _ = _ from h]

theorem opp_zero : Opp (ofInt 0) (ofInt 0) := by
  show _ = _
  rw [XR.ofInt_exact]
  show (XR.fin _ : Ex) = XR.fin _
  simp

theorem rawColumn_opposite {g g' : GB Ex (PVal Ex)} (hlr : g'.learningRate = g.learningRate) (X : Arr Ex) (k : Nat)
    {sts sts' : List (List (Arr Ex → Py (List Ex)))} (h : List.Forall₂ (List.Forall₂ fun f f' => Alongside (List.Forall₂ Opp) (f X) (f' X)) sts sts')
    {c c' : List Ex} (hc : List.Forall₂ Opp c c') : Alongside (List.Forall₂ Opp) (g.rawColumn X k sts c) (g'.rawColumn X k sts' c') := by
  induction h generalizing c c' with
  | nil => exact .done hc
  | cons h _ ih =>
    unfold GB.rawColumn
    refine (pyGet_along h k).bind fun f f' hf => hf.bind fun p q hpq => ?_
    rw [hpq.length_eq, hlr]
    refine Alongside.bind (R := List.Forall₂ Opp) (.mapM (forall₂_same (R := Eq) (fun _ => rfl) _) fun i _ e => ?_) fun c c' hc => ih hc
    cases e
    refine (pyGet_along hc i).bind fun a b hab => (pyGet_along hpq i).bind fun x y hxy => .done ?_
    show _ = _
    rw [neg_add_ex, show b = _ from hab, show y = _ from hxy, mul_comm_ex, ← neg_mul_ex, mul_comm_ex]

theorem clip_fin {a lo hi : ℝ} : clip (.fin a : Ex) (.fin lo) (.fin hi) = .fin (if a < lo then lo else if hi < a then hi else a) := by
  unfold clip
  simp only [XR.lt_fin]
  by_cases h : a < lo
  · simp [h]
  · by_cases h' : hi < a
    · simp [h, h']
    · simp [h, h']

theorem logit_opposite (p : ℝ) : ∃ z : ℝ, ∃ x y : ℝ, clip (.fin p : Ex) gbEps (ofInt 1 -ₚ gbEps) = .fin x ∧ clip (.fin (1 - p) : Ex) gbEps (ofInt 1 -ₚ gbEps) = .fin y ∧
    ((.fin x /ₚ (ofInt 1 -ₚ .fin x) : Py Ex) >>= safeLog) = .ok (.fin z) ∧ ((.fin y /ₚ (ofInt 1 -ₚ .fin y) : Py Ex) >>= safeLog) = .ok (.fin (-z)) := by
  obtain ⟨e, he, h0, h1⟩ : ∃ e : ℝ, (gbEps : Ex) = .fin e ∧ 0 < e ∧ e < 1 / 2 := ⟨_, XR.ofRat_exact _ _, by norm_num, by norm_num⟩
  have h1' : (ofInt 1 : Ex) = .fin 1 := by rw [XR.ofInt_exact]; norm_num
  rw [he, h1', XR.sub_exact, clip_fin, clip_fin]
  obtain ⟨x, hx, hx0, hx1, hy⟩ : ∃ x : ℝ, (if p < e then e else if 1 - e < p then 1 - e else p) = x ∧ 0 < x ∧ x < 1 ∧
      (if 1 - p < e then e else if 1 - e < 1 - p then 1 - e else 1 - p) = 1 - x := by
    refine ⟨_, rfl, ?_⟩
    split_ifs <;> refine ⟨?_, ?_, ?_⟩ <;> linarith
  rw [hx, hy]
  have log : ∀ u : ℝ, 0 < u → u < 1 → ((.fin u /ₚ (.fin 1 -ₚ .fin u) : Py Ex) >>= safeLog) = .ok (.fin (Real.log (u / (1 - u)))) := by
    intro u h h'
    have hq : 0 < u / (1 - u) := div_pos h (by linarith)
    rw [XR.sub_exact, XR.div_exact _ (by linarith), py_ok_bind]
    exact safeLog_pos hq
  refine ⟨Real.log (x / (1 - x)), x, 1 - x, rfl, rfl, log x hx0 hx1, ?_⟩
  rw [log (1 - x) (by linarith) (by linarith), ← Real.log_inv]
  congr 3
  rw [inv_div]
  congr 1
  ring

theorem binomial_proba {R S : List (List Ex)} (h : List.Forall₂ (List.Forall₂ Opp) R S) :
    Alongside (Rows 2 [1, 0]) (Loss.binomial.rawToProba R) (Loss.binomial.rawToProba S) := by
  unfold Loss.rawToProba
  have hw : (Arr.ofMat S).width = (Arr.ofMat R).width := by
    cases h with
    | nil => rfl
    | cons h _ => rw [width_ofMat_cons, width_ofMat_cons, h.length_eq]
  rw [hw]
  refine .after _ fun wd _ => ?_
  split
  · refine (ravel_alike h).along.bind fun u v huv => ?_
    rw [opp_map huv, mapM_map']
    refine Alongside.bind (R := List.Forall₂ fun a b => ofInt 1 -ₚ b = a ∧ b = ofInt 1 -ₚ a) (.mapM (forall₂_same (R := Eq) (fun _ => rfl) u) fun x _ e => ?_) fun p q hpq => ?_
    · cases e
      exact expit_neg x
    · rw [Loss.transpose_pair, Loss.transpose_pair]
      refine .done ?_
      induction hpq with
      | nil => exact .nil
      | cons h _ ih => exact .cons (swapped_pair h.1 h.2) ih
  · exact .fail

theorem boosting_swapped (cs cs' : List (PVal Ex)) {stages stages' : List (List (Methods Ex))} {init init' : Methods Ex} (lr : Ex) (nf : Nat) {p : ℝ}
    (hs : ∀ X, List.Forall₂ (List.Forall₂ fun e e' => Alongside (List.Forall₂ Opp) (Est.runNumbers e X) (Est.runNumbers e' X)) stages stages')
    (hi : ∀ X, init.runProba X = (⟨[.fin (1 - p), .fin p]⟩ : Dummy Ex).predictProba X) (hi' : ∀ X, init'.runProba X = (⟨[.fin p, .fin (1 - p)]⟩ : Dummy Ex).predictProba X) :
    SameChances 2 [1, 0] (boostingEst cs stages init .binomial lr nf) (boostingEst cs' stages' init' .binomial lr nf) := by
  unfold boostingEst
  generalize hg : (⟨cs, stages.map fun st => st.map fun m => m.runNumbers, init.runProba, lr, nf, .binomial⟩ : GB Ex (PVal Ex)) = g
  generalize hg' : (⟨cs', stages'.map fun st => st.map fun m => m.runNumbers, init'.runProba, lr, nf, .binomial⟩ : GB Ex (PVal Ex)) = g'
  have hF : ∀ X, List.Forall₂ (List.Forall₂ fun f f' => Alongside (List.Forall₂ Opp) (f X) (f' X)) g.estimators g'.estimators := by
    subst hg hg'
    exact fun X => moved_map (hs X) fun st st' h => moved_map h fun e e' he => he
  have e2 : g.loss = .binomial := by subst hg; rfl
  have e2' : g'.loss = .binomial := by subst hg'; rfl
  have e3 : g'.learningRate = g.learningRate := by subst hg hg'; rfl
  have e4 : g'.nFeatures = g.nFeatures := by subst hg hg'; rfl
  have e5 : ∀ X, g.initProba X = (⟨[.fin (1 - p), .fin p]⟩ : Dummy Ex).predictProba X := by subst hg; exact hi
  have e5' : ∀ X, g'.initProba X = (⟨[.fin p, .fin (1 - p)]⟩ : Dummy Ex).predictProba X := by subst hg'; exact hi'
  have hinit : ∀ X, Alongside (List.Forall₂ (List.Forall₂ Opp)) (g.rawPredictInit X) (g'.rawPredictInit X) := by
    intro X
    unfold GB.rawPredictInit
    refine .after _ fun X _ => .after _ fun wd _ => ?_
    cases wd with
    | none => exact .fail
    | some n =>
      simp only [e4, e2, e2', e5, e5']
      split
      · exact .fail
      · unfold Dummy.predictProba
        simp only [bind_assoc]
        refine .after _ fun n _ => ?_
        simp only [py_pure, py_ok_bind]
        obtain ⟨z, x, y, h1, h2, h3, h4⟩ := logit_opposite p
        unfold Loss.initRaw
        refine .mapM (R := fun a b => a = [.fin (1 - p), .fin p] ∧ b = [.fin p, .fin (1 - p)]) ?_ fun a b hab => ?_
        · exact List.forall₂_iff_get.2 ⟨by simp, fun i h _ => by simp⟩
        · obtain ⟨rfl, rfl⟩ := hab
          have get : ∀ a b : Ex, pyGet [a, b] 1 = .ok b := fun a b => rfl
          simp only [get, py_ok_bind, h1, h2]
          have : ∀ u : Ex, ((u /ₚ (ofInt 1 -ₚ u) : Py Ex) >>= fun a => safeLog a >>= fun a => (pure [a] : Py (List Ex))) =
              ((u /ₚ (ofInt 1 -ₚ u) : Py Ex)   >>= safeLog) >>= fun a => pure [a] := fun u => by rw [bind_assoc]
          rw [this, this, h3, h4]
          exact .done (.cons rfl .nil)
  have hpp : ∀ X, Alongside (Rows 2 [1, 0]) (g.predictProba X) (g'.predictProba X) := by
    intro X
    unfold GB.predictProba
    rw [e2, e2']
    refine Alongside.bind (R := List.Forall₂ (List.Forall₂ Opp)) ?_ fun R S h => binomial_proba h
    unfold GB.rawPredict
    refine (hinit X).bind fun I J hIJ => (pyGet_along (hF X) 0).bind fun st st' hst => ?_
    rw [hst.length_eq]
    refine Alongside.bind (R := List.Forall₂ (List.Forall₂ Opp)) (.mapM (forall₂_same (R := Eq) (fun _ => rfl) _) fun k _ e => ?_) fun A B hAB => ?_
    · cases e
      refine .after _ fun n _ => rawColumn_opposite e3 X k (hF X) ?_
      exact List.forall₂_iff_get.2 ⟨by simp, fun i h _ => by simpa using opp_zero⟩
    · rw [transpose_ofMat, transpose_ofMat]
      exact (operate2d_alike (fun a b hab c d hcd => by show _ = _; rw [neg_add_ex, show b = _ from hab, show d = _ from hcd]) hIJ (zipStar_alike hAB)).along
  exact classifier_reordered hpp fun X => (hpp X).bind fun P Q hPQ => apply2d_rows perm_swap hPQ _

/-! ### Whole objects -/

theorem regressor_numbers {F : Type} [Arith F] (t : Tree F (PVal F)) (X : Arr F) : ((Single.treeRegressor t).est lib encode).runNumbers X = t.predictReg X := by
  have num : ∀ l : List F, (l.map PVal.float).mapM PVal.num = (.ok l : Py (List F)) := by
    intro l
    rw [mapM_map']
    induction l with
    | nil => rfl
    | cons a l ih => rw [mapM_cons', ih]; rfl
  show ((t.predictReg X >>= fun l => (.ok (l.map PVal.float) : Py (List (PVal F)))) >>= fun l => l.mapM PVal.num) = _
  rw [bind_assoc]
  simp only [py_ok_bind, num]
  cases t.predictReg X <;> rfl

theorem opposite_numbers {t t' : Tree Ex (PVal Ex)} (h : OppositeTree t t') (X : Arr Ex) :
    Alongside (List.Forall₂ Opp) (((Single.treeRegressor t).est lib encode).runNumbers X) (((Single.treeRegressor t').est lib encode).runNumbers X) := by
  rw [regressor_numbers, regressor_numbers]
  exact opposite_reg h X

theorem rearranged_with {α β : Type} {R : α → β → Prop} {x y : List α} {u : List β} (h : Rearranged w π x y) (hx : List.Forall₂ R x u) :
    ∃ v, List.Forall₂ R y v ∧ Rearranged w π u v := by
  obtain ⟨hl, h⟩ := h
  have : ∃ v, List.Forall₂ R y v ∧ List.Forall₂ (fun i b => u[i]? = some b) π v := by
    clear hl
    induction h with
    | nil => exact ⟨[], .nil, .nil⟩
    | cons h _ ih =>
      obtain ⟨v, h1, h2⟩ := ih
      obtain ⟨hi, rfl⟩ := List.getElem?_eq_some_iff.1 h
      exact ⟨_, .cons (forall₂_get hx hi (hx.length_eq ▸ hi)) h1, .cons (List.getElem?_eq_getElem (hx.length_eq ▸ hi)) h2⟩
  obtain ⟨v, h1, h2⟩ := this
  exact ⟨v, h1, hx.length_eq ▸ hl, h2⟩

theorem stages_with {α β : Type} {R : α → β → Prop} {x y : List (List α)} {u : List (List β)} (h : List.Forall₂ (Rearranged w π) x y)
    (hx : List.Forall₂ (List.Forall₂ R) x u) : ∃ v, List.Forall₂ (List.Forall₂ R) y v ∧ List.Forall₂ (Rearranged w π) u v := by
  induction h generalizing u with
  | nil => cases hx; exact ⟨[], .nil, .nil⟩
  | cons h _ ih =>
    cases hx with
    | cons hx hxs =>
      obtain ⟨v, h1, h2⟩ := rearranged_with h hx
      obtain ⟨vs, h3, h4⟩ := ih hxs
      exact ⟨_, .cons h1 h3, .cons h2 h4⟩

theorem leaf_behaves {F : Type} [Arith F] {c v} {a : Attrs F} {s : Single F} {f : Methods F} (hl : Learned c a s) (hb : Behaves lib encode (.leaf c v a) f) :
    f = s.est lib encode ∧ ReadableVersion v := by
  cases hb with
  | single hv hl1 => exact ⟨C89_behaviour_unique (.single hv hl1) (.single (lib := lib) (encode := encode) hv hl), hv⟩

theorem opposite_stages {stages stages' : List (List (SkObj (Attrs Ex) (PVal Ex) Ex))} {es : List (List (Methods Ex))}
    (h : List.Forall₂ (fun st st' => ∃ o o', st = [o] ∧ st' = [o'] ∧ Opposite o o') stages stages') (hb : List.Forall₂ (List.Forall₂ (Behaves lib encode)) stages es) :
    ∃ es', List.Forall₂ (List.Forall₂ (Behaves lib encode)) stages' es' ∧
      ∀ X, List.Forall₂ (List.Forall₂ fun e e' => Alongside (List.Forall₂ Opp) (Est.runNumbers e X) (Est.runNumbers e' X)) es es' := by
  induction h generalizing es with
  | nil => cases hb; exact ⟨[], .nil, fun _ => .nil⟩
  | cons h _ ih =>
    cases hb with
    | cons hb hbs =>
      obtain ⟨o, o', rfl, rfl, ho⟩ := h
      obtain ⟨es', h1, h2⟩ := ih hbs
      cases ho with
      | mk l1 l2 ht =>
        cases hb with
        | cons hb hn =>
          cases hn
          obtain ⟨rfl, hv⟩ := leaf_behaves l1 hb
          exact ⟨_, .cons (.cons (.single hv l2) .nil) h1, fun X => .cons (.cons (opposite_numbers ht X) .nil) (h2 X)⟩

theorem behaves_reclassed (hp : π.Perm (List.range w)) {o o' : SkObj (Attrs Ex) (PVal Ex) Ex} (h : Reclass w π o o') {f : Methods Ex} (hb : Behaves lib encode o f) :
    ∃ f', Behaves lib encode o' f' ∧ SameChances w π f f' := by
  induction h generalizing f with
  | fit h1 h2 hs =>
    obtain ⟨rfl, hv⟩ := leaf_behaves h1 hb
    exact ⟨_, .single hv h2, single_reordered hp hs⟩
  | @pipeline v steps n o o' _ ih =>
    cases hb with
    | @pipeline _ _ es hv he =>
      rw [List.map_append] at he
      obtain ⟨zs, z, rfl, g1, g2⟩ := forall₂_snoc he
      obtain ⟨z', h1, h2⟩ := ih g2
      refine ⟨_, .pipeline (es := zs ++ [z']) hv ?_, ?_⟩
      · rw [List.map_append]
        exact forall₂_append_one g1 h1
      · have hl : (steps.map Prod.fst).length = zs.length := by rw [← g1.length_eq]; simp
        have e : ∀ x : SkObj (Attrs Ex) (PVal Ex) Ex, ∀ y : Methods Ex, ((steps ++ [(n, x)]).map Prod.fst).zip (zs ++ [y]) = (steps.map Prod.fst).zip zs ++ [(n, y)] := by
          intro x y
          rw [List.map_append, List.zip_append hl]
          rfl
        rw [e, e]
        exact pipe_reordered h2 _ n
  | @ensemble k v fs cs cs' ms ms' hcs hlen _ ih =>
    cases hb with
    | @ensemble _ _ _ _ _ es hv hpl he =>
      obtain ⟨es', h1, h2⟩ := behaves_both he hlen fun p hp f hf => ih p hp hf
      exact ⟨_, .ensemble hv (fun c hc => hpl c (hcs.mem hc)) h1, ensemble_reordered hp fs cs cs' h2⟩
  | @boosting v cs cs' stages stages' init init' args hw hcs hs _ ihi =>
    cases hb with
    | @boosting _ _ _ _ _ lr nf l es e hv hpl he h0 hl =>
      obtain ⟨es', h1, h2⟩ := stages_with hs he
      obtain ⟨e', h3, h4⟩ := ihi h0
      have hw' : lossOf "deviance" w = some (.multinomial w) := by simp [lossOf]; omega
      rw [hcs.1, hw'] at hl
      cases hl
      exact ⟨_, .boosting hv (fun c hc => hpl c (hcs.mem hc)) h1 h3 (by rw [hcs.len hp, hw']), boosting_reordered hp cs cs' lr nf h2 h4⟩
  | @boosting2 v no yes stages stages' init init' args hw hπ hs hi =>
    subst hw hπ
    cases hb with
    | @boosting _ _ _ _ _ lr nf l es e hv hpl he h0 hl =>
      obtain ⟨es', h1, h2⟩ := opposite_stages hs he
      cases hi with
      | @mk _ _ _ _ p l1 l2 =>
        obtain ⟨rfl, hv'⟩ := leaf_behaves l1 h0
        have : l = .binomial := by simpa [lossOf] using hl.symm
        subst this
        refine ⟨_, .boosting hv (fun c hc => hpl c ?_) h1 (.single hv' l2) (by simpa using hl), boosting_swapped (p := p) _ _ lr nf h2 ?_ ?_⟩
        · simp at hc ⊢
          exact hc.symm
        · intro X; rfl
        · intro X; rfl

end PurePredict
