import Verif.Props.C66
import Verif.Props.C91
import Verif.Props.C06
import Verif.Spec.FittedBooster
/-
C98: from a fitted XGBClassifier with the table of its trees to the probabilities of the booster.
-/
namespace PurePredict
open Spec

section
variable {F : Type} [Arith F] (trunc : F → Py Int) (lib : String → TextLib) (encode : Str → List Nat)

/-- The converted object has the two methods of the converted booster. -/
theorem xgb_converted {e : Attrs F} {ob : String} {cs : List (PVal F)} {K n : Nat} {rows : List (FrameRow F)}
    (h : FittedXgb e ob cs K n rows) {m : Xgb F (PVal F)}
    (hm : Xgb.ofBooster ob "gbtree" cs K n (treeFrame rows) = .ok m) (v : Option (List Char)) (hv : ReadableVersion v) :
    ∃ r, convert (singles trunc initXgb) (.leaf "XGBClassifier" v e) = .ok r ∧ r.classes = .ok (.list cs) ∧
      r.methods lib encode = probabilist m.predict m.predictProba := by
  have hb : Behaves lib encode (.leaf "XGBClassifier" v e : SkObj (Attrs F) (PVal F) F) _ :=
    .single hv (.xgb h.objective h.booster h.labels h.classes h.estimators h.table hm)
  obtain ⟨r, hr, hmeth⟩ := C89_converted_behaves trunc lib encode _ _ hb
  obtain ⟨r', hr', hc⟩ := C91_classes trunc hb (cs := cs) (.leaf (by simp [predicting]) h.labels (by decide))
  rw [hr] at hr'
  cases hr'
  exact ⟨r, hr, hc, hmeth⟩

/-- **C98**, pipelines: a converted pipeline answers with its last step's answer to what its
earlier steps make of the request. -/
theorem C98_pipeline {v : Option (List Char)} (hv : ReadableVersion v)
    {front : List (String × SkObj (Attrs F) (PVal F) F)} {es : List (Methods F)}
    (hf : List.Forall₂ (fun s f => Behaves lib encode s.2 f) front es) (n : String) {b : SkObj (Attrs F) (PVal F) F}
    {g : Methods F} (hb : Behaves lib encode b g) {p : Data F → Py (List (PVal F))} (hp : g.predict = some p)
    {pp : Data F → Py (List (List F))} (hpp : g.predictProba = some pp) :
    ∃ r q qq, convert (singles trunc initXgb) (.pipeline v (front ++ [(n, b)])) = .ok r ∧
      (r.methods lib encode).predict = some q ∧ (r.methods lib encode).predictProba = some qq ∧
      ∀ X Z, Pipeline.applyAll (((front.map Prod.fst).zip es).map fun s => (s.1, some s.2)) X = .ok Z →
        q X = p Z ∧ qq X = pp Z := by
  have hs : List.Forall₂ (Behaves lib encode) ((front ++ [(n, b)]).map Prod.snd) (es ++ [g]) := by
    rw [List.map_append]
    refine List.rel_append (List.forall₂_map_left_iff.2 hf) (.cons hb .nil)
  obtain ⟨r, hr, hmeth⟩ := C89_converted_behaves trunc lib encode _ _ (.pipeline hv hs)
  have hlen : front.length = es.length := hf.length_eq
  have hz : ((front ++ [(n, b)]).map Prod.fst).zip (es ++ [g]) = (front.map Prod.fst).zip es ++ [(n, g)] := by
    rw [List.map_append, List.zip_append (by simpa using hlen)]
    rfl
  rw [hz] at hmeth
  have hl : (((front.map Prod.fst).zip es ++ [(n, g)]).map fun s => (s.1, some s.2)).getLast? = some (n, some g) := by
    simp
  have hd1 : (⟨((front.map Prod.fst).zip es ++ [(n, g)]).map fun s => (s.1, some s.2)⟩ :
      Pipeline (Data F) (List (PVal F)) (List (List F))).delegated Est.predict = .ok p := by
    simp only [Pipeline.delegated, Pipeline.finalEstimator, hl, py_ok_bind, hp, py_pure]
  have hd2 : (⟨((front.map Prod.fst).zip es ++ [(n, g)]).map fun s => (s.1, some s.2)⟩ :
      Pipeline (Data F) (List (PVal F)) (List (List F))).delegated Est.predictProba = .ok pp := by
    simp only [Pipeline.delegated, Pipeline.finalEstimator, hl, py_ok_bind, hpp, py_pure]
  refine ⟨r, fun X => Pipeline.predict ⟨((front.map Prod.fst).zip es ++ [(n, g)]).map fun s => (s.1, some s.2)⟩ X,
    fun X => Pipeline.predictProba ⟨((front.map Prod.fst).zip es ++ [(n, g)]).map fun s => (s.1, some s.2)⟩ X, hr, ?_, ?_, ?_⟩
  · rw [hmeth]
    simp only [pipelineEst, Pipeline.asEst, hd1]
  · rw [hmeth]
    simp only [pipelineEst, Pipeline.asEst, hd2]
  · intro X Z hZ
    have hfr : Pipeline.applyAll ((((front.map Prod.fst).zip es ++ [(n, g)]).map fun s => (s.1, some s.2)).dropLast) X = .ok Z := by
      rw [List.map_append, List.map_singleton, List.dropLast_concat]
      exact hZ
    constructor
    · simp only [Pipeline.predict, hd1, py_ok_bind, Pipeline.front, hfr]
    · simp only [Pipeline.predictProba, hd2, py_ok_bind, Pipeline.front, hfr]

theorem eqStr_false {x : PVal F} {s : String} (h : ¬ IsText x s) : x.eqStr s = false := by
  unfold IsText at h
  cases x with
  | str t => simp only [PVal.eqStr, beq_eq_false_iff_ne, ne_eq]; rintro rfl; exact h (.inl rfl)
  | npStr t => simp only [PVal.eqStr, beq_eq_false_iff_ne, ne_eq]; rintro rfl; exact h (.inr rfl)
  | _ => rfl

/-- **C98**, guards: an XGBClassifier with another objective or another booster is refused with ValueError. -/
theorem C98_refused {e : Attrs F} {ob bo : PVal F} (h1 : HasAttr e "objective" ob) (h2 : HasAttr e "booster" bo)
    (h : (¬ IsText ob "binary:logistic" ∧ ¬ IsText ob "multi:softprob") ∨ ¬ IsText bo "gbtree") (v : Option (List Char)) :
    convert (singles trunc initXgb) (.leaf "XGBClassifier" v e : SkObj (Attrs F) (PVal F) F) = .error .valueError := by
  have hi : initXgb (⟨"XGBClassifier", v, e⟩ : SkFitted F) = .error .valueError := by
    unfold HasAttr at h1 h2
    unfold initXgb
    simp only [Fitted.get, Dict.get?, h1, h2, py_ok_bind]
    rcases h with ⟨h3, h4⟩ | h3
    · simp only [eqStr_false h3, eqStr_false h4, Bool.or_self, Bool.not_false, if_true]
    · simp only [eqStr_false h3, Bool.not_false, if_true]
      split <;> rfl
  rw [convert, C43_supported _ _ _ (m := "pure_sklearn.xgboost") ⟨["XGBClassifier"], by simp [exports], by simp⟩]
  unfold singles
  simp only
  rw [xgb_apart trunc]
  simp only [hi]
  rfl

/-- **C98 is false** of a softmax booster on two classes: the object is converted, and every request to
`predict_proba` and to `predict` raises TypeError. -/
theorem C98_two_class_softprob_false {e : Attrs F} {cs : List (PVal F)} {n : Nat} {rows : List (FrameRow F)}
    (h : FittedXgb e "multi:softprob" cs 2 n rows) (hn : 0 < n) (hpr : ∀ t < n, (treeFrame rows t).Printed t)
    (v : Option (List Char)) (hv : ReadableVersion v) :
    ∃ r p pp, convert (singles trunc initXgb) (.leaf "XGBClassifier" v e) = .ok r ∧
      (r.methods lib encode).predict = some p ∧ (r.methods lib encode).predictProba = some pp ∧
      ∀ M : List (List F), M ≠ [] → p (.arr (.ofMat M)) = .error .typeError ∧ pp (.arr (.ofMat M)) = .error .typeError := by
  obtain ⟨m, hm, hall⟩ := C66_two_class_softprob_false (treeFrame rows) n hn hpr cs
  obtain ⟨r, hr, -, hmeth⟩ := xgb_converted trunc lib encode h hm v hv
  refine ⟨r, _, _, hr, by rw [hmeth]; rfl, by rw [hmeth]; rfl, fun M hM => ⟨(hall M hM).2, (hall M hM).1⟩⟩

theorem treeFrame_missing {rows : List (FrameRow F)} {k : Nat} (h : ∀ r ∈ rows, r.tree < k) {t : Nat} (ht : k ≤ t) :
    treeFrame rows t = XgbFrame.empty := by
  have : (rows.filter fun r => r.tree == t) = [] := by
    rw [List.filter_eq_nil_iff]
    intro r hr
    have := h r hr
    simp only [beq_iff_eq]
    omega
  simp only [treeFrame, this]
  rfl

/-- **C98 is false** after early stopping: the table has `k` trees, fewer than `n_estimators`.  The object is
converted, and every request to `predict_proba` raises: IndexError if the existing trees answer it. -/
theorem C98_early_stopping_false {e : Attrs F} {cs : List (PVal F)} {k n : Nat} {rows : List (FrameRow F)}
    (h : FittedXgb e "binary:logistic" cs 2 n rows) (hk : k < n) (hpr : ∀ t < k, (treeFrame rows t).Printed t)
    (hrows : ∀ r ∈ rows, r.tree < k) (v : Option (List Char)) (hv : ReadableVersion v) :
    ∃ r pp, convert (singles trunc initXgb) (.leaf "XGBClassifier" v e) = .ok r ∧
      (r.methods lib encode).predictProba = some pp ∧
      ∀ M : List (List F), M ≠ [] → ∃ x, pp (.arr (.ofMat M)) = .error x ∧
        ((∀ t < k, ∀ T : Tree F (PVal F), Tree.ofXgb (treeFrame rows t) = .ok T → ∃ y, T.predictReg (.ofMat M) = .ok y) →
          x = .indexError) := by
  obtain ⟨m, hm, hall⟩ := C66_early_stopping_false (treeFrame rows) k n hk hpr
    (fun t ht => treeFrame_missing hrows ht) cs
  obtain ⟨r, hr, -, hmeth⟩ := xgb_converted trunc lib encode h hm v hv
  exact ⟨r, _, hr, by rw [hmeth]; rfl, fun M hM => hall M hM⟩
end

section
variable (trunc : Ex → Py Int) (lib : String → TextLib) (encode : Str → List Nat)

theorem argmax_pair (a b : ℝ) : argmax (fins [a, b]) = .ok (if a < b then 1 else 0) :=
  argmax_fins.2 isFirstMax_pair

/-- **C98**, `binary:logistic` with the default `base_score`: a fitted XGBClassifier whose table prints the trees of
the booster is converted to an object that answers every dense request (columns below 10, no value equal to a
split, C17 and C59) with the booster's probabilities, and with the second label exactly when the margin is positive. -/
theorem C98_binary_partial (b : Booster Ex) (hK : b.perRound = 1) {e : Attrs Ex} {c0 c1 : PVal Ex}
    {rows : List (FrameRow Ex)} (h : FittedXgb e "binary:logistic" [c0, c1] 2 b.rounds rows)
    (hp : b.Printed (treeFrame rows)) (v : Option (List Char)) (hv : ReadableVersion v) :
    ∃ r p pp, convert (singles trunc initXgb) (.leaf "XGBClassifier" v e) = .ok r ∧ r.classes = .ok (.list [c0, c1]) ∧
      (r.methods lib encode).predict = some p ∧ (r.methods lib encode).predictProba = some pp ∧
      ∀ M : List (List Ex), M ≠ [] → b.Plain M → ∀ o : Nat → Nat → Nat → ℝ,
        (∀ t < b.rounds, ∀ c < b.perRound, ∀ i (hi : i < M.length),
          (b.tree t c).eval (fun f => M[i][f]?) = some (.fin (o t c i))) →
        pp (.arr (.ofMat M)) = .ok ((List.range M.length).map fun i =>
          fins [1 - sigmoid (logit (1 / 2) + b.margin (fun t c => o t c i) 0),
            sigmoid (logit (1 / 2) + b.margin (fun t c => o t c i) 0)]) ∧
        p (.arr (.ofMat M)) = .ok ((List.range M.length).map fun i =>
          if 0 < b.margin (fun t c => o t c i) 0 then c1 else c0) := by
  obtain ⟨m, hm, hcl, hall⟩ := C66_binary_partial b hK (treeFrame rows) hp [c0, c1]
  obtain ⟨r, hr, hc, hmeth⟩ := xgb_converted trunc lib encode h hm v hv
  refine ⟨r, _, _, hr, hc, by rw [hmeth]; rfl, by rw [hmeth]; rfl, fun M hM hpl o ho => ⟨hall M hM hpl o ho, ?_⟩⟩
  show m.predict (.ofMat M) = _
  unfold Xgb.predict
  rw [hall M hM hpl o ho, py_ok_bind, mapM_map', mapM_ok_map fun i _ => ?_]
  have hl : logit (1 / 2) = 0 := by unfold logit; norm_num
  simp only [argmax_pair, py_ok_bind, hl, zero_add, hcl]
  have : (1 - sigmoid (b.margin (fun t c => o t c i) 0) < sigmoid (b.margin (fun t c => o t c i) 0)) ↔
      0 < b.margin (fun t c => o t c i) 0 := by
    rw [← half_lt_sigmoid]
    constructor <;> intro h <;> linarith
  by_cases h0 : 0 < b.margin (fun t c => o t c i) 0
  · rw [if_pos (this.2 h0), if_pos h0]; rfl
  · rw [if_neg (fun h => h0 (this.1 h)), if_neg h0]; rfl

/-- **C98**, `multi:softprob`: the probabilities are the softmax of the booster's margins and the label is that of
the first largest margin. -/
theorem C98_multi_partial (b : Booster Ex) (hK : 0 < b.perRound) (hK2 : b.perRound ≠ 2) {e : Attrs Ex}
    {cs : List (PVal Ex)} (hcs : cs.length = b.perRound) {rows : List (FrameRow Ex)}
    (h : FittedXgb e "multi:softprob" cs b.perRound b.rounds rows) (hp : b.Printed (treeFrame rows))
    (v : Option (List Char)) (hv : ReadableVersion v) :
    ∃ r p pp, convert (singles trunc initXgb) (.leaf "XGBClassifier" v e) = .ok r ∧ r.classes = .ok (.list cs) ∧
      (r.methods lib encode).predict = some p ∧ (r.methods lib encode).predictProba = some pp ∧
      ∀ M : List (List Ex), M ≠ [] → b.Plain M → ∀ o : Nat → Nat → Nat → ℝ,
        (∀ t < b.rounds, ∀ c < b.perRound, ∀ i (hi : i < M.length),
          (b.tree t c).eval (fun f => M[i][f]?) = some (.fin (o t c i))) →
        (∀ β : ℝ, pp (.arr (.ofMat M)) = .ok ((List.range M.length).map fun i => fins ((List.range b.perRound).map
          (softmax b.perRound fun c => β + b.margin (fun t c => o t c i) c)))) ∧
        ∃ ls, p (.arr (.ofMat M)) = .ok ls ∧ List.Forall₂ (fun i l => ∃ c,
          IsFirstMax ((List.range b.perRound).map (b.margin fun t c => o t c i)) c ∧ cs[c]? = some l)
          (List.range M.length) ls := by
  obtain ⟨m, hm, hcl, hall⟩ := C66_multi_partial b hK hK2 (treeFrame rows) hp cs
  obtain ⟨r, hr, hc, hmeth⟩ := xgb_converted trunc lib encode h hm v hv
  refine ⟨r, _, _, hr, hc, by rw [hmeth]; rfl, by rw [hmeth]; rfl, fun M hM hpl o ho => ⟨hall M hM hpl o ho, ?_⟩⟩
  have h0 := hall M hM hpl o ho 0
  have h1 := C18_predict_is_argmax m (.ofMat M) ((List.range M.length).map fun i =>
    (List.range b.perRound).map (softmax b.perRound fun c => 0 + b.margin (fun t c => o t c i) c)) b.perRound
    (by rw [h0, List.map_map]; rfl) (by
      intro x hx
      obtain ⟨i, -, rfl⟩ := List.mem_map.1 hx
      simp) hK (by rw [hcl, hcs])
  obtain ⟨ls, hls, hf⟩ := h1
  refine ⟨ls, hls, ?_⟩
  rw [List.forall₂_map_left_iff] at hf
  refine hf.imp fun i l hi => ?_
  obtain ⟨c, h2, h3⟩ := hi
  rw [isFirstMax_softmax hK] at h2
  simp only [zero_add] at h2
  exact ⟨c, h2, by rw [← hcl]; exact h3⟩

/-- **C98 is false** for another `base_score`: it is lost in the conversion, and every probability differs. -/
theorem C98_base_score_false (b : Booster Ex) (hK : b.perRound = 1) {e : Attrs Ex} {cs : List (PVal Ex)}
    {rows : List (FrameRow Ex)} (h : FittedXgb e "binary:logistic" cs 2 b.rounds rows)
    (hp : b.Printed (treeFrame rows)) (q : ℝ) (hb : b.baseScore = .fin q) (h0 : 0 < q) (h1 : q < 1) (h2 : q ≠ 1 / 2)
    (v : Option (List Char)) (hv : ReadableVersion v) :
    ∃ r pp, convert (singles trunc initXgb) (.leaf "XGBClassifier" v e) = .ok r ∧
      (r.methods lib encode).predictProba = some pp ∧
      ∀ M : List (List Ex), M ≠ [] → b.Plain M → ∀ o : Nat → Nat → Nat → ℝ,
        (∀ t < b.rounds, ∀ c < b.perRound, ∀ i (hi : i < M.length),
          (b.tree t c).eval (fun f => M[i][f]?) = some (.fin (o t c i))) →
        ∃ s : Nat → ℝ, pp (.arr (.ofMat M)) = .ok ((List.range M.length).map fun i => fins [1 - s i, s i]) ∧
          ∀ i, s i ≠ sigmoid (logit q + b.margin (fun t c => o t c i) 0) := by
  obtain ⟨m, hm, hall⟩ := C66_base_score_false b hK (treeFrame rows) hp cs q hb h0 h1 h2
  obtain ⟨r, hr, -, hmeth⟩ := xgb_converted trunc lib encode h hm v hv
  exact ⟨r, _, hr, by rw [hmeth]; rfl, hall⟩

/-! ### Non-vacuity -/

/-- The table of a booster of one stump on column 3. -/
noncomputable def stumpRows : List (FrameRow Ex) :=
  [⟨0, featName 3, .fin (1 / 2), some (nodeId 0 1), some (nodeId 0 2), .fin 7⟩, ⟨0, "Leaf".toList, .nan, none, none, .fin 1⟩,
    ⟨0, "Leaf".toList, .nan, none, none, .fin 2⟩]

/-- The data frame, with numpy's NaN for absent nodes. -/
noncomputable def stumpTable : PVal Ex := .obj "DataFrame" none ["Tree", "Feature", "Split", "Gain", "Yes", "No"]
  [.list (stumpRows.map fun r => .int r.tree), vstrs (stumpRows.map (·.feature)), vnums (stumpRows.map (·.split)),
    vnums (stumpRows.map (·.gain)), .list [.str (String.ofList (nodeId 0 1)), .float .nan, .float .nan],
    .list [.str (String.ofList (nodeId 0 2)), .float .nan, .float .nan]]

noncomputable def stumpClassifier (ob : String) (n : Nat) : Attrs Ex :=
  [("objective", .str ob), ("booster", .str "gbtree"), ("classes_", .ndarray (.list [.str "no", .str "yes"])),
   ("n_classes_", .int 2), ("n_estimators", .int n),
   ("get_booster", .obj "Booster" none ["trees_to_dataframe"] [stumpTable])]

theorem stumpClassifier_fitted (ob : String) (n : Nat) :
    FittedXgb (stumpClassifier ob n) ob [.str "no", .str "yes"] 2 n stumpRows where
  objective := rfl
  booster := rfl
  labels := ⟨rfl, by
    intro c hc
    simp only [List.mem_cons, List.not_mem_nil, or_false] at hc
    rcases hc with rfl | rfl <;> exact .str _⟩
  classes := rfl
  estimators := rfl
  table := ⟨_, _, _, _, _, _, _, _, rfl, rfl, rfl, rfl, rfl, rfl,
    ⟨_, rfl, .cons rfl (.cons ⟨_, rfl⟩ (.cons ⟨_, rfl⟩ .nil))⟩, _, rfl, .cons rfl (.cons ⟨_, rfl⟩ (.cons ⟨_, rfl⟩ .nil))⟩

theorem stumpRows_frame : treeFrame stumpRows 0 = stumpFrame 3 := rfl

/-- The fitted object holds the booster of C66's example: the record of zeros goes left, its margin is 1, its label
"yes". -/
example (v : Option (List Char)) (hv : ReadableVersion v) :
    ∃ r p pp, convert (singles trunc initXgb) (.leaf "XGBClassifier" v (stumpClassifier "binary:logistic" 1)) = .ok r ∧
      (r.methods lib encode).predict = some p ∧ (r.methods lib encode).predictProba = some pp ∧
      pp (.arr (.ofMat [fins [0, 0, 0, 0]])) =
        .ok [fins [1 - sigmoid (logit (1 / 2) + 1), sigmoid (logit (1 / 2) + 1)]] ∧
      p (.arr (.ofMat [fins [0, 0, 0, 0]])) = .ok [.str "yes"] := by
  have hpr : (stumpBooster (1 / 2)).Printed (treeFrame stumpRows) := by
    intro t ht c hc
    have h := stumpBooster_printed (1 / 2) t ht c hc
    have ht : t < 1 := ht
    have hc : c < 1 := hc
    obtain rfl : t = 0 := by omega
    obtain rfl : c = 0 := by omega
    exact h
  obtain ⟨r, p, pp, hr, -, h1, h2, h⟩ := C98_binary_partial trunc lib encode (stumpBooster (1 / 2)) rfl
    (stumpClassifier_fitted _ _) hpr v hv
  refine ⟨r, p, pp, hr, h1, h2, ?_⟩
  have := h [fins [0, 0, 0, 0]] (by simp) (by
    intro e _ c _ s hs
    simp [stumpBooster, stump, XTree.splits] at hs
    subst hs
    refine ⟨by norm_num, ?_⟩
    intro r hr v hv
    simp at hr
    subst hr
    simp at hv
    subst hv
    simp) (fun _ _ _ => 1) (by
    intro e _ c _ i hi
    have : i = 0 := by simpa using hi
    subst this
    simp [stumpBooster, stump, XTree.eval, fins])
  simpa [Booster.margin, stumpBooster] using this

/-- The same classifier asked for two rounds, and with the softmax objective: every request raises. -/
example (v : Option (List Char)) (hv : ReadableVersion v) (M : List (List Ex)) (hM : M ≠ []) :
    (∃ r pp, convert (singles trunc initXgb) (.leaf "XGBClassifier" v (stumpClassifier "binary:logistic" 2)) = .ok r ∧
      (r.methods lib encode).predictProba = some pp ∧ ∃ x, pp (.arr (.ofMat M)) = .error x) ∧
    ∃ r pp, convert (singles trunc initXgb) (.leaf "XGBClassifier" v (stumpClassifier "multi:softprob" 1)) = .ok r ∧
      (r.methods lib encode).predictProba = some pp ∧ pp (.arr (.ofMat M)) = .error .typeError := by
  have hpr : ∀ t < 1, (treeFrame stumpRows t).Printed t := by
    intro t ht
    obtain rfl : t = 0 := by omega
    exact stumpFrame_printed 3
  constructor
  · obtain ⟨r, pp, h1, h2, h3⟩ := C98_early_stopping_false trunc lib encode (stumpClassifier_fitted "binary:logistic" 2)
      (k := 1) (by omega) hpr (by simp [stumpRows]) v hv
    obtain ⟨x, hx, -⟩ := h3 M hM
    exact ⟨r, pp, h1, h2, x, hx⟩
  · obtain ⟨r, p, pp, h1, -, h2, h3⟩ := C98_two_class_softprob_false trunc lib encode
      (stumpClassifier_fitted "multi:softprob" 1) (by omega) hpr v hv
    exact ⟨r, pp, h1, h2, (h3 M hM).2⟩

end

end PurePredict
