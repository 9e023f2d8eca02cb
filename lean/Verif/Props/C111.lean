import Verif.Lemmas.ClassOrderObject
import Verif.Props.C16
import Verif.Props.C90
import Verif.Props.C94
import Verif.Props.C95
import Verif.Props.C103
import Verif.Props.C110
/-
C111: the order in which the classes are listed does not matter: a classifier fitted with the classes in another order gives
every class the same probability, and the same label where one class is the most likely.
-/
namespace PurePredict
open Spec
variable {lib : String → TextLib} {encode : Str → List Nat}

section
variable (trunc : Ex → Py Int)

/-- **C111**: a fitted classifier and the same classifier with its classes arranged as `π` are both converted, and on every request
the rows of `predict_proba` and `predict_log_proba` of the second are those of the first arranged as `π`, or both raise. -/
theorem C111_class_order_partial {w : Nat} {π : List Nat} (hp : π.Perm (List.range w)) {o o' : SkObj (Attrs Ex) (PVal Ex) Ex} (h : Reclass w π o o')
    {f : Methods Ex} (hb : Behaves lib encode o f) :
    ∃ c c', convert (singles trunc initXgb) o = .ok c ∧ convert (singles trunc initXgb) o' = .ok c' ∧
      SameChances w π (c.methods lib encode) (c'.methods lib encode) := by
  obtain ⟨f', hb', hr⟩ := behaves_reclassed hp h hb
  obtain ⟨c, hc, rfl⟩ := C89_converted_behaves trunc lib encode o f hb
  obtain ⟨c', hc', rfl⟩ := C89_converted_behaves trunc lib encode o' f' hb'
  exact ⟨c, c', hc, hc', hr⟩

/-- **C111** for one class: the number the first gives to its class number `i` is the number the second gives to the same class,
which it has as its class number `j`. -/
theorem C111_one_class {w : Nat} {π : List Nat} (hp : π.Perm (List.range w)) {o o' : SkObj (Attrs Ex) (PVal Ex) Ex} (h : Reclass w π o o')
    {f : Methods Ex} (hb : Behaves lib encode o f) :
    ∃ c c', convert (singles trunc initXgb) o = .ok c ∧ convert (singles trunc initXgb) o' = .ok c' ∧
      ∀ q, (c.methods lib encode).predictProba = some q → ∃ q', (c'.methods lib encode).predictProba = some q' ∧
        ∀ X P, q X = .ok P → ∃ Q, q' X = .ok Q ∧ Q.length = P.length ∧
          ∀ (n i j : Nat) (row row' : List Ex), π[j]? = some i → P[n]? = some row → Q[n]? = some row' → row'[j]? = row[i]? := by
  obtain ⟨c, c', h1, h2, h3, -⟩ := C111_class_order_partial (lib := lib) (encode := encode) trunc hp h hb
  refine ⟨c, c', h1, h2, fun q hq => ?_⟩
  obtain ⟨q', hq', hX⟩ := h3.1 q hq
  refine ⟨q', hq', fun X P hP => ?_⟩
  have := hX X
  rw [hP] at this
  generalize hQ : q' X = y at this
  cases this with
  | done hr =>
    refine ⟨_, rfl, hr.length_eq.symm, fun n i j row row' hji hn hn' => ?_⟩
    obtain ⟨l1, rfl⟩ := List.getElem?_eq_some_iff.1 hn
    obtain ⟨l2, rfl⟩ := List.getElem?_eq_some_iff.1 hn'
    exact (forall₂_get hr l1 l2).get hji

theorem mostLikely_reordered {w : Nat} {π : List Nat} (hp : π.Perm (List.range w)) {cs cs' : List (PVal Ex)} (hcs : Rearranged w π cs cs') {row row' : List Ex}
    (h : Rearranged w π row row') {l : PVal Ex} (hl : MostLikely cs' row' l) : MostLikely cs row l := by
  obtain ⟨j, p, h1, h2, h3⟩ := hl
  have hj : j < π.length := by
    rw [← hcs.length]
    exact (List.getElem?_eq_some_iff.1 h1).1
  have hij : π[j]? = some π[j] := List.getElem?_eq_getElem hj
  exact ⟨π[j], p, by rw [← hcs.get hij, h1], by rw [← h.get hij, h2], fun q hq => h3 q ((h.perm hp).mem_iff.2 hq)⟩

theorem mostLikely_unique {cs : List (PVal Ex)} {row : List Ex} (h : OneLargest row) {l l' : PVal Ex} (hl : MostLikely cs row l) (hl' : MostLikely cs row l') : l = l' := by
  obtain ⟨i, p, h1, h2, h3⟩ := hl
  obtain ⟨j, q, h1', h2', h3'⟩ := hl'
  have := h i j p q h2 h2' h3 h3'
  subst this
  rw [h1] at h1'
  exact Option.some.inj h1'

/-- **C111**, labels: both label each record with one of the most likely classes; where a single class is the most likely, with the
same class. -/
theorem C111_labels_partial {w : Nat} {π : List Nat} (hp : π.Perm (List.range w)) {o o' : SkObj (Attrs Ex) (PVal Ex) Ex} (h : Reclass w π o o')
    {f : Methods Ex} (hb : Behaves lib encode o f) {cs cs' : List (PVal Ex)} (hcs : Rearranged w π cs cs') (hl : AnswersWith o cs) (hl' : AnswersWith o' cs')
    (ht : HoldsCounts o) (ht' : HoldsCounts o') :
    ∃ c c', convert (singles trunc initXgb) o = .ok c ∧ convert (singles trunc initXgb) o' = .ok c' ∧
      ∀ p p' q X ls ls' P, (c.methods lib encode).predict = some p → (c'.methods lib encode).predict = some p' →
        (c.methods lib encode).predictProba = some q → p X = .ok ls → p' X = .ok ls' → q X = .ok P → (∀ row ∈ P, XR.nan ∉ row) →
        List.Forall₂ (MostLikely cs) P ls ∧ List.Forall₂ (MostLikely cs) P ls' ∧ ((∀ row ∈ P, OneLargest row) → ls' = ls) := by
  obtain ⟨f', hb', hr⟩ := behaves_reclassed hp h hb
  obtain ⟨c, hc, hm⟩ := C95_predict_agrees FP.exact_sound FP.exact_monoExp trunc hb hl ht
  obtain ⟨c', hc', hm'⟩ := C95_predict_agrees FP.exact_sound FP.exact_monoExp trunc hb' hl' ht'
  obtain ⟨d, d', hd, hd', hsame⟩ := C111_class_order_partial (lib := lib) (encode := encode) trunc hp h hb
  rw [hc] at hd
  rw [hc'] at hd'
  cases hd
  cases hd'
  refine ⟨c, c', hc, hc', fun p p' q X ls ls' P hp1 hp2 hq hls hls' hP hn => ?_⟩
  obtain ⟨q', hq', hX⟩ := hsame.1.1 q hq
  have := hX X
  rw [hP] at this
  generalize hQ : q' X = y at this
  cases this with
  | @done _ Q hPQ =>
    have m1 := hm p q X ls P hp1 hq hls hP hn
    have m2 := hm' p' q' X ls' Q hp2 hq' hls' hQ fun row hrow => by
      obtain ⟨i, hi, rfl⟩ := List.getElem_of_mem hrow
      have hi' : i < P.length := hPQ.length_eq ▸ hi
      exact fun hmem => hn _ (List.getElem_mem hi') ((forall₂_get hPQ hi' hi).mem hmem)
    have m3 : List.Forall₂ (MostLikely cs) P ls' := by
      clear hX hm hm' hP hQ hls hls' hn m1
      induction hPQ generalizing ls' with
      | nil => cases m2; exact .nil
      | cons h _ ih =>
        cases m2 with
        | cons m ms => exact .cons (mostLikely_reordered hp hcs h m) (ih _ ms)
    refine ⟨m1, m3, fun hone => ?_⟩
    clear hX hm hm' hP hQ hls hls' hn hPQ m2
    induction m1 generalizing ls' with
    | nil => cases m3; rfl
    | cons m _ ih =>
      cases m3 with
      | cons m' ms => rw [mostLikely_unique (hone _ (by simp)) m' m, ih _ ms fun row hrow => hone row (by simp [hrow])]

end

/-! ### Ties -/

/-- a tree of one leaf -/
noncomputable def leafTree {F : Type} [Arith F] (v : List F) (labels : List (PVal F)) : Attrs F :=
  ("classes_", .ndarray (.list labels)) :: treeAttrs (.leaf [v])

/-- the converted tree -/
noncomputable def leafModel {F : Type} [Arith F] (v : List F) (labels : List (PVal F)) : Tree F (PVal F) :=
  ⟨[-1], [-1], [-2], [ofInt (-2)], [v], labels⟩

theorem leafTree_learned {F : Type} [Arith F] (v : List F) (hv : v ≠ []) {labels : List (PVal F)} (hl : ∀ c ∈ labels, Plain c) :
    Learned "DecisionTreeClassifier" (leafTree v labels) (.treeClassifier (leafModel v labels)) := by
  refine .treeClassifier (cs := some labels) (.inl rfl) ⟨_, _, _, _, rfl, rfl, rfl, rfl, rfl, rfl⟩ ⟨rfl, hl⟩ ?_
  rfl

theorem leafTree_labels {F : Type} [Arith F] (v : List F) {labels : List (PVal F)} (hl : ∀ c ∈ labels, Plain c) : HasLabels (leafTree v labels) labels := ⟨rfl, hl⟩

theorem strings_plain {F : Type} (l : List String) : ∀ c ∈ l.map (PVal.str (F := F)), Plain c := by
  intro c hc
  obtain ⟨s, -, rfl⟩ := List.mem_map.1 hc
  exact .str _

theorem leafModel_leaf {F : Type} [Arith F] (v : List F) (labels : List (PVal F)) (x : F) :
    (do let X ← checkArray (.ofMat [[x]]) .allow; (← X.rows).mapM (leafModel v labels).getLeafNode) = (.ok [0] : Py (List Int)) := by
  rw [checkArray_ofMat_cons, py_ok_bind, rows_ofMat]
  rfl

theorem leafModel_predict {F : Type} [Arith F] (v : List F) (labels : List (PVal F)) (x : F) {i : Nat} (hi : argmax v = .ok i) {l : PVal F}
    (hl : pyGet labels i = .ok l) : (leafModel v labels).predict (.ofMat [[x]]) = .ok [l] := by
  have h := leafModel_leaf v labels x
  unfold Tree.predict
  rw [checkArray_ofMat_cons, py_ok_bind, rows_ofMat] at h ⊢
  rw [py_ok_bind] at h ⊢
  rw [h, py_ok_bind, mapM_cons']
  have : (leafModel v labels).predFromLeaf 0 = .ok i := hi
  rw [this]
  show ([i].mapM fun p : Nat => pyGet labels (p : Int)) = _
  rw [mapM_cons', hl]
  rfl

theorem leafModel_proba {F : Type} [Arith F] (v : List F) (labels : List (PVal F)) (x : F) {row : List F} (h : (v.mapM fun a => a /ₚ pySum v) = .ok row) :
    (leafModel v labels).predictProba (.ofMat [[x]]) = .ok [row] := by
  have h' := leafModel_leaf v labels x
  unfold Tree.predictProba
  rw [checkArray_ofMat_cons, py_ok_bind, rows_ofMat] at h' ⊢
  rw [py_ok_bind] at h' ⊢
  rw [h', py_ok_bind, mapM_cons']
  have : (leafModel v labels).probaFromLeaf 0 = .ok row := h
  rw [this]
  rfl

theorem leafModel_reg {F : Type} [Arith F] (v : F) (vs : List F) (labels : List (PVal F)) (x : F) :
    (leafModel (v :: vs) labels).predictReg (.ofMat [[x]]) = .ok [v] := by
  have h' := leafModel_leaf (v :: vs) labels x
  unfold Tree.predictReg
  rw [checkArray_ofMat_cons, py_ok_bind, rows_ofMat] at h' ⊢
  rw [py_ok_bind] at h' ⊢
  rw [h', py_ok_bind]
  rfl

/-- **Ties go to the class listed first**: a leaf with one record of each class gets the label "a" when the classes are listed as
"a", "b" and the label "b" when they are listed as "b", "a". -/
theorem C111_false_ties (trunc : Ex → Py Int) :
    let o := fun l : List (PVal Ex) => SkObj.leaf "DecisionTreeClassifier" (some "0.22".toList) (leafTree [.fin 1, .fin 1] l)
    Reclass 2 [1, 0] (o [.str "a", .str "b"]) (o [.str "b", .str "a"]) ∧
    ∃ c c' p p', convert (singles trunc initXgb) (o [.str "a", .str "b"]) = .ok c ∧ convert (singles trunc initXgb) (o [.str "b", .str "a"]) = .ok c' ∧
      (c.methods lib encode).predict = some p ∧ (c'.methods lib encode).predict = some p' ∧
      p (.arr (.ofMat [[.fin 0]])) = .ok [.str "a"] ∧ p' (.arr (.ofMat [[.fin 0]])) = .ok [.str "b"] := by
  have h1 := leafTree_learned (F := Ex) [.fin 1, .fin 1] (by simp) (strings_plain ["a", "b"])
  have h2 := leafTree_learned (F := Ex) [.fin 1, .fin 1] (by simp) (strings_plain ["b", "a"])
  obtain ⟨c, hc, e⟩ := C89_converted_behaves trunc lib encode _ _ (.single version_022 h1)
  obtain ⟨c', hc', e'⟩ := C89_converted_behaves trunc lib encode _ _ (.single version_022 h2)
  have arg : argmax [(.fin 1 : Ex), .fin 1] = .ok 0 := by
    have h : ((.fin 1 : Ex) <ₚ .fin 1) = false := by
      show decide _ = false
      simp
    simp [argmax, pyMaxPos, maxScan, h]
  refine ⟨.fit h1 h2 (.tree (.cons (swapped_pair rfl rfl) .nil) ⟨rfl, .cons rfl (.cons rfl .nil)⟩), c, c', _, _, hc, hc', by rw [e]; rfl, by rw [e']; rfl, ?_, ?_⟩
  · exact leafModel_predict _ _ _ arg rfl
  · exact leafModel_predict _ _ _ arg rfl

/-- **C111 is false in double precision**: a leaf with the weights 2⁶⁰, 100, 100 and 56 gives its first class the probability 1; with
the classes listed in reverse the weights are added exactly and this class gets less. -/
theorem C111_false_rounding (trunc : XR FP.binary64 → Py Int) :
    let o := fun (v : List (XR FP.binary64)) (l : List (PVal (XR FP.binary64))) => SkObj.leaf "DecisionTreeClassifier" (some "0.22".toList) (leafTree v l)
    ∃ c c' q q' r as bs, convert (singles trunc initXgb) (o [.fin (2 ^ 60), .fin 100, .fin 100, .fin 56] [.str "a", .str "b", .str "c", .str "d"]) = .ok c ∧
      convert (singles trunc initXgb) (o [.fin 56, .fin 100, .fin 100, .fin (2 ^ 60)] [.str "d", .str "c", .str "b", .str "a"]) = .ok c' ∧
      (c.methods lib encode).predictProba = some q ∧ (c'.methods lib encode).predictProba = some q' ∧
      q (.arr (.ofMat [[.fin 0]])) = .ok [.fin 1 :: as] ∧ q' (.arr (.ofMat [[.fin 0]])) = .ok [bs ++ [.fin r]] ∧ r < 1 := by
  have h1 := leafTree_learned (F := XR FP.binary64) [.fin (2 ^ 60), .fin 100, .fin 100, .fin 56] (by simp) (strings_plain ["a", "b", "c", "d"])
  have h2 := leafTree_learned (F := XR FP.binary64) [.fin 56, .fin 100, .fin 100, .fin (2 ^ 60)] (by simp) (strings_plain ["d", "c", "b", "a"])
  obtain ⟨c, hc, e⟩ := C89_converted_behaves trunc lib encode _ _ (.single version_022 h1)
  obtain ⟨c', hc', e'⟩ := C89_converted_behaves trunc lib encode _ _ (.single version_022 h2)
  have r0 : (ofInt 0 : XR FP.binary64) = .fin 0 := XR.ofInt_zero FP.binary64_sound
  have ab : ∀ n : ℕ, n < 128 → (.fin (2 ^ 60) : XR FP.binary64) +ₚ .fin n = .fin (2 ^ 60) := fun n hn => round_absorbs n hn
  have nat : ∀ a b : ℕ, a + b < 1000 → (.fin a : XR FP.binary64) +ₚ .fin b = .fin (a + b : ℕ) := by
    intro a b hab
    show XR.round _ = _
    rw [show ((a : ℝ) + b) = ((a + b : ℕ) : ℝ) by push_cast; rfl]
    refine FP.binary64_round (a + b : ℕ) (by norm_num) ?_
    rw [abs_of_nonneg (by positivity)]
    have : ((a + b : ℕ) : ℤ) < 1000 := by exact_mod_cast hab
    omega
  have s1 : pySum [(.fin (2 ^ 60) : XR FP.binary64), .fin 100, .fin 100, .fin 56] = .fin (2 ^ 60) := by
    have z : (.fin 0 : XR FP.binary64) +ₚ .fin (2 ^ 60) = .fin (2 ^ 60) := by
      show XR.round _ = _
      rw [zero_add, round_two_pow 60 (by norm_num)]
    have b1 := ab 100 (by norm_num)
    have b2 := ab 56 (by norm_num)
    rw [show ((100 : ℕ) : ℝ) = 100 by norm_num] at b1
    rw [show ((56 : ℕ) : ℝ) = 56 by norm_num] at b2
    show (((ofInt 0 +ₚ _) +ₚ _) +ₚ _) +ₚ _ = _
    rw [r0, z, b1, b1, b2]
  have s2 : pySum [(.fin 56 : XR FP.binary64), .fin 100, .fin 100, .fin (2 ^ 60)] = .fin (2 ^ 60 + 256) := by
    have b1 := nat 0 56 (by norm_num)
    have b2 := nat 56 100 (by norm_num)
    have b3 := nat 156 100 (by norm_num)
    have b4 : (.fin 256 : XR FP.binary64) +ₚ .fin (2 ^ 60) = .fin (2 ^ 60 + 256) := by
      show XR.round _ = _
      rw [add_comm]
      have : B64.rndFin ((2 : ℝ) ^ 60 + 256) = 2 ^ 60 + 256 := B64.rndFin_of_representable ⟨2 ^ 52 + 1, 8, by norm_num, by norm_num, by norm_num⟩
      show XR.ofEReal (B64.rnd _) = _
      rw [B64.rnd_of_fin, this]
      · exact XR.ofEReal_coe _
      · rw [this, abs_of_pos (by positivity)]
        refine lt_of_lt_of_le (b := (2 : ℝ) ^ (61 : ℤ)) (by norm_num) ?_
        exact B64.pow_mono (by norm_num)
    norm_num at b1 b2 b3
    show (((ofInt 0 +ₚ _) +ₚ _) +ₚ _) +ₚ _ = _
    rw [r0, b1, b2, b3, b4]
  have d1 : ∀ x : ℝ, (.fin x : XR FP.binary64) /ₚ .fin (2 ^ 60) = .ok (XR.round (x / 2 ^ 60)) := by
    intro x
    show XR.div _ _ = _
    simp only [XR.div]
    rw [if_neg (by norm_num)]
  have d2 : ∀ x : ℝ, (.fin x : XR FP.binary64) /ₚ .fin (2 ^ 60 + 256) = .ok (XR.round (x / (2 ^ 60 + 256))) := by
    intro x
    show XR.div _ _ = _
    simp only [XR.div]
    rw [if_neg (by norm_num)]
  have one : (XR.round 1 : XR FP.binary64) = .fin 1 := FP.binary64_round (r := 1) 1 (by norm_num) (by norm_num)
  obtain ⟨r, g1, g2⟩ := round_unit (q := (2 : ℝ) ^ 60 / (2 ^ 60 + 256)) (by positivity) (by rw [div_le_one (by positivity)]; linarith)
  refine ⟨c, c', _, _, r, [XR.round (100 / 2 ^ 60), XR.round (100 / 2 ^ 60), XR.round (56 / 2 ^ 60)],
    [XR.round (56 / (2 ^ 60 + 256)), XR.round (100 / (2 ^ 60 + 256)), XR.round (100 / (2 ^ 60 + 256))], hc, hc', by rw [e]; rfl, by rw [e']; rfl, ?_, ?_, g2 ?_⟩
  · refine leafModel_proba _ _ _ ?_
    rw [s1]
    simp only [mapM_cons', d1]
    rw [div_self (by norm_num), one]
    rfl
  · refine leafModel_proba _ _ _ ?_
    rw [s2]
    simp only [mapM_cons', d2]
    rw [g1]
    rfl
  · rw [div_le_iff₀ (by positivity)]
    norm_num

/-! ### The exponential loss -/

/-- boosting with the exponential loss: class shares 1/2 and 1/2, one stage of a tree whose only leaf holds 0 -/
noncomputable def evenBoosting (l : List (PVal Ex)) : SkObj (Attrs Ex) (PVal Ex) Ex :=
  .boosting (some "0.22".toList) l [[.leaf "DecisionTreeRegressor" (some "0.22".toList) (treeAttrs (.leaf [[.fin 0]]))]]
    (.leaf "DummyClassifier" (some "0.22".toList) demoInit) "exponential" [.float (.fin 1), .int (1 : Nat)]

theorem evenTree_learned : Learned "DecisionTreeRegressor" (treeAttrs (.leaf [[(.fin 0 : Ex)]])) (.treeRegressor (leafModel [.fin 0] [.int 0, .int 1])) :=
  .treeRegressor (cs := none) (.inl rfl) ⟨_, _, _, _, rfl, rfl, rfl, rfl, rfl, rfl⟩ (.inl rfl) rfl

/-- **C111 is false of the exponential loss**: with the shares 1/2 and 1/2 and a tree that says 0, the class listed second gets the
probability 1, whichever it is. -/
theorem C111_false_exponential (trunc : Ex → Py Int) :
    ∃ c c' q q', convert (singles trunc initXgb) (evenBoosting [.str "a", .str "b"]) = .ok c ∧
      convert (singles trunc initXgb) (evenBoosting [.str "b", .str "a"]) = .ok c' ∧
      (c.methods lib encode).predictProba = some q ∧ (c'.methods lib encode).predictProba = some q' ∧
      q (.arr (.ofMat [[.fin 0]])) = .ok [[.fin 0, .fin 1]] ∧ q' (.arr (.ofMat [[.fin 0]])) = .ok [[.fin 0, .fin 1]] := by
  have hb : ∀ l : List String, l.length = 2 → Behaves lib encode (evenBoosting (l.map PVal.str))
      (boostingEst (l.map PVal.str) [[(Single.treeRegressor (leafModel [.fin 0] [.int 0, .int 1])).est lib encode]]
        ((Single.dummy ⟨fins [1 / 2, 1 / 2]⟩).est lib encode) .exponential (.fin 1) 1) := by
    intro l hl
    refine .boosting ⟨_, rfl⟩ (strings_plain l) (.cons (.cons (.single version_022 evenTree_learned) .nil) .nil) (.single version_022 demoInit_learned) ?_
    simp [lossOf, hl]
  have val : ∀ l : List (PVal Ex), (⟨l, [[((Single.treeRegressor (leafModel [.fin 0] [.int 0, .int 1])).est lib encode).runNumbers]],
      ((Single.dummy ⟨fins [1 / 2, 1 / 2]⟩).est lib encode).runProba, .fin 1, 1, .exponential⟩ : GB Ex (PVal Ex)).predictProba (.ofMat [[.fin 0]]) = .ok [[.fin 0, .fin 1]] := by
    intro l
    generalize hg : (⟨l, [[((Single.treeRegressor (leafModel [.fin 0] [.int 0, .int 1])).est lib encode).runNumbers]],
      ((Single.dummy ⟨fins [1 / 2, 1 / 2]⟩).est lib encode).runProba, .fin 1, 1, .exponential⟩ : GB Ex (PVal Ex)) = g
    have init : g.rawPredictInit (.ofMat [[.fin 0]]) = .ok [[.fin 0]] := by
      subst hg
      obtain ⟨z, x, y, h1, h2, h3, h4⟩ := logit_opposite (1 / 2)
      rw [show (1 - 1 / 2 : ℝ) = 1 / 2 by norm_num, h1] at h2
      cases h2
      rw [h3] at h4
      have hz : z = 0 := by
        have : z = -z := by injection h4 with h; injection h
        linarith
      subst hz
      unfold GB.rawPredictInit
      rw [checkArray_ofMat_cons, py_ok_bind, width_ofMat_cons, py_ok_bind]
      show (Loss.exponential.initRaw [fins [1 / 2, 1 / 2]] : Py (List (List Ex))) = _
      unfold Loss.initRaw
      have get : pyGet (fins [1 / 2, 1 / 2]) 1 = .ok (.fin (1 / 2)) := rfl
      simp only [mapM_cons', get, py_ok_bind]
      have : ∀ k : Ex → Py (List Ex), ((.fin x /ₚ (ofInt 1 -ₚ .fin x) : Py Ex) >>= fun a => safeLog a >>= k) =
          ((.fin x /ₚ (ofInt 1 -ₚ .fin x) : Py Ex) >>= safeLog) >>= k := fun k => by rw [bind_assoc]
      rw [h1, this, h3, py_ok_bind]
      show (.ok [[ofRat 1 2 *ₚ .fin 0]] : Py (List (List Ex))) = _
      rw [XR.ofRat_exact, XR.mul_exact, mul_zero]
    have raw : g.rawPredict (.ofMat [[.fin 0]]) = .ok [[.fin 0]] := by
      unfold GB.rawPredict
      rw [init, py_ok_bind]
      have col : g.rawColumn (.ofMat [[.fin 0]]) 0 g.estimators [ofInt 0] = .ok [.fin 0] := by
        subst hg
        unfold GB.rawColumn
        have n : ((Single.treeRegressor (leafModel [.fin 0] [.int 0, .int 1])).est lib encode).runNumbers (.ofMat [[.fin 0]]) = (.ok [.fin 0] : Py (List Ex)) := by
          rw [regressor_numbers]
          exact leafModel_reg _ _ _ _
        have get : ∀ {α : Type} (a : α), pyGet [a] ((0 : Nat) : Int) = .ok a := fun a => rfl
        rw [get, py_ok_bind, n, py_ok_bind]
        show (.ok [ofInt 0 +ₚ (.fin 0 *ₚ .fin 1)] : Py (List Ex)) = _
        rw [XR.ofInt_exact, XR.mul_exact, XR.add_exact]
        norm_num
      have est : pyGet g.estimators 0 = .ok [((Single.treeRegressor (leafModel [.fin 0] [.int 0, .int 1])).est lib encode).runNumbers] := by subst hg; rfl
      have len : ((Arr.ofMat [[(.fin 0 : Ex)]]).len) = .ok 1 := rfl
      rw [est, py_ok_bind, len]
      show (([g.rawColumn (.ofMat [[(.fin 0 : Ex)]]) 0 g.estimators [ofInt 0]].mapM id : Py (List (List Ex))) >>= _) = _
      rw [col]
      show (.ok [[.fin 0 +ₚ .fin 0]] : Py (List (List Ex))) = _
      rw [XR.add_exact, add_zero]
    have := (C16_exponential_distribution_iff g (by subst hg; rfl) (.ofMat [[.fin 0]]) [0] (by simp) raw).1
    rw [this]
    norm_num [sigmoid, fins]
  obtain ⟨c, hc, e⟩ := C89_converted_behaves trunc lib encode _ _ (hb ["a", "b"] rfl)
  obtain ⟨c', hc', e'⟩ := C89_converted_behaves trunc lib encode _ _ (hb ["b", "a"] rfl)
  exact ⟨c, c', _, _, hc, hc', by rw [e]; rfl, by rw [e']; rfl, val _, val _⟩

/-! ### Examples -/

/-- logistic regression with three classes, one column -/
noncomputable def threeLogistic (W b : List Ex) (l : List (PVal Ex)) : Attrs Ex :=
  [("coef_", .ndarray (vmat (W.map fun x => [x]))), ("intercept_", .ndarray (vnums b)), ("classes_", .ndarray (.list l)),
   ("multi_class", .str "multinomial"), ("solver", .str "lbfgs")]

theorem threeLogistic_learned (W b : List Ex) {l : List (PVal Ex)} (hl : ∀ c ∈ l, Plain c) :
    Learned "LogisticRegression" (threeLogistic W b l) (.linear .logistic (Linear.ofFitted (W.map fun x => [x]) l (some (.vector b)) (some "multinomial") (some "lbfgs") none)) :=
  .linear (by simp [linearClasses]) rfl ⟨rfl, hl⟩ rfl rfl rfl rfl

/-- The classes "a", "b", "c" with the rows of coefficients 1, 2, 3, and "c", "a", "b" with the rows 3, 1, 2. -/
example : Reclass 3 [2, 0, 1]
    (.leaf "LogisticRegression" (some "0.22".toList) (threeLogistic [.fin 1, .fin 2, .fin 3] [.fin 4, .fin 5, .fin 6] [.str "a", .str "b", .str "c"]))
    (.leaf "LogisticRegression" (some "0.22".toList) (threeLogistic [.fin 3, .fin 1, .fin 2] [.fin 6, .fin 4, .fin 5] [.str "c", .str "a", .str "b"])) := by
  refine .fit (threeLogistic_learned _ _ (strings_plain ["a", "b", "c"])) (threeLogistic_learned _ _ (strings_plain ["c", "a", "b"])) ?_
  exact .linear (d := 1) (by norm_num) rfl (by simp [Linear.ofFitted]) ⟨rfl, .cons rfl (.cons rfl (.cons rfl .nil))⟩
    ⟨rfl, .cons rfl (.cons rfl (.cons rfl .nil))⟩ ⟨rfl, .cons rfl (.cons rfl (.cons rfl .nil))⟩

/-- Two classes: the one row of coefficients changes its sign. -/
theorem twoLogistic_reclass : Reclass 2 [1, 0]
    (.leaf "LogisticRegression" (some "0.22".toList) (threeLogistic [.fin 1] [.fin 4] [.str "a", .str "b"]))
    (.leaf "LogisticRegression" (some "0.22".toList) (threeLogistic [.fin (-1)] [.fin (-4)] [.str "b", .str "a"])) := by
  refine .fit (threeLogistic_learned _ _ (strings_plain ["a", "b"])) (threeLogistic_learned _ _ (strings_plain ["b", "a"])) ?_
  exact .linear2 (c := [.fin 1]) (b := .fin 4) rfl rfl rfl rfl rfl

/-- A pipeline of a scaler and that classifier, and a forest of a tree and a pipeline. -/
example (a b : Ex) : let v := some "0.22".toList
    let pipe := fun W b' l => SkObj.pipeline v ([("scale", .leaf "StandardScaler" v (demoScalerOf a a b b))] ++ [("clf", .leaf "LogisticRegression" v (threeLogistic W b' l))])
    Reclass 2 [1, 0]
      (.ensemble .bagging v none [.str "a", .str "b"] [pipe [.fin 1] [.fin 4] [.str "a", .str "b"],
        .leaf "DecisionTreeClassifier" v (leafTree [.fin 3, .fin 5] [.str "a", .str "b"])])
      (.ensemble .bagging v none [.str "b", .str "a"] [pipe [.fin (-1)] [.fin (-4)] [.str "b", .str "a"],
        .leaf "DecisionTreeClassifier" v (leafTree [.fin 5, .fin 3] [.str "b", .str "a"])]) := by
  intro v pipe
  refine .ensemble ⟨rfl, .cons rfl (.cons rfl .nil)⟩ rfl fun p hp => ?_
  simp only [List.zip_cons_cons, List.zip_nil_right, List.mem_cons, List.not_mem_nil, or_false] at hp
  rcases hp with rfl | rfl
  · exact .pipeline twoLogistic_reclass
  · exact .fit (leafTree_learned _ (by simp) (strings_plain ["a", "b"])) (leafTree_learned _ (by simp) (strings_plain ["b", "a"]))
      (.tree (.cons (swapped_pair rfl rfl) .nil) ⟨rfl, .cons rfl (.cons rfl .nil)⟩)

/-- the default initial estimator -/
noncomputable def shareInit (p q : ℝ) : Attrs Ex :=
  [("strategy", .str "prior"), ("class_prior_", .ndarray (vnums [.fin p, .fin q])), ("n_classes_", .int 2), ("n_outputs_", .int 1)]

/-- Boosting with two classes: the opposite tree, the shares 1/4 and 3/4 exchanged. -/
theorem shareBoosting_reclass : let v := some "0.22".toList
    let o := fun (x p q : ℝ) l => SkObj.boosting v l [[.leaf "DecisionTreeRegressor" v (treeAttrs (.leaf [[(.fin x : Ex)]]))]]
      (.leaf "DummyClassifier" v (shareInit p q)) "deviance" [.float (.fin (1 / 10)), .int (1 : Nat)]
    Reclass 2 [1, 0] (o 7 (1 / 4) (3 / 4) [.str "a", .str "b"]) (o (-7) (3 / 4) (1 / 4) [.str "b", .str "a"]) := by
  have ht : ∀ x : ℝ, Learned "DecisionTreeRegressor" (treeAttrs (.leaf [[(.fin x : Ex)]])) (.treeRegressor (leafModel [.fin x] [.int 0, .int 1])) :=
    fun x => .treeRegressor (cs := none) (.inl rfl) ⟨_, _, _, _, rfl, rfl, rfl, rfl, rfl, rfl⟩ (.inl rfl) rfl
  have hd : ∀ p q : ℝ, Learned "DummyClassifier" (shareInit p q) (.dummy ⟨[.fin p, .fin q]⟩) :=
    fun p q => .dummy (.inr ⟨rfl, rfl⟩) rfl ⟨_, rfl, .int _⟩ ⟨_, rfl, .int _⟩
  refine .boosting2 rfl rfl (.cons ⟨_, _, rfl, rfl, .mk (ht 7) (ht (-7)) rfl⟩ .nil) (.mk (p := 3 / 4) ?_ ?_)
  · rw [show (1 - 3 / 4 : ℝ) = 1 / 4 by norm_num]
    exact hd _ _
  · rw [show (1 - 3 / 4 : ℝ) = 1 / 4 by norm_num]
    exact hd _ _

/-- Boosting with three classes: the trees of every stage in the other order. -/
example : let v := some "0.22".toList
    let tree := fun x : ℝ => SkObj.leaf "DecisionTreeRegressor" v (treeAttrs (.leaf [[(.fin x : Ex)]]))
    let o := fun (x y z p q r : ℝ) l => SkObj.boosting v l [[tree x, tree y, tree z]]
      (.leaf "DummyClassifier" v (demoPrior (.fin p : Ex) (.fin q) (.fin r))) "deviance" [.float (.fin (1 / 10)), .int (1 : Nat)]
    Reclass 3 [2, 0, 1] (o 7 8 9 (1 / 4) (1 / 2) (1 / 4) [.str "a", .str "b", .str "c"]) (o 9 7 8 (1 / 4) (1 / 4) (1 / 2) [.str "c", .str "a", .str "b"]) := by
  intro v tree o
  refine .boosting (by norm_num) ⟨rfl, .cons rfl (.cons rfl (.cons rfl .nil))⟩ (.cons ⟨rfl, .cons rfl (.cons rfl (.cons rfl .nil))⟩ .nil) ?_
  exact .fit (demoPrior_learned _ _ _) (demoPrior_learned _ _ _) (.dummy ⟨rfl, .cons rfl (.cons rfl (.cons rfl .nil))⟩)

/-- The whole statement for the classifier with two classes. -/
example (trunc : Ex → Py Int) :=
  C111_class_order_partial (lib := lib) (encode := encode) trunc perm_swap twoLogistic_reclass (.single version_022 (threeLogistic_learned _ _ (strings_plain ["a", "b"])))

end PurePredict
