import Verif.Lemmas.Regrouped
import Verif.Props.C112
import Verif.Props.C115
/-
C116: an average of averages over equally many members is the average over all members, and repeating all members changes nothing.
-/
namespace PurePredict
open Spec Regroup
variable {fp : FP} {lib : String → TextLib} {encode : Str → List Nat}

/-- **C116** in exact arithmetic, infinities and NaN included: both objects are converted, and on every request all methods of both give the same answer,
or both raise. -/
theorem C116_regrouped (trunc : Ex → Py Int) {o o' : SkObj (Attrs Ex) (PVal Ex) Ex} (h : Regrouped o o') {f : Methods Ex} (hb : Behaves lib encode o f) :
    ∃ c c', convert (singles trunc initXgb) o = .ok c ∧ convert (singles trunc initXgb) o' = .ok c' ∧
      AllAgree (c.methods lib encode) (c'.methods lib encode) := by
  obtain ⟨f', hb', hr⟩ := behaves_regrouped h hb
  obtain ⟨c, hc, rfl⟩ := C89_converted_behaves trunc lib encode o f hb
  obtain ⟨c', hc', rfl⟩ := C89_converted_behaves trunc lib encode o' f' hb'
  exact ⟨c, c', hc, hc', hr⟩

/-- **C116**, the same member any number of times, in exact arithmetic: `predict_proba` gives what the member gives to a request with at least one record,
and raises where the member raises. -/
theorem C116_copies (trunc : Ex → Py Int) {k v cs o} {j : Nat} (hj : 0 < j) (hv : ReadableVersion v) (hcs : ∀ c ∈ cs, Plain c) {f : Methods Ex} (hb : Behaves lib encode o f)
    {q : Data Ex → Py (List (List Ex))} (hq : f.predictProba = some q) :
    ∃ c p, convert (singles trunc initXgb) (.ensemble k v none cs (List.replicate j o)) = .ok c ∧ (c.methods lib encode).predictProba = some p ∧
      ∀ X, (∀ P, q (.arr X) = .ok P → P ≠ [] → p (.arr X) = .ok P) ∧ (∀ e, q (.arr X) = .error e → ∃ e', p (.arr X) = .error e') := by
  have hm : List.Forall₂ (Behaves lib encode) (List.replicate j o) (List.replicate j f) := by
    clear hj
    induction j with
    | zero => exact .nil
    | succ j ih => exact .cons hb ih
  obtain ⟨c, hc, e⟩ := C89_converted_behaves trunc lib encode _ _ (.ensemble (k := k) hv hcs hm)
  refine ⟨c, _, hc, by rw [e]; rfl, fun X => ?_⟩
  have run : ∀ X, f.runProba X = q (.arr X) := fun X => by
    unfold Est.runProba
    rw [hq]
  obtain ⟨i, rfl⟩ : ∃ i, j = i + 1 := ⟨j - 1, by omega⟩
  have key : Data.onArr (⟨none, cs, (List.replicate (i + 1) f).map fun m => ⟨m.runProba⟩⟩ : Bagging Ex (PVal Ex)).predictProba (.arr X) =
      (pile plus (List.replicate (i + 1) (q (.arr X))) >>= fun p => .ok (each (over (i + 1)) p)) := by
    show Bagging.predictProba _ X = _
    rw [ensemble_proba, List.map_replicate, run, List.length_replicate]
    simp only [apply_over (Nat.succ_pos i)]
  refine ⟨fun P hP hne => ?_, fun er hP => ?_⟩
  · refine key.trans ?_
    rw [hP]
    obtain ⟨s, hs⟩ : ∃ s, (Arr.ofMat P).shape = .ok s := by
      cases P with
      | nil => exact absurd rfl hne
      | cons r P => exact ⟨_, shape_ofMat_cons r P⟩
    rw [pile_copies hs, py_ok_bind]
    have id : ∀ a : Ex, over (i + 1) (Regroup.times (i + 1) a) = a := fun a => by
      have := over_times (Nat.succ_pos i) 1 a
      rwa [Nat.mul_one, over_one] at this
    simp [each, Function.comp_def, id]
  · refine ⟨er, key.trans ?_⟩
    rw [hP]
    rfl

/-- **C116**, a single member, with all rounding: `predict_proba` gives exactly what the member gives. -/
theorem C116_single (hs : fp.Sound) (trunc : XR fp → Py Int) {k v cs o} (hv : ReadableVersion v) (hcs : ∀ c ∈ cs, Plain c) {f : Methods (XR fp)} (hb : Behaves lib encode o f)
    {q : Data (XR fp) → Py (List (List (XR fp)))} (hq : f.predictProba = some q) :
    ∃ c p, convert (singles trunc initXgb) (.ensemble k v none cs [o]) = .ok c ∧ (c.methods lib encode).predictProba = some p ∧
      ∀ X, (∀ P, q (.arr X) = .ok P → (∀ r ∈ P, ∀ x ∈ r, XR.Rep x) → p (.arr X) = .ok P) ∧ (∀ e, q (.arr X) = .error e → p (.arr X) = .error e) := by
  obtain ⟨c, hc, e⟩ := C89_converted_behaves trunc lib encode _ _ (.ensemble (k := k) hv hcs (.cons hb .nil))
  refine ⟨c, _, hc, by rw [e]; rfl, fun X => ?_⟩
  have run : f.runProba X = q (.arr X) := by
    unfold Est.runProba
    rw [hq]
  have key : Data.onArr (⟨none, cs, [f].map fun m => ⟨m.runProba⟩⟩ : Bagging (XR fp) (PVal (XR fp))).predictProba (.arr X) =
      (q (.arr X) >>= fun p => apply2d (.ofMat p) fun x => Arith.div x (ofInt 1)) := by
    rw [← run]
    show Bagging.predictProba _ X = _
    rw [predictProba_pile]
    show ((f.runProba X >>= fun p => pure p) >>= _) = _
    rw [bind_pure]
    rfl
  refine ⟨fun P hP hr => ?_, fun er hP => ?_⟩
  · refine key.trans ?_
    rw [hP, py_ok_bind, apply2d_ofMat]
    refine Trim.mapM_id fun r hrm => Trim.mapM_id fun x hx => ?_
    exact (C115_unit hs (hr r hrm x hx)).2.1
  · refine key.trans ?_
    rw [hP]
    rfl

/-! ### Concrete cases -/

/-- A bag of two forests of two trees each, and the bag of the four trees. -/
example (a b c d : SkObj (Attrs Ex) (PVal Ex) Ex) (cs : List (PVal Ex)) (v : Option (List Char)) :
    Regrouped (.ensemble .bagging v none cs [.ensemble .randomForest v none cs [a, b], .ensemble .extraTrees v none cs [c, d]])
      (.ensemble .bagging v none cs [a, b, c, d]) :=
  .flat (n := 2) (by norm_num) (.cons (.mk rfl) (.cons (.mk rfl) .nil))

/-- Two priors, each listed three times. -/
example (v : Option (List Char)) (cs : List (PVal Ex)) :
    let a := SkObj.leaf "DummyClassifier" v (demoPrior (.fin 1 : Ex) (.fin 2) (.fin 3))
    let b := SkObj.leaf "DummyClassifier" v (demoPrior (.fin 3 : Ex) (.fin 1) (.fin 2))
    Regrouped (.ensemble .bagging v none cs [a, b, a, b, a, b]) (.ensemble .bagging v none cs [a, b]) :=
  .once (j := 3) (ms := [_, _]) (by norm_num) (le_refl 2)

/-- The whole statement for a bag of two bags of two priors. -/
example (trunc : Ex → Py Int) (x y : Ex) :
    let v := some "0.22".toList
    let cs : List (PVal Ex) := [.int 0, .int 1, .int 2]
    let a := SkObj.leaf "DummyClassifier" v (demoPrior x y x)
    let b := SkObj.leaf "DummyClassifier" v (demoPrior y x y)
    ∃ c c', convert (singles trunc initXgb) (.ensemble .bagging v none cs [.ensemble .bagging v none cs [a, b], .ensemble .bagging v none cs [b, b]]) = .ok c ∧
      convert (singles trunc initXgb) (.ensemble .bagging v none cs [a, b, b, b]) = .ok c' ∧ AllAgree (c.methods lib encode) (c'.methods lib encode) := by
  intro v cs a b
  have hcs : ∀ c ∈ cs, Plain c := fun c hc => by
    simp only [cs, List.mem_cons, List.not_mem_nil, or_false] at hc
    rcases hc with rfl | rfl | rfl <;> exact .int _
  have ha : Behaves lib encode a _ := .single version_022 (demoPrior_learned _ _ _)
  have hb : Behaves lib encode b _ := .single version_022 (demoPrior_learned _ _ _)
  exact C116_regrouped trunc (.flat (n := 2) (by norm_num) (.cons (.mk rfl) (.cons (.mk rfl) .nil)))
    (.ensemble version_022 hcs (.cons (.ensemble version_022 hcs (.cons ha (.cons hb .nil))) (.cons (.ensemble version_022 hcs (.cons hb (.cons hb .nil))) .nil)))

/-! ### Exceptions -/

theorem div_two (l : List (XR FP.binary64)) : ∃ r, (l.mapM fun x => Arith.div x (.fin 2 : XR FP.binary64)) = .ok r ∧ r.length = l.length := by
  have one : ∀ a : XR FP.binary64, ∃ q, Arith.div a (.fin 2 : XR FP.binary64) = .ok q := by
    intro a
    show ∃ q, XR.div _ _ = _
    cases a <;> simp only [XR.div] <;> rw [if_neg (by norm_num)] <;> exact ⟨_, rfl⟩
  induction l with
  | nil => exact ⟨[], rfl, rfl⟩
  | cons x l ih =>
    obtain ⟨q, hq⟩ := one x
    obtain ⟨r, hr, hl⟩ := ih
    exact ⟨q :: r, by rw [mapM_cons', hq, hr]; rfl, by simp [hl]⟩

/-- the first probability that two members give to one record -/
theorem pair_first {e e' : Methods (XR FP.binary64)} {X : Arr (XR FP.binary64)} {a b : XR FP.binary64} {r r' : List (XR FP.binary64)} (h : e.runProba X = .ok [a :: r])
    (h' : e'.runProba X = .ok [b :: r']) (hl : r.length = r'.length) {s : ℝ} (hs : a +ₚ b = .fin s) (cs : List (PVal (XR FP.binary64))) :
    ∃ row, (ensembleEst none cs [e, e']).runProba X = .ok [XR.round (s / 2) :: row] ∧ row.length = r.length := by
  obtain ⟨row, hrow, hlen⟩ := div_two (List.zipWith Arith.add r r')
  refine ⟨row, ?_, by rw [hlen]; simp [hl]⟩
  have two : (ofInt (2 : Nat) : XR FP.binary64) = .fin 2 := by
    show XR.round _ = _
    exact FP.binary64_round 2 (by norm_num) (by norm_num)
  have h1 : (.fin s : XR FP.binary64) /ₚ .fin 2 = .ok (XR.round (s / 2)) := by
    show XR.div _ _ = _
    simp only [XR.div]
    rw [if_neg (by norm_num)]
  have sum : pile (fun a q => operate2d (.ofMat a) (.ofMat q) Arith.add) [(.ok [a :: r] : Py (List (List (XR FP.binary64)))), .ok [b :: r']] =
      .ok [.fin s :: List.zipWith Arith.add r r'] := by
    unfold pile
    simp only [foldlM_cons', py_ok_bind, List.foldlM_nil]
    rw [operate2d_shapes, shape_ofMat_cons, shape_ofMat_cons]
    simp [hl, hs]
  show Bagging.predictProba _ X = _
  rw [predictProba_pile]
  have e1 : (List.range ([e, e'].map fun m => (⟨m.runProba⟩ : Member (XR FP.binary64))).length).map
      ((⟨none, cs, [e, e'].map fun m => ⟨m.runProba⟩⟩ : Bagging (XR FP.binary64) (PVal (XR FP.binary64))).memberProba X) = [.ok [a :: r], .ok [b :: r']] := by
    rw [← h, ← h']
    rfl
  rw [e1, sum, py_ok_bind]
  show apply2d (.ofMat [.fin s :: List.zipWith Arith.add r r']) (fun x => Arith.div x (ofInt (2 : Nat) : XR FP.binary64)) = _
  rw [two, apply2d_ofMat]
  simp only [mapM_cons', h1, hrow]
  rfl

/-- two priors bagged -/
noncomputable def tiltedPair (a b : ℝ) : SkObj (Attrs (XR FP.binary64)) (PVal (XR FP.binary64)) (XR FP.binary64) :=
  .ensemble .bagging (some "0.22".toList) none [.int 0, .int 1, .int 2] [tiltedPrior a, tiltedPrior b]

/-- **C116 is false in double precision**: four members that give the first class 1, 0, 2⁻⁵³ and 2⁻⁵³; the two small numbers are lost one after the other in the ensemble of
four, but not in the ensemble of two ensembles. -/
theorem C116_false_rounding (trunc : XR FP.binary64 → Py Int) :
    ∃ c c' q q' row row' r, convert (singles trunc initXgb) (.ensemble .bagging (some "0.22".toList) none [.int 0, .int 1, .int 2]
        [tiltedPair 1 0, tiltedPair (2 ^ (-53 : ℤ)) (2 ^ (-53 : ℤ))]) = .ok c ∧
      convert (singles trunc initXgb) (tiltedBag 1 0 (2 ^ (-53 : ℤ)) (2 ^ (-53 : ℤ))) = .ok c' ∧
      (c.methods lib encode).predictProba = some q ∧ (c'.methods lib encode).predictProba = some q' ∧
      q (.arr (.ofMat [[.fin 0]])) = .ok [.fin r :: row] ∧ q' (.arr (.ofMat [[.fin 0]])) = .ok [.fin (1 / 4) :: row'] ∧ 1 / 4 < r := by
  have rep : ∀ x : ℝ, B64.Representable x → |x| ≤ 2 ^ 60 → (XR.round x : XR FP.binary64) = .fin x := fun x h h' => round_small (B64.rndFin_of_representable h) h'
  have add : ∀ x y z : ℝ, (XR.round (x + y) : XR FP.binary64) = .fin z → (.fin x : XR FP.binary64) +ₚ .fin y = .fin z := fun x y z h => h
  have r1 : (XR.round 1 : XR FP.binary64) = .fin 1 := rep 1 ⟨1, 0, by norm_num, by norm_num, by norm_num⟩ (by norm_num)
  have s1 : (.fin 1 : XR FP.binary64) +ₚ .fin (2 ^ (-53 : ℤ)) = .fin 1 := add _ _ _ (round_small B64.tie_one (by norm_num))
  have s2 : (.fin 1 : XR FP.binary64) +ₚ .fin 0 = .fin 1 := add _ _ _ (by rw [add_zero, r1])
  have s3 : (.fin (2 ^ (-53 : ℤ)) : XR FP.binary64) +ₚ .fin (2 ^ (-53 : ℤ)) = .fin (2 ^ (-52 : ℤ)) := add _ _ _ (by
    rw [show (2 : ℝ) ^ (-53 : ℤ) + 2 ^ (-53 : ℤ) = 2 ^ (-52 : ℤ) by norm_num]
    exact rep _ ⟨1, -52, by norm_num, by norm_num, by norm_num⟩ (by norm_num))
  have d1 : (XR.round (1 / 2) : XR FP.binary64) = .fin (1 / 2) := rep _ ⟨1, -1, by norm_num, by norm_num, by norm_num⟩ (by norm_num)
  have d2 : (XR.round (2 ^ (-52 : ℤ) / 2) : XR FP.binary64) = .fin (2 ^ (-53 : ℤ)) := by
    rw [show (2 : ℝ) ^ (-52 : ℤ) / 2 = 2 ^ (-53 : ℤ) by norm_num]
    exact rep _ ⟨1, -53, by norm_num, by norm_num, by norm_num⟩ (by norm_num)
  have s4 : (.fin (1 / 2) : XR FP.binary64) +ₚ .fin (2 ^ (-53 : ℤ)) = .fin (1 / 2 + 2 ^ (-53 : ℤ)) :=
    add _ _ _ (rep _ ⟨2 ^ 52 + 1, -53, by norm_num, by norm_num, by norm_num⟩ (by norm_num))
  have d3 : (XR.round ((1 / 2 + 2 ^ (-53 : ℤ)) / 2) : XR FP.binary64) = .fin ((1 / 2 + 2 ^ (-53 : ℤ)) / 2) :=
    rep _ ⟨2 ^ 52 + 1, -54, by norm_num, by norm_num, by norm_num⟩ (by norm_num)
  have hcs : ∀ c ∈ ([.int 0, .int 1, .int 2] : List (PVal (XR FP.binary64))), Plain c := fun c hc => by
    simp only [List.mem_cons, List.not_mem_nil, or_false] at hc
    rcases hc with rfl | rfl | rfl <;> exact .int _
  have hp : ∀ x : ℝ, Behaves lib encode (tiltedPrior x) _ := fun x => .single version_022 (demoPrior_learned _ _ _)
  obtain ⟨w1, g1, l1⟩ := pair_first (X := .ofMat [[.fin 0]]) (e := Single.est lib encode (.dummy ⟨[.fin 1, .fin (1 - 1), .fin 0]⟩)) (e' := Single.est lib encode (.dummy ⟨[.fin 0, .fin (1 - 0), .fin 0]⟩)) rfl rfl rfl s2 [.int 0, .int 1, .int 2]
  obtain ⟨w2, g2, l2⟩ := pair_first (X := .ofMat [[.fin 0]]) (e := Single.est lib encode (.dummy ⟨[.fin (2 ^ (-53 : ℤ)), .fin (1 - 2 ^ (-53 : ℤ)), .fin 0]⟩))
    (e' := Single.est lib encode (.dummy ⟨[.fin (2 ^ (-53 : ℤ)), .fin (1 - 2 ^ (-53 : ℤ)), .fin 0]⟩)) rfl rfl rfl s3 [.int 0, .int 1, .int 2]
  rw [d1] at g1
  rw [d2] at g2
  obtain ⟨w3, g3, -⟩ := pair_first g1 g2 (by rw [l1, l2]; rfl) s4 [.int 0, .int 1, .int 2]
  rw [d3] at g3
  obtain ⟨c, hc, e⟩ := C89_converted_behaves trunc lib encode _ _ (.ensemble (k := .bagging) version_022 hcs
    (.cons (.ensemble (k := .bagging) version_022 hcs (.cons (hp 1) (.cons (hp 0) .nil))) (.cons (.ensemble (k := .bagging) version_022 hcs (.cons (hp (2 ^ (-53 : ℤ))) (.cons (hp (2 ^ (-53 : ℤ))) .nil))) .nil)))
  obtain ⟨c', q', row', h1', h2', h3'⟩ := tiltedBag_proba (lib := lib) (encode := encode) trunc 1 0 (2 ^ (-53 : ℤ)) (2 ^ (-53 : ℤ)) (s := 1) (by rw [s2, s1, s1])
  rw [rep (1 / 4) ⟨1, -2, by norm_num, by norm_num, by norm_num⟩ (by norm_num)] at h3'
  exact ⟨c, c', _, q', w3, row', _, hc, h1', by rw [e]; rfl, h2', g3, h3', by norm_num⟩

/-- Groups of different sizes have different weight: the mean of the mean of 0 and 0 and the single member 1 is 1/2, the mean of 0, 0 and 1 is 1/3. -/
theorem C116_false_unequal (trunc : Ex → Py Int) :
    let v := some "0.22".toList
    let cs : List (PVal Ex) := [.int 0, .int 1, .int 2]
    let o := fun x : ℝ => SkObj.leaf "DummyClassifier" v (demoPrior (.fin x : Ex) (.fin 0) (.fin 0))
    ∃ c c' q q', convert (singles trunc initXgb) (.ensemble .bagging v none cs [.ensemble .bagging v none cs [o 0, o 0], .ensemble .bagging v none cs [o 1]]) = .ok c ∧
      convert (singles trunc initXgb) (.ensemble .bagging v none cs [o 0, o 0, o 1]) = .ok c' ∧
      (c.methods lib encode).predictProba = some q ∧ (c'.methods lib encode).predictProba = some q' ∧
      q (.arr (.ofMat [[.fin 0]])) = .ok [[.fin (1 / 2), .fin 0, .fin 0]] ∧ q' (.arr (.ofMat [[.fin 0]])) = .ok [[.fin (1 / 3), .fin 0, .fin 0]] := by
  intro v cs o
  have hcs : ∀ c ∈ cs, Plain c := fun c hc => by
    simp only [cs, List.mem_cons, List.not_mem_nil, or_false] at hc
    rcases hc with rfl | rfl | rfl <;> exact .int _
  have hp : ∀ x : ℝ, Behaves lib encode (o x) _ := fun x => .single version_022 (demoPrior_learned _ _ _)
  obtain ⟨c, hc, e⟩ := C89_converted_behaves trunc lib encode _ _ (.ensemble (k := .bagging) version_022 hcs
    (.cons (.ensemble (k := .bagging) version_022 hcs (.cons (hp 0) (.cons (hp 0) .nil))) (.cons (.ensemble (k := .bagging) version_022 hcs (.cons (hp 1) .nil)) .nil)))
  obtain ⟨c', hc', e'⟩ := C89_converted_behaves trunc lib encode _ _ (.ensemble (k := .bagging) version_022 hcs (.cons (hp 0) (.cons (hp 0) (.cons (hp 1) .nil))))
  have r : ∀ x : ℝ, (Single.est lib encode (.dummy ⟨[.fin x, .fin 0, .fin 0]⟩ : Single Ex)).runProba (.ofMat [[.fin 0]]) = .ok [[.fin x, .fin 0, .fin 0]] := fun _ => rfl
  have op : ∀ x y : ℝ, plus [[.fin x, .fin 0, .fin 0]] [[.fin y, .fin 0, .fin 0]] = .ok [[.fin (x + y), .fin 0, .fin 0]] := by
    intro x y
    unfold plus
    rw [operate2d_shapes, shape_ofMat_cons, shape_ofMat_cons]
    simp [ex_plus]
  refine ⟨c, c', _, _, hc, hc', by rw [e]; rfl, by rw [e']; rfl, ?_, ?_⟩
  · show Est.runProba (ensembleEst none cs [ensembleEst none cs [_, _], ensembleEst none cs [_]]) _ = _
    rw [runProba_average (n := 2) (by norm_num) cs rfl]
    simp only [List.map_cons, List.map_nil]
    rw [runProba_average (n := 2) (by norm_num) cs rfl, runProba_average (n := 1) (by norm_num) cs rfl]
    simp only [List.map_cons, List.map_nil, r, pile, foldlM_cons', List.foldlM_nil, py_ok_bind, op, py_pure, each, over]
    norm_num [over, op]
  · show Est.runProba (ensembleEst none cs [_, _, _]) _ = _
    rw [runProba_average (n := 3) (by norm_num) cs rfl]
    simp only [List.map_cons, List.map_nil, r, pile, foldlM_cons', List.foldlM_nil, py_ok_bind, op, py_pure, each, over]
    norm_num [over]

end PurePredict
