import Verif.Props.C94
import Verif.Spec.MostLikely
import Verif.Lemmas.PeakExact
/-
The label of an answer stands where the probabilities of that answer are best.
-/
namespace PurePredict
open Spec
variable {fp : FP} {lib : String → TextLib} {encode : Str → List Nat} {Best : List (XR fp) → Nat → Prop}

/-- A notion of best position that the code's argmax finds and its links keep. -/
structure Tracks (Best : List (XR fp) → Nat → Prop) : Prop where
  sound : fp.Sound
  argmax : ∀ l i, XR.nan ∉ l → argmax l = .ok i → Best l i
  sfmax : ∀ a p, sfmax a = .ok p → XR.nan ∉ p → XR.nan ∉ a ∧ ∀ i, Best a i → Best p i
  normRow : ∀ a b p, a.mapM expit = .ok b → Linear.normRow b = .ok p → XR.nan ∉ p → XR.nan ∉ a ∧ ∀ i, Best a i → Best p i
  logNormalize : ∀ a l p, logNormalize a = .ok l → l.mapM safeExp = .ok p → XR.nan ∉ p →
    XR.nan ∉ a ∧ ∀ i, Best a i → Best p i
  divSum : ∀ v p, (∀ x ∈ v, XR.NN x) → v.mapM (fun x => x /ₚ pySum v) = .ok p → XR.nan ∉ p → ∀ i, Best v i → Best p i
  pair : ∀ x a, expit x = .ok a → XR.nan ∉ [ofInt 1 -ₚ a, a] → Best [ofInt 1 -ₚ a, a] (if ofInt 0 <ₚ x then 1 else 0)
  negPair : ∀ x, x ≠ XR.nan → Best [Arith.neg x, x] (if ofInt 0 <ₚ x then 1 else 0)

theorem tracks_peak (hs : fp.Sound) (hm : fp.MonoExp) : Tracks (XR.Peak (fp := fp)) where
  sound := hs
  argmax _ _ := XR.peak_argmax
  sfmax _ _ := XR.peak_sfmax hs hm
  normRow _ _ _ := XR.peak_normRow hs hm
  logNormalize _ _ _ := XR.peak_logNormalize hs hm
  divSum _ _ hNN h hn _ hi := (XR.keeps_div hs (XR.pySum_NN hs hNN).1.2.1).peak h hn hi
  pair _ _ := XR.peak_pair hs hm
  negPair _ := XR.peak_neg_pair hs

theorem tracks_first : Tracks XR.First where
  sound := FP.exact_sound
  argmax _ _ := XR.first_argmax
  sfmax _ _ h hn := ⟨(XR.peak_sfmax FP.exact_sound FP.exact_monoExp h hn).1, fun _ => XR.first_sfmax h hn⟩
  normRow _ _ _ hb h hn := ⟨(XR.peak_normRow FP.exact_sound FP.exact_monoExp hb h hn).1, fun _ => XR.first_normRow hb h hn⟩
  logNormalize _ _ _ hl h hn :=
    ⟨(XR.peak_logNormalize FP.exact_sound FP.exact_monoExp hl h hn).1, fun _ => XR.first_logNormalize hl h hn⟩
  divSum _ _ hNN h hn _ := XR.first_divSum hNN h hn
  pair _ _ := XR.first_pair
  negPair _ := XR.first_neg_pair

/-- `l` is the label at a best position. -/
def BestLabel (Best : List (XR fp) → Nat → Prop) (cs : List (PVal (XR fp))) (row : List (XR fp)) (l : PVal (XR fp)) : Prop :=
  ∃ i, Best row i ∧ cs[i]? = some l

theorem bestLabel_of {cs : List (PVal (XR fp))} {row : List (XR fp)} {i : Nat} {l : PVal (XR fp)}
    (h : Best row i) (hl : pyGet cs (i : Int) = .ok l) : BestLabel Best cs row l := ⟨i, h, pyGet_ok_nat.1 hl⟩

/-- The two answers agree. -/
def AgreeBest (Best : List (XR fp) → Nat → Prop) (cs : List (PVal (XR fp))) (P : List (List (XR fp))) (ls : List (PVal (XR fp))) : Prop :=
  (∀ row ∈ P, XR.nan ∉ row) → List.Forall₂ (BestLabel Best cs) P ls

/-- Both answers are computed row by row from the same rows. -/
theorem agree_rows {α : Type} {cs : List (PVal (XR fp))} {rows : List α} {g : α → Py (List (XR fp))}
    {f : α → Py (PVal (XR fp))} {P : List (List (XR fp))} {ls : List (PVal (XR fp))} (hP : rows.mapM g = .ok P)
    (hl : rows.mapM f = .ok ls) (h : ∀ a ∈ rows, ∀ row l, g a = .ok row → f a = .ok l → XR.nan ∉ row → BestLabel Best cs row l) :
    AgreeBest Best cs P ls := by
  intro hn
  rw [mapM_ok_iff] at hP hl
  induction hP generalizing ls with
  | nil => cases hl; exact .nil
  | cons h1 _ ih =>
    cases hl with
    | cons h2 hl =>
      exact .cons (h _ List.mem_cons_self _ _ h1 h2 (hn _ List.mem_cons_self))
        (ih hl (fun a ha => h a (List.mem_cons_of_mem _ ha)) fun r hr => hn r (List.mem_cons_of_mem _ hr))

theorem mapM_then {α β γ : Type} {g : α → Py β} {f : β → Py γ} {l : List α} {b : List β} {c : List γ} (h1 : l.mapM g = .ok b)
    (h2 : b.mapM f = .ok c) : l.mapM (fun a => do f (← g a)) = .ok c := by
  rw [mapM_ok_iff] at h1 h2 ⊢
  induction h1 generalizing c with
  | nil => cases h2; exact .nil
  | cons h _ ih =>
    cases h2 with
    | cons h' h2 => exact .cons (bind_ok_iff.2 ⟨_, h, h'⟩) (ih h2)

theorem agree_argmax (hT : Tracks Best) {cs : List (PVal (XR fp))} {P : List (List (XR fp))} {ls : List (PVal (XR fp))}
    (hl : P.mapM (fun a => do pyGet cs (← argmax a)) = .ok ls) : AgreeBest Best cs P ls := by
  refine agree_rows (g := fun a => .ok a) ?_ hl ?_
  · rw [mapM_ok_iff]; exact (List.forall₂_same).2 fun _ _ => rfl
  · intro a _ row l h1 h2 hn
    cases h1
    obtain ⟨i, hi, h2⟩ := bind_ok_iff.1 h2
    exact bestLabel_of (hT.argmax _ _ hn hi) h2

section
variable (hT : Tracks Best)
include hT

omit hT in
theorem agree_linear_flat {m : Linear (XR fp) (PVal (XR fp))} {s : List (XR fp)} {P : List (List (XR fp))}
    {ls : List (PVal (XR fp))} {g : XR fp → Py (List (XR fp))}
    (hg : ∀ x row, g x = .ok row → XR.nan ∉ row → Best row (if ofInt 0 <ₚ x then 1 else 0))
    (hP : s.mapM g = .ok P) (hl : s.mapM (fun x => pyGet m.classes (if ofInt 0 <ₚ x then 1 else 0)) = .ok ls) :
    AgreeBest Best m.classes P ls := by
  refine agree_rows hP hl fun x _ row l h1 h2 hn => bestLabel_of (hg x row h1 hn) ?_
  rw [← h2]
  split <;> rfl

theorem agree_lr {m : Linear (XR fp) (PVal (XR fp))} {X : Arr (XR fp)} {P : List (List (XR fp))} {ls : List (PVal (XR fp))}
    (hP : m.predictProbaLr X = .ok P) (hl : m.predict X = .ok ls) : AgreeBest Best m.classes P ls := by
  unfold Linear.predictProbaLr at hP
  obtain ⟨s, hd, hP⟩ := bind_ok_iff.1 hP
  unfold Linear.predict at hl
  rw [hd, py_ok_bind] at hl
  cases s with
  | flat s =>
    refine agree_linear_flat (fun x row h hn => ?_) hP hl
    obtain ⟨a, ha, h⟩ := bind_ok_iff.1 h
    cases h
    exact hT.pair _ _ ha hn
  | mat s =>
    obtain ⟨Q, hQ, hP⟩ := bind_ok_iff.1 hP
    have hboth : s.mapM (fun a => do Linear.normRow (← a.mapM expit)) = .ok P := mapM_then hQ hP
    refine agree_rows hboth hl fun a _ row l h1 h2 hn => ?_
    obtain ⟨b, hb, h1⟩ := bind_ok_iff.1 h1
    obtain ⟨i, hi, h2⟩ := bind_ok_iff.1 h2
    obtain ⟨h3, h4⟩ := hT.normRow _ _ _ hb h1 hn
    exact bestLabel_of (h4 i (hT.argmax _ _ h3 hi)) h2

theorem agree_logistic {m : Linear (XR fp) (PVal (XR fp))} {X : Arr (XR fp)} {P : List (List (XR fp))}
    {ls : List (PVal (XR fp))} (hP : m.predictProba X = .ok P) (hl : m.predict X = .ok ls) : AgreeBest Best m.classes P ls := by
  unfold Linear.predictProba at hP
  obtain ⟨o, -, hP⟩ := bind_ok_iff.1 hP
  cases o with
  | true => exact agree_lr hT hP hl
  | false =>
    obtain ⟨s, hd, hP⟩ := bind_ok_iff.1 hP
    unfold Linear.predict at hl
    rw [hd, py_ok_bind] at hl
    cases s with
    | flat s =>
      refine agree_linear_flat (fun x row h hn => ?_) hP hl
      obtain ⟨h3, h4⟩ := hT.sfmax _ _ h hn
      exact h4 _ (hT.negPair _ fun e => h3 (e ▸ by simp))
    | mat s =>
      refine agree_rows hP hl fun a _ row l h1 h2 hn => ?_
      obtain ⟨i, hi, h2⟩ := bind_ok_iff.1 h2
      obtain ⟨h3, h4⟩ := hT.sfmax _ _ h1 hn
      exact bestLabel_of (h4 i (hT.argmax _ _ h3 hi)) h2

theorem agree_sgd {m : Linear (XR fp) (PVal (XR fp))} {X : Arr (XR fp)} {P : List (List (XR fp))} {ls : List (PVal (XR fp))}
    (hP : m.sgdPredictProba X = .ok P) (hl : m.predict X = .ok ls) : AgreeBest Best m.classes P ls := by
  unfold Linear.sgdPredictProba Linear.sgdPredictProba_ at hP
  obtain ⟨-, -, hP⟩ := bind_ok_iff.1 hP
  obtain ⟨l, -, hP⟩ := bind_ok_iff.1 hP
  split at hP
  · exact agree_lr hT hP hl
  · cases hP

theorem agree_nb {jll : Arr (XR fp) → Py (List (List (XR fp)))} {cs : List (PVal (XR fp))} {X : Arr (XR fp)}
    {P : List (List (XR fp))} {ls : List (PVal (XR fp))} (hP : nbPredictProba jll X = .ok P)
    (hl : nbPredict jll cs X = .ok ls) : AgreeBest Best cs P ls := by
  unfold nbPredictProba nbPredictLogProba at hP
  obtain ⟨L, hL, hP⟩ := bind_ok_iff.1 hP
  obtain ⟨Y, hY, hL⟩ := bind_ok_iff.1 hL
  obtain ⟨J, hJ, hL⟩ := bind_ok_iff.1 hL
  unfold nbPredict at hl
  rw [hY, py_ok_bind, hJ, py_ok_bind] at hl
  have hboth : J.mapM (fun a => do (← logNormalize a).mapM safeExp) = .ok P := mapM_then hL hP
  refine agree_rows hboth hl fun a _ row l h1 h2 hn => ?_
  obtain ⟨b, hb, h1⟩ := bind_ok_iff.1 h1
  obtain ⟨i, hi, h2⟩ := bind_ok_iff.1 h2
  obtain ⟨h3, h4⟩ := hT.logNormalize _ _ _ hb h1 hn
  exact bestLabel_of (h4 i (hT.argmax _ _ h3 hi)) h2

theorem agree_tree {t : Tree (XR fp) (PVal (XR fp))} (ht : ∀ v ∈ t.value, ∀ a ∈ v, IsCount a) {X : Arr (XR fp)}
    {P : List (List (XR fp))} {ls : List (PVal (XR fp))} (hP : t.predictProba X = .ok P) (hl : t.predict X = .ok ls) :
    AgreeBest Best t.classes P ls := by
  unfold Tree.predictProba at hP
  obtain ⟨Y, hY, hP⟩ := bind_ok_iff.1 hP
  obtain ⟨rs, hrs, hP⟩ := bind_ok_iff.1 hP
  obtain ⟨nds, hnd, hP⟩ := bind_ok_iff.1 hP
  unfold Tree.predict at hl
  rw [hY, py_ok_bind, hrs, py_ok_bind, hnd, py_ok_bind] at hl
  obtain ⟨ps, hps, hl⟩ := bind_ok_iff.1 hl
  have hboth : nds.mapM (fun nd => do pyGet t.classes ((← t.predFromLeaf nd : Nat) : Int)) = .ok ls := mapM_then hps hl
  refine agree_rows hP hboth fun nd _ row l h1 h2 hn => ?_
  obtain ⟨v, hv, h1⟩ := bind_ok_iff.1 h1
  obtain ⟨i, hi, h2⟩ := bind_ok_iff.1 h2
  unfold Tree.predFromLeaf at hi
  rw [hv, py_ok_bind] at hi
  have hc := ht v (pyGet_ok_mem hv)
  have hNN : ∀ x ∈ v, XR.NN x := by
    intro x hx
    obtain ⟨r, rfl, h0, h1⟩ := hc x hx
    exact XR.NN.fin h0 h1
  exact bestLabel_of (hT.divSum _ _ hNN h1 hn _
    (hT.argmax _ _ (fun h => (hNN _ h).1 rfl) hi)) h2

/-! ### Any object -/

omit hT in
theorem pipelineEst_decides (ns : List String) (es : List (Methods (XR fp))) (h : ns.length = es.length)
    {e : Methods (XR fp)} (he : es.getLast? = some e) {p : Data (XR fp) → Py (List (PVal (XR fp)))}
    (hp : (pipelineEst (ns.zip es)).predict = some p) {pp : Data (XR fp) → Py (List (List (XR fp)))}
    (hpp : (pipelineEst (ns.zip es)).predictProba = some pp) {X : Data (XR fp)} {ls : List (PVal (XR fp))}
    (hl : p X = .ok ls) {P : List (List (XR fp))} (hP : pp X = .ok P) :
    ∃ g gg Z, e.predict = some g ∧ e.predictProba = some gg ∧ g Z = .ok ls ∧ gg Z = .ok P := by
  obtain ⟨g, hg, rfl⟩ := pipelineEst_predict ns es h he hp
  obtain ⟨n, hlast⟩ := zip_last ns es h he
  obtain ⟨Z, hZ, hl⟩ := bind_ok_iff.1 hl
  simp only [pipelineEst, Pipeline.asEst] at hpp
  split at hpp
  · rename_i gg hgg
    cases hpp
    rw [Pipeline.predictProba, hgg, py_ok_bind] at hP
    obtain ⟨Z', hZ', hP⟩ := bind_ok_iff.1 hP
    have hZ'' : Pipeline.applyAll ((ns.zip es).map fun s => (s.1, some s.2)).dropLast X = .ok Z' := hZ'
    rw [hZ] at hZ''
    cases hZ''
    refine ⟨g, gg, Z, hg, ?_, hl, hP⟩
    unfold Pipeline.delegated Pipeline.finalEstimator at hgg
    rw [hlast] at hgg
    simp only [py_ok_bind] at hgg
    cases hm : e.predictProba with
    | none => rw [hm] at hgg; cases hgg
    | some f => rw [hm] at hgg; cases hgg; rfl
  · cases hpp

theorem agree_single {c : String} {e : Attrs (XR fp)} {s : Single (XR fp)} (h : Learned c e s) {cs : List (PVal (XR fp))}
    (hc : c ∈ predicting) (hr : c ∉ regressing) (hd : c ≠ "DummyClassifier") (hl : HasLabels e cs)
    (ht : ∀ t, Learned c e (.treeClassifier t) → ∀ v ∈ t.value, ∀ a ∈ v, IsCount a)
    {p : Data (XR fp) → Py (List (PVal (XR fp)))} (hp : (s.est lib encode).predict = some p)
    {pp : Data (XR fp) → Py (List (List (XR fp)))} (hpp : (s.est lib encode).predictProba = some pp) {X : Data (XR fp)}
    {ls : List (PVal (XR fp))} (hls : p X = .ok ls) {P : List (List (XR fp))} (hP : pp X = .ok P) : AgreeBest Best cs P ls := by
  have hlab := learned_labels h hc hd hl
  have harr : ∀ {q : Arr (XR fp) → Py (List (PVal (XR fp)))} {qq : Arr (XR fp) → Py (List (List (XR fp)))},
      p = Data.onArr q → pp = Data.onArr qq → ∃ Z, q Z = .ok ls ∧ qq Z = .ok P := by
    intro q qq h1 h2
    subst h1 h2
    cases X with
    | arr X => exact ⟨X, hls, hP⟩
    | _ => cases hls
  cases h with
  | @linear _ k _ coef cs' b mc so lo =>
    cases hlab
    generalize Linear.ofFitted coef cs' b mc so lo = m at *
    cases k with
    | logistic =>
      cases hp; cases hpp
      obtain ⟨Z, h1, h2⟩ := harr rfl rfl
      exact agree_logistic hT h2 h1
    | sgd =>
      simp only [Single.est, LinKind.est] at hp hpp
      cases hcp : m.checkProba with
      | error x => rw [hcp] at hpp; cases hpp
      | ok u =>
        rw [hcp] at hp hpp
        cases hp; cases hpp
        obtain ⟨Z, h1, h2⟩ := harr rfl rfl
        exact agree_sgd hT h2 h1
    | plain => cases hpp
  | treeClassifier h1 h2 h3 h4 =>
    have ht := ht _ (.treeClassifier h1 h2 h3 h4)
    cases hlab
    cases hp; cases hpp
    obtain ⟨Z, h1, h2⟩ := harr rfl rfl
    exact agree_tree hT ht h2 h1
  | treeRegressor => cases hpp
  | gaussianNB =>
    cases hlab; cases hp; cases hpp
    obtain ⟨Z, h1, h2⟩ := harr rfl rfl
    exact agree_nb hT h2 h1
  | multinomialNB =>
    cases hlab; cases hp; cases hpp
    obtain ⟨Z, h1, h2⟩ := harr rfl rfl
    exact agree_nb hT h2 h1
  | complementNB =>
    cases hlab; cases hp; cases hpp
    obtain ⟨Z, h1, h2⟩ := harr rfl rfl
    exact agree_nb hT h2 h1
  | xgb =>
    cases hlab; cases hp; cases hpp
    obtain ⟨Z, h1, h2⟩ := harr rfl rfl
    unfold Xgb.predict at h1
    rw [h2, py_ok_bind] at h1
    exact agree_argmax hT h1
  | dummy => exact absurd rfl hd
  | _ => simp [predicting] at hc

theorem behaves_agree {o : SkObj (Attrs (XR fp)) (PVal (XR fp)) (XR fp)} {f : Methods (XR fp)} (h : Behaves lib encode o f)
    {cs : List (PVal (XR fp))} (hl : AnswersWith o cs) (ht : HoldsCounts o) {p : Data (XR fp) → Py (List (PVal (XR fp)))}
    (hp : f.predict = some p) {pp : Data (XR fp) → Py (List (List (XR fp)))} (hpp : f.predictProba = some pp)
    {X : Data (XR fp)} {ls : List (PVal (XR fp))} (hls : p X = .ok ls) {P : List (List (XR fp))} (hP : pp X = .ok P) :
    AgreeBest Best cs P ls := by
  induction hl generalizing f p pp X with
  | leaf h1 h2 h3 h4 =>
    cases h with
    | single hv h => cases ht with | leaf ht => exact agree_single hT h h1 h2 h3 h4 ht hp hpp hls hP
  | @pipeline v steps n a cs h1 h2 ih =>
    cases h with
    | @pipeline _ _ es hv hs' =>
      cases ht with
      | pipeline h1' ht =>
        rw [h1] at h1'
        cases h1'
        have hlen : (steps.map Prod.fst).length = es.length := by rw [← hs'.length_eq]; simp
        rcases forall₂_last hs' with ⟨h3, -⟩ | ⟨a', b, h3, h4, h5⟩
        · rw [List.getLast?_map, h1] at h3; cases h3
        rw [List.getLast?_map, h1] at h3; cases h3
        obtain ⟨g, gg, Z, hg, hgg, h6, h7⟩ := pipelineEst_decides _ _ hlen h4 hp hpp hls hP
        exact ih h5 ht hg hgg h6 h7
  | @ensemble k v fs cs ms =>
    cases h with
    | @ensemble _ _ _ _ _ es hv hcs hs' =>
      cases hp; cases hpp
      cases X with
      | arr X =>
        change Bagging.predictProba _ X = .ok P at hP
        change Bagging.predict _ X = .ok ls at hls
        unfold Bagging.predict at hls
        rw [hP, py_ok_bind] at hls
        obtain ⟨am, ham, hls⟩ := bind_ok_iff.1 hls
        exact agree_argmax hT (mapM_then ham hls)
      | _ => cases hls
  | @boosting v cs stages init loss hyper =>
    cases h with
    | boosting hv hcs hs' hi hl =>
      cases hp; cases hpp
      cases X with
      | arr X =>
        change GB.predictProba _ X = .ok P at hP
        change GB.predict _ X = .ok ls at hls
        unfold GB.predict at hls
        rw [hP, py_ok_bind] at hls
        exact agree_argmax hT hls
      | _ => cases hls

end

end PurePredict
