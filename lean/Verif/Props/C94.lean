import Verif.Props.C92
import Verif.Spec.Columns
import Verif.Lemmas.Columns
/-
C94: one probability per class.
-/
namespace PurePredict
open Spec
variable {F : Type} [Arith F] {lib : String → TextLib} {encode : Str → List Nat}

/-- The probabilities of the methods have `k` entries per row. -/
structure Wide (f : Methods F) (k : Nat) : Prop where
  proba : ∀ p X P, f.predictProba = some p → p X = .ok P → ∀ r ∈ P, r.length = k
  logProba : ∀ p X P, f.predictLogProba = some p → p X = .ok P → ∀ r ∈ P, r.length = k

theorem wide_classifier {p : Arr F → Py (List (PVal F))} {pp pl : Arr F → Py (List (List F))} {k : Nat} (hp : WideAs pp k)
    (hl : WideAs pl k) : Wide (classifier p pp pl) k where
  proba := by
    intro _ X P ht hP
    cases ht
    cases X with
    | arr X => exact hp X P hP
    | _ => cases hP
  logProba := by
    intro _ X P ht hP
    cases ht
    cases X with
    | arr X => exact hl X P hP
    | _ => cases hP

theorem wide_probabilist {p : Arr F → Py (List (PVal F))} {pp : Arr F → Py (List (List F))} {k : Nat} (hp : WideAs pp k) :
    Wide (probabilist p pp) k where
  proba := by
    intro _ X P ht hP
    cases ht
    cases X with
    | arr X => exact hp X P hP
    | _ => cases hP
  logProba := by intro _ _ _ h; cases h

theorem wide_predictor (p : Arr F → Py (List (PVal F))) (k : Nat) : Wide (predictor p) k where
  proba := by intro _ _ _ h; cases h
  logProba := by intro _ _ _ h; cases h

theorem wide_linear (kind : LinKind) {m : Linear F (PVal F)} {b : List F} (hb : m.intercept = some b) {k : Nat}
    (hk : (if min m.coef.length b.length = 1 then 2 else min m.coef.length b.length) = k) :
    Wide ((Single.linear kind m).est lib encode) k := by
  subst hk
  cases kind with
  | logistic => exact wide_classifier (wide_logistic hb) (wide_log (wide_logistic hb))
  | sgd =>
    simp only [Single.est, LinKind.est]
    cases m.checkProba with
    | error x => exact wide_predictor _ _
    | ok u =>
      refine wide_classifier (wide_sgd hb) fun X P h => ?_
      obtain ⟨-, -, h⟩ := bind_ok_iff.1 h
      exact wide_log (wide_sgd hb) X P h
  | plain => exact wide_predictor _ _

theorem wide_single {s : Single F} {k : Nat} (h : ForClasses s k) : Wide (s.est lib encode) k := by
  cases h with
  | @binary kind m b h1 h2 h3 => exact wide_linear kind h2 (by simp [h1, h3])
  | @multi kind m b k h1 h2 h3 h4 => exact wide_linear kind h3 (by simp [h1, h4, h2])
  | tree h => exact wide_classifier (wide_tree h) (wide_log (wide_tree h))
  | gaussian h => subst h; exact wide_classifier (wide_nb (wide_gaussian _)).2 (wide_nb (wide_gaussian _)).1
  | multinomial h => subst h; exact wide_classifier (wide_nb (wide_multinomial _)).2 (wide_nb (wide_multinomial _)).1
  | complement h h2 =>
    subst h
    exact wide_classifier (wide_nb (wide_complement _ h2)).2 (wide_nb (wide_complement _ h2)).1
  | softprob h => exact wide_probabilist (wide_softprob h)
  | logistic h => exact wide_probabilist (wide_booster h)
  | dummy h => subst h; exact wide_classifier (wide_dummy _) (wide_apply (wide_dummy _))

theorem zip_last (ns : List String) (es : List (Methods F)) (h : ns.length = es.length) {e : Methods F}
    (he : es.getLast? = some e) : ∃ n, ((ns.zip es).map fun s => (s.1, some s.2)).getLast? = some (n, some e) := by
  rcases List.eq_nil_or_concat es with rfl | ⟨es, e', rfl⟩
  · cases he
  · rcases List.eq_nil_or_concat ns with rfl | ⟨ns, n, rfl⟩
    · simp at h
    · simp only [List.concat_eq_append, List.length_append, List.length_singleton, Nat.add_right_cancel_iff] at h
      simp only [List.concat_eq_append, List.getLast?_append_of_ne_nil, ne_eq, List.cons_ne_nil, not_false_eq_true,
        List.getLast?_singleton, Option.some.injEq] at he
      subst he
      exact ⟨n, by simp [List.concat_eq_append, List.zip_append h]⟩

theorem wide_pipeline (ns : List String) (es : List (Methods F)) (h : ns.length = es.length) {e : Methods F}
    (he : es.getLast? = some e) {k : Nat} (hw : Wide e k) : Wide (pipelineEst (ns.zip es)) k := by
  obtain ⟨n, hl⟩ := zip_last ns es h he
  have hd : ∀ (R : Type) (m : Methods F → Option (Data F → Py R)) g,
      Pipeline.delegated ⟨(ns.zip es).map fun s => (s.1, some s.2)⟩ m = .ok g → m e = some g := by
    intro R m g h
    unfold Pipeline.delegated Pipeline.finalEstimator at h
    rw [hl] at h
    simp only [py_ok_bind] at h
    cases hm : m e with
    | none => rw [hm] at h; cases h
    | some f => rw [hm] at h; cases h; rfl
  constructor
  · intro p X P hp hP
    simp only [pipelineEst, Pipeline.asEst] at hp
    split at hp
    · rename_i g hg
      cases hp
      rw [Pipeline.predictProba, hg, py_ok_bind] at hP
      obtain ⟨Z, hZ, hP⟩ := bind_ok_iff.1 hP
      exact hw.proba g Z P (hd _ _ _ hg) hP
    · cases hp
  · intro p X P hp hP
    simp only [pipelineEst, Pipeline.asEst] at hp
    split at hp
    · rename_i g hg
      cases hp
      rw [Pipeline.predictLogProba, hg, py_ok_bind] at hP
      obtain ⟨Z, hZ, hP⟩ := bind_ok_iff.1 hP
      exact hw.logProba g Z P (hd _ _ _ hg) hP
    · cases hp

theorem wide_runProba {m : Methods F} {k : Nat} (h : Wide m k) : WideAs m.runProba k := by
  intro X P hP
  unfold Est.runProba at hP
  cases hp : m.predictProba with
  | none => rw [hp] at hP; cases hP
  | some p => rw [hp] at hP; exact h.proba p _ P hp hP

theorem lossOf_outputs {loss : String} {k : Nat} {l : Loss} (h : lossOf loss k = some l) : l.outputs = k := by
  unfold lossOf at h
  split at h
  · cases h; rfl
  · split at h
    · rename_i h1; cases h; exact h1.2.symm
    · split at h
      · rename_i h1; cases h; exact h1.2.symm
      · cases h

/-- What behaves as a fitted classifier for `k` classes has `k` probabilities per row. -/
theorem behaves_wide {o : SkObj (Attrs F) (PVal F) F} {f : Methods F} (h : Behaves lib encode o f) {k : Nat}
    (hc : Classifies o k) : Wide f k := by
  induction hc generalizing f with
  | leaf hl hs =>
    cases h with
    | single hv hl' =>
      rw [C89_behaviour_unique (.single hv hl') (.single hv hl)]
      exact wide_single hs
  | @pipeline v steps n o k h1 h2 ih =>
    cases h with
    | @pipeline _ _ es hv hs =>
      have hlen : (steps.map Prod.fst).length = es.length := by rw [← hs.length_eq]; simp
      rcases forall₂_last hs with ⟨h3, -⟩ | ⟨a', b, h3, h4, h5⟩
      · rw [List.getLast?_map, h1] at h3; cases h3
      rw [List.getLast?_map, h1] at h3; cases h3
      exact wide_pipeline _ _ hlen h4 (ih h5)
  | @ensemble kd v fs cs ms k hne h1 ih =>
    cases h with
    | @ensemble _ _ _ _ _ es hv hcs hs =>
      have hb : ∀ e ∈ (es.map fun m => (⟨m.runProba⟩ : Member F)), WideAs e.predictProba k := by
        intro e he
        obtain ⟨m, hm, rfl⟩ := List.mem_map.1 he
        refine wide_runProba ?_
        clear hv hcs he h1
        induction hs with
        | nil => cases hm
        | cons hb _ ih' =>
          rcases List.mem_cons.1 hm with rfl | hm
          · exact ih _ List.mem_cons_self hb
          · exact ih' (by intro h; subst h; cases ‹List.Forall₂ _ _ _›; cases hm) (fun p h => ih p (List.mem_cons_of_mem _ h)) hm
      have hp := wide_bagging (b := ⟨fs, cs, es.map fun m => (⟨m.runProba⟩ : Member F)⟩) hb
      exact wide_classifier hp (wide_apply hp)
  | @boosting v cs stages init loss hyper =>
    cases h with
    | @boosting _ _ _ _ _ lr nf l es e hv hcs hs hi hl =>
      have hp := wide_gb (⟨cs, es.map fun st => st.map fun m => m.runNumbers, e.runProba, lr, nf, l⟩ : GB F (PVal F))
      rw [show (GB.loss _).outputs = _ from lossOf_outputs hl] at hp
      exact wide_classifier hp (wide_apply hp)

variable (trunc : F → Py Int)

/-- **C94**: on every request that the converted classifier answers, every row of `predict_proba` and of
`predict_log_proba` has exactly one entry per class it was fitted for. -/
theorem C94_one_per_class {o : SkObj (Attrs F) (PVal F) F} {f : Methods F} (h : Behaves lib encode o f) {k : Nat}
    (hc : Classifies o k) : ∃ r, convert (singles trunc initXgb) o = .ok r ∧ ∀ X,
      (∀ p P, (r.methods lib encode).predictProba = some p → p X = .ok P → ∀ row ∈ P, row.length = k) ∧
      ∀ p P, (r.methods lib encode).predictLogProba = some p → p X = .ok P → ∀ row ∈ P, row.length = k := by
  obtain ⟨r, hr, hm⟩ := C89_converted_behaves trunc lib encode o f h
  have h1 := behaves_wide h hc
  refine ⟨r, hr, fun X => ?_⟩
  rw [hm]
  exact ⟨fun p P hp hP => h1.proba p X P hp hP, fun p P hp hP => h1.logProba p X P hp hP⟩

/-- **C94**, against the labels: a classifier for as many classes as it has labels lists the labels in
`classes_`, and every row of its probabilities has one entry per label. -/
theorem C94_one_per_label {o : SkObj (Attrs F) (PVal F) F} {f : Methods F} (h : Behaves lib encode o f) {cs : List (PVal F)}
    (hl : LabelsOf o cs) (hc : Classifies o cs.length) :
    ∃ r, convert (singles trunc initXgb) o = .ok r ∧ r.classes = .ok (.list cs) ∧ ∀ X,
      (∀ p P, (r.methods lib encode).predictProba = some p → p X = .ok P → ∀ row ∈ P, row.length = cs.length) ∧
      ∀ p P, (r.methods lib encode).predictLogProba = some p → p X = .ok P → ∀ row ∈ P, row.length = cs.length := by
  obtain ⟨r, hr, h1⟩ := C94_one_per_class trunc h hc
  obtain ⟨r', hr', h2⟩ := C91_classes trunc h hl
  rw [hr] at hr'
  cases hr'
  exact ⟨r, hr, h2, h1⟩

/-- The coefficients are needed: a logistic model for three labels whose coefficients are a single row answers
with two columns. -/
theorem C94_single_row {m : Linear F (PVal F)} {w : List F} {b : F} (hw : m.coef = [w]) (hb : m.intercept = some [b])
    {X : Arr F} {P : List (List F)} (h : m.predictProba X = .ok P) : ∀ row ∈ P, row.length = 2 := by
  have := wide_logistic hb X P h
  rw [hw] at this
  exact this

/-! ### Non-vacuity -/

/-- Bagging of two prior classifiers for three classes. -/
def demoPrior (a b c : F) : Attrs F :=
  [("strategy", .str "prior"), ("class_prior_", .ndarray (vnums [a, b, c])), ("n_classes_", .int 3), ("n_outputs_", .int 1)]

theorem demoPrior_learned (a b c : F) : Learned "DummyClassifier" (demoPrior a b c) (.dummy ⟨[a, b, c]⟩) :=
  .dummy (.inr ⟨rfl, rfl⟩) rfl ⟨_, rfl, .int _⟩ ⟨_, rfl, .int _⟩

example (v v' : Option (List Char)) (s : Attrs F) (a b c : F) : Classifies (.pipeline v [("scale", .leaf "StandardScaler" v' s),
    ("vote", .ensemble .bagging v none [.int 0, .int 1, .int 2]
      [.leaf "DummyClassifier" v' (demoPrior a b c), .leaf "DummyClassifier" v (demoPrior c b a)])]) 3 := by
  refine .pipeline rfl (.ensemble (by simp) fun m hm => ?_)
  simp only [List.mem_cons, List.not_mem_nil, or_false] at hm
  rcases hm with rfl | rfl
  · exact .leaf (demoPrior_learned a b c) (.dummy rfl)
  · exact .leaf (demoPrior_learned c b a) (.dummy rfl)

/-- A ridge classifier with one row of coefficients is for two classes. -/
example (v : Option (List Char)) (a b c : F) : Classifies (.leaf "RidgeClassifier" v (demoRidge a b c)) 2 ∧
    LabelsOf (.leaf "RidgeClassifier" v (demoRidge a b c)) [.str "no", .str "yes"] := by
  have hl : HasLabels (demoRidge a b c) [.str "no", .str "yes"] := by
    refine ⟨rfl, fun c hc => ?_⟩
    simp only [List.mem_cons, List.not_mem_nil, or_false] at hc
    rcases hc with rfl | rfl <;> exact .str _
  exact ⟨.leaf (.linear (k := .plain) (b := some (.vector [c])) (mc := none) (so := none) (lo := none)
      (by simp [linearClasses]) (show HasMat _ _ [[a, b]] from rfl) hl rfl rfl rfl rfl)
    (.binary rfl rfl rfl), .leaf (by simp [predicting]) hl (by decide)⟩

end PurePredict
