import Verif.Lemmas.Relabel
import Verif.Props.C21
/-
C103: the names of the classes are names only: a fitted object whose classes have other names answers with the other
names, and with the same probabilities.
-/
namespace PurePredict
open Spec
variable {F : Type} [Arith F] {lib : String → TextLib} {encode : Str → List Nat}

section
variable (trunc : F → Py Int)

/-- **C103**: a fitted object and the same object with other names for its classes are both converted; the second answers
every request as the first does, with renamed labels from `predict`. -/
theorem C103_relabelled {σ : PVal F → PVal F} {o o' : SkObj (Attrs F) (PVal F) F} (h : Relabel σ o o') {f : Methods F} (hb : Behaves lib encode o f) :
    ∃ c c', convert (singles trunc initXgb) o = .ok c ∧ convert (singles trunc initXgb) o' = .ok c' ∧
      Renames σ (c.methods lib encode) (c'.methods lib encode) := by
  obtain ⟨f', hb', hr⟩ := behaves_renames h hb
  obtain ⟨c, hc, rfl⟩ := C89_converted_behaves trunc lib encode o f hb
  obtain ⟨c', hc', rfl⟩ := C89_converted_behaves trunc lib encode o' f' hb'
  exact ⟨c, c', hc, hc', hr⟩

/-- **C103** for single classifiers, spelled out: labels are renamed record by record, an exception remains the same
exception, and the probabilities do not change. -/
theorem C103_single {σ : PVal F → PVal F} {c : String} {v : Option (List Char)} {e e' : Attrs F} {s : Single F} (hv : ReadableVersion v)
    (hl : Learned c e s) (hc : c ∈ labelled) (ho : OtherNames σ e e') :
    ∃ r r' p p', convert (singles trunc initXgb) (.leaf c v e) = .ok r ∧ convert (singles trunc initXgb) (.leaf c v e') = .ok r' ∧
      (r.methods lib encode).predict = some p ∧ (r'.methods lib encode).predict = some p' ∧
      (∀ X ys, p X = .ok ys → p' X = .ok (ys.map σ)) ∧ (∀ X x, p X = .error x → p' X = .error x) ∧
      (r'.methods lib encode).predictProba = (r.methods lib encode).predictProba := by
  have hb : Behaves lib encode (.leaf c v e) (s.est lib encode) := .single hv hl
  obtain ⟨r, r', h1, h2, hr⟩ := C103_relabelled (lib := lib) (encode := encode) trunc (.single (v := v) hc ho) hb
  obtain ⟨r0, h0, he⟩ := C89_converted_behaves trunc lib encode _ _ hb
  rw [h1] at h0
  cases h0
  have hp : ∃ p, (r.methods lib encode).predict = some p := by
    rw [he]
    obtain ⟨t, -, hn⟩ := learned_named hl hc ho
    cases hn with
    | @linear k m =>
      cases k with
      | logistic => exact ⟨_, rfl⟩
      | plain => exact ⟨_, rfl⟩
      | sgd =>
        show ∃ p, (LinKind.sgd.est m).predict = some p
        unfold LinKind.est
        cases m.checkProba <;> exact ⟨_, rfl⟩
    | _ => exact ⟨_, rfl⟩
  obtain ⟨p, hp⟩ := hp
  obtain ⟨p', hp', hX⟩ := hr.2.2.2.1 p hp
  exact ⟨r, r', p, p', h1, h2, hp, hp', fun X ys h => by rw [hX, h]; rfl, fun X x h => by rw [hX, h]; rfl, hr.2.1⟩

/-- **C103** (why DummyClassifier is left out): it never reads the names of its classes. Two fitted dummies with the same
priors answer alike whatever names their classes have; where the position of the largest prior is not a fixed point of the
renaming, the answers are not the renamed ones. -/
theorem C103_dummy_ignores_names {v : Option (List Char)} {e e' : Attrs F} {d : Dummy F} (hv : ReadableVersion v)
    (hl : Learned "DummyClassifier" e (.dummy d)) (hl' : Learned "DummyClassifier" e' (.dummy d)) :
    ∃ r r', convert (singles trunc initXgb) (.leaf "DummyClassifier" v e) = .ok r ∧ convert (singles trunc initXgb) (.leaf "DummyClassifier" v e') = .ok r' ∧
      r'.methods lib encode = r.methods lib encode ∧
      ∀ (σ : PVal F → PVal F) (i : Nat), argmax d.classPrior = .ok i → σ (.int i) ≠ .int i → ¬ Renames σ (r.methods lib encode) (r'.methods lib encode) := by
  obtain ⟨r, h1, e1⟩ := C89_converted_behaves trunc lib encode _ _ (.single hv hl)
  obtain ⟨r', h2, e2⟩ := C89_converted_behaves trunc lib encode _ _ (.single hv hl')
  refine ⟨r, r', h1, h2, e2.trans e1.symm, fun σ i hi hσ hr => ?_⟩
  rw [e1, e2] at hr
  obtain ⟨p', hp', hX⟩ := hr.2.2.2.1 _ rfl
  cases hp'
  have hp : ((Single.dummy d).est lib encode).predict = some (Data.onArr fun X => do return (← d.predict X).map fun (i : Nat) => PVal.int i) := rfl
  have := hX (.arr (.ofMat [[]]))
  have hd : d.predict (.ofMat [[]] : Arr F) = .ok [i] := C21_predict_is_position d _ 1 i (len_ofMat _) hi
  simp only [Data.onArr, hd, py_ok_bind, py_pure, List.map_cons, List.map_nil, Except.map, Except.ok.injEq, List.cons.injEq, and_true] at this
  exact hσ this.symm

end

/-! ### A case that meets the hypotheses -/

/-- upper case names for two classes -/
def shout : PVal F → PVal F
  | .str "no" => .str "NO"
  | .str "yes" => .str "YES"
  | x => x

def shoutRidge (a b c : F) : Attrs F :=
  [("alpha", .float a), ("coef_", .ndarray (vmat [[a, b]])), ("intercept_", .ndarray (vnums [c])),
   ("classes_", .ndarray (.list [.str "NO", .str "YES"]))]

theorem shout_names (a b c : F) : OtherNames shout (demoRidge a b c) (shoutRidge a b c) := by
  refine ⟨fun n hn => ⟨fun v h => ?_, fun h => ?_⟩, [.str "no", .str "yes"], ⟨rfl, ?_⟩, rfl, ?_⟩
  · unfold HasAttr at *
    simp only [demoRidge, shoutRidge, List.lookup_cons, beq_eq_false_iff_ne.2 hn, List.lookup_nil] at h ⊢
    exact h
  · unfold NoAttr at *
    simp only [demoRidge, shoutRidge, List.lookup_cons, beq_eq_false_iff_ne.2 hn, List.lookup_nil] at h ⊢
    exact h
  · intro c hc
    simp only [List.mem_cons, List.not_mem_nil, or_false] at hc
    rcases hc with rfl | rfl <;> exact .str _
  · intro c hc
    simp only [List.map_cons, List.map_nil, List.mem_cons, List.not_mem_nil, or_false] at hc
    rcases hc with rfl | rfl
    · exact .str "NO"
    · exact .str "YES"

/-- a scaler followed by a classifier, and two such pipelines in an ensemble -/
example (a b c d : F) (v : Option (List Char)) (hv : ReadableVersion v) :
    let pipe := fun e => SkObj.pipeline v ([("scale", .leaf "StandardScaler" v (demoScalerOf a b c d))] ++ [("clf", .leaf "RidgeClassifier" v e)])
    Relabel shout (pipe (demoRidge a b c)) (pipe (shoutRidge a b c)) ∧
    (∃ f, Behaves lib encode (pipe (demoRidge a b c)) f) ∧
    Relabel shout (.ensemble .bagging v none [.str "no", .str "yes"] [pipe (demoRidge a b c), pipe (demoRidge a b c)])
      (.ensemble .bagging v none [.str "NO", .str "YES"] [pipe (shoutRidge a b c), pipe (shoutRidge a b c)]) := by
  have h1 : Relabel shout (.leaf "RidgeClassifier" v (demoRidge a b c)) (.leaf "RidgeClassifier" v (shoutRidge a b c)) :=
    .single (by decide) (shout_names a b c)
  refine ⟨.pipeline h1, ?_, ?_⟩
  · refine ⟨_, .pipeline (es := [_, _]) hv (.cons (.single hv (.standard (s := ⟨true, true, some [a, b], some [c, d]⟩) rfl rfl rfl rfl)) (.cons (.single hv
      (.linear (coef := [[a, b]]) (cs := [.str "no", .str "yes"]) (b := some (.vector [c])) (mc := none) (so := none) (lo := none) (k := .plain) ?_ rfl ⟨rfl, ?_⟩ rfl rfl rfl rfl)) .nil))⟩
    · simp [linearClasses]
    · intro c hc
      simp only [List.mem_cons, List.not_mem_nil, or_false] at hc
      rcases hc with rfl | rfl <;> exact .str _
  · refine .ensemble (fun _ => shout) ?_ rfl ?_
    · intro c hc
      simp only [List.mem_cons, List.not_mem_nil, or_false] at hc
      rcases hc with rfl | rfl
      · exact .str "NO"
      · exact .str "YES"
    · intro p hp
      simp only [List.zip_cons_cons, List.zip_nil_right, List.mem_cons, List.not_mem_nil, or_false] at hp
      rcases hp with rfl | rfl <;> exact .pipeline h1

end PurePredict
