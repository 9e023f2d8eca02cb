import Verif.Lemmas.Construct
import Verif.Props.C80
/-
C84: what conversion of a single estimator copies.
-/
namespace PurePredict
open Spec
variable {F : Type} (trunc : F → Py Int) (xgb : SkFitted F → Py (PVal F))

theorem built_plain {d : String} {fs : List (FieldSpec F)} {v : Option (List Char)} {e : Attrs F} {r : PVal F}
    (h : Built d fs v e r) : Plain r := by
  obtain ⟨-, l, -, hp, rfl⟩ := h
  refine .pure _ _ _ ?_
  intro v hv
  obtain ⟨p, hp', rfl⟩ := List.mem_map.1 hv
  exact hp p hp'

/-- Constructor and row of the specification agree. -/
def CtorAgrees (ctor : SkFitted F → Py (PVal F)) (d : String) (fs : List (FieldSpec F)) : Prop :=
  ∀ e r, ctor e = .ok r ↔ Built d fs e.version e.state r

/-- The constructors and the table of the specification, row by row. -/
theorem constructors_agree : List.Forall₂ (fun (p : String × (SkFitted F → Py (PVal F)))
      (q : String × String × List (FieldSpec F)) => p.1 = q.1 ++ "Pure" ∧ CtorAgrees p.2 q.2.1 q.2.2)
    (constructors trunc) (classTable trunc) := by
  unfold constructors classTable
  repeat' first
    | exact List.Forall₂.nil
    | exact ⟨by rfl, initLinear_iff _⟩
    | exact ⟨by rfl, initTree_iff _⟩
    | exact ⟨by rfl, initGaussianNB_iff⟩
    | exact ⟨by rfl, initDiscreteNB_iff _⟩
    | exact ⟨by rfl, initSimpleImputer_iff⟩
    | exact ⟨by rfl, initMissingIndicator_iff⟩
    | exact ⟨by rfl, initDummy_iff⟩
    | exact ⟨by rfl, initEncoder_iff _⟩
    | exact ⟨by rfl, initStandardScaler_iff⟩
    | exact ⟨by rfl, initMinMaxScaler_iff⟩
    | exact ⟨by rfl, initMaxAbsScaler_iff⟩
    | exact ⟨by rfl, initNormalizer_iff⟩
    | exact ⟨by rfl, initDictVectorizer_iff⟩
    | exact ⟨by rfl, initTfidfVectorizer_iff trunc⟩
    | exact ⟨by rfl, initCountVectorizer_iff trunc⟩
    | exact ⟨by rfl, initTfidfTransformer_iff⟩
    | exact ⟨by rfl, initHashingVectorizer_iff⟩
    | refine List.Forall₂.cons ?_ ?_

/-- The scikit-learn classes of the table. -/
def singleNames : List String := [
  "LogisticRegression", "RidgeClassifier", "SGDClassifier", "Perceptron", "PassiveAggressiveClassifier",
  "LinearSVC", "DecisionTreeClassifier", "DecisionTreeRegressor", "ExtraTreeClassifier", "ExtraTreeRegressor",
  "GaussianNB", "MultinomialNB", "ComplementNB", "SimpleImputer", "MissingIndicator", "DummyClassifier",
  "OneHotEncoder", "OrdinalEncoder", "StandardScaler", "MinMaxScaler", "MaxAbsScaler", "Normalizer",
  "DictVectorizer", "TfidfVectorizer", "CountVectorizer", "TfidfTransformer", "HashingVectorizer"]

theorem classTable_names : (classTable trunc).map (·.1) = singleNames := rfl

theorem names_nodup : (singleNames.map fun n => (n ++ "Pure").toList).Nodup := by decide +kernel

theorem names_counterpart : ∀ c ∈ singleNames, ∃ m ∈ exports, c ∈ m.2 := by decide +kernel

theorem find_of_forall₂ {α β : Type} {R : α → β → Prop} {l : List α} {l' : List β} (h : List.Forall₂ R l l')
    (f : α → List Char) (g : β → List Char) (hfg : ∀ a b, R a b → f a = g b) (hn : (l'.map g).Nodup)
    {b : β} (hb : b ∈ l') : ∃ a, l.find? (fun a => f a == g b) = some a ∧ R a b := by
  induction h with
  | nil => cases hb
  | @cons a b' l l' h1 _ ih =>
    rw [List.map_cons, List.nodup_cons] at hn
    rcases List.mem_cons.1 hb with rfl | hb
    · exact ⟨a, by simp [hfg _ _ h1], h1⟩
    · obtain ⟨x, hx, hr⟩ := ih hn.2 hb
      refine ⟨x, ?_, hr⟩
      have : f a ≠ g b := by
        rw [hfg _ _ h1]
        intro e
        exact hn.1 (e ▸ List.mem_map_of_mem hb)
      rw [List.find?_cons_of_neg (by simpa using this)]
      exact hx

theorem construct_row {q : String × String × List (FieldSpec F)} (hq : q ∈ classTable trunc) (m : List Char)
    (e : SkFitted F) (r : PVal F) :
    (singles trunc xgb).construct m (q.1 ++ "Pure").toList e = .ok r ↔ Built q.2.1 q.2.2 e.version e.state r := by
  obtain ⟨p, hp, hr⟩ := find_of_forall₂ (constructors_agree trunc) (fun p => p.1.toList)
    (fun q => (q.1 ++ "Pure").toList) (fun a b h => by rw [h.1]) (by
      have := names_nodup
      rw [← classTable_names trunc, List.map_map] at this
      exact this) hq
  unfold singles
  simp only
  rw [hp]
  exact hr.2 e r

/-- **C84**, single estimators: conversion succeeds exactly when the attributes the class needs exist in
the fitted object, those that must be arrays are arrays, and all the data are plain; and it returns an
object of the counterpart class with exactly those attributes: arrays as lists of the same contents,
everything else unchanged (see `Spec.classTable` for the few exceptions). -/
theorem C84_single {c dotted : String} {fs : List (FieldSpec F)} (h : (c, dotted, fs) ∈ classTable trunc)
    (v : Option (List Char)) (s : Attrs F) (r : PureEst (PVal F) (PVal F) F) :
    convert (singles trunc xgb) (.leaf c v s) = .ok r ↔
      ∃ b, r = .leaf (c ++ "Pure").toList b ∧ Built dotted fs v s b := by
  rw [convert_leaf]
  have key := fun m b => construct_row trunc xgb h m ⟨c, v, s⟩ b
  constructor
  · rintro ⟨n, b, rfl, rfl, m, -, hb⟩
    exact ⟨b, rfl, (key _ b).1 hb⟩
  · rintro ⟨b, rfl, hb⟩
    have hc : c ∈ singleNames := by
      rw [← classTable_names trunc]; exact List.mem_map_of_mem (f := fun q => q.1) h
    obtain ⟨m, hm, hcm⟩ := names_counterpart c hc
    exact ⟨_, b, rfl, rfl, m.1, ⟨m.2, hm, hcm⟩, (key _ b).2 hb⟩

/-- Every constructor ends with `check_types`. -/
theorem C84_checks : (singles trunc xgb).Checks := by
  intro m n e b h
  unfold singles at h ⊢
  simp only at h ⊢
  split at h
  · next p hp =>
    obtain ⟨q, -, hq⟩ := forall₂_right (constructors_agree trunc).flip (List.mem_of_find?_eq_some hp)
    exact plain_check (built_plain ((hq.2 e b).1 h))
  · obtain ⟨r, -, h⟩ := bind_ok_iff.1 h
    obtain ⟨_, hc, h⟩ := bind_ok_iff.1 h
    cases h
    exact hc

/-- **C84**: no array, no set, no function, no numpy integer, no scikit-learn object and no sparse
matrix is left in a converted single estimator, at any depth. -/
theorem C84_plain {c dotted : String} {fs : List (FieldSpec F)} (h : (c, dotted, fs) ∈ classTable trunc)
    (v : Option (List Char)) (s : Attrs F) (n : List Char) (b : PVal F)
    (hr : convert (singles trunc xgb) (.leaf c v s : SkObj (Attrs F) (PVal F) F) = .ok (.leaf n b)) : Plain b := by
  obtain ⟨b', hb, hB⟩ := (C84_single trunc xgb h v s _).1 hr
  cases hb
  exact built_plain hB

/-- A single estimator and its counterpart. -/
def Spec.Counted (c : String) (v : Option (List Char)) (s : Attrs F) (n : List Char) (b : PVal F) : Prop :=
  n = (c ++ "Pure").toList ∧ ∀ dotted fs, (c, dotted, fs) ∈ classTable trunc → Built dotted fs v s b

theorem mirrors_mono {α β U G : Type} {S T : String → Option (List Char) → α → List Char → β → Prop}
    (h : ∀ c v s n b, S c v s n b → T c v s n b) (o : SkObj α U G) (r : PureEst β U G) (hm : Mirrors S o r) :
    Mirrors T o r := by
  induction o using SkObj.induct generalizing r with
  | _ o ih =>
    cases hm with
    | leaf hs => exact .leaf (h _ _ _ _ _ hs)
    | pipeline h1 h2 => exact .pipeline h1 (forall₂_imp_mem h2 fun a ha b hb => ih a (by simpa [parts] using ha) b hb)
    | union h1 h2 => exact .union h1 (forall₂_imp_mem h2 fun a ha b hb => ih a (by simpa [parts] using ha) b hb)
    | ensemble h1 => exact .ensemble (forall₂_imp_mem h1 fun a ha b hb => ih a (by simpa [parts] using ha) b hb)
    | boosting h1 h2 h3 h4 =>
      refine .boosting h1 (forall₂_imp_mem h2 fun a ha b hb => ih a ?_ b hb) (ih _ ?_ _ h3) h4
      · rw [parts]; exact List.mem_append_left _ ha
      · rw [parts]; simp

/-- **C84**, at any depth: in a converted pipeline, union, bagging ensemble, forest or boosting model
(nested in any way) every single estimator is the faithful copy of the one at the same place. -/
theorem C84_nested (o : SkObj (Attrs F) (PVal F) F) (r : PureEst (PVal F) (PVal F) F)
    (h : convert (singles trunc xgb) o = .ok r) : Mirrors (Counted trunc) o r := by
  refine mirrors_mono ?_ o r (C80_mirrors _ o r h)
  rintro c v s n b ⟨rfl, m, hm, hb⟩
  exact ⟨rfl, fun dotted fs hq => (construct_row trunc xgb hq _ _ _).1 hb⟩

/-! ### Non-vacuity -/

/-- A fitted scaler with two features, its arrays holding integers (numbers are `Nat` here). -/
def demoScaler : Attrs Nat :=
  [("with_mean", .bool true), ("copy", .bool true), ("with_std", .bool true),
   ("mean_", .ndarray (.list [.float 3, .float 4])), ("scale_", .ndarray (.list [.float 1, .float 2])),
   ("n_samples_seen_", .npScalar (.int 10))]

/-- Its conversion, inside a pipeline. -/
example : convert (singles (fun n : Nat => .ok n) fun _ => .error .typeError)
    (.pipeline (some "0.22".toList) [("scale", .leaf "StandardScaler" (some "0.22".toList) demoScaler)] :
      SkObj (Attrs Nat) (PVal Nat) Nat) =
    .ok (.pipeline [("scale", .leaf "StandardScalerPure".toList (.pure "preprocessing._data.StandardScalerPure"
      ["with_mean", "with_std", "scale_", "mean_"]
      [.bool true, .bool true, .list [.float 1, .float 2], .list [.float 3, .float 4]]))]) := by rfl

example : Built "preprocessing._data.StandardScalerPure"
    [Copied "with_mean", Copied "with_std", ListedOrNone "scale_", ListedOrNone "mean_"]
    (some "0.22".toList) demoScaler (.pure "preprocessing._data.StandardScalerPure"
      ["with_mean", "with_std", "scale_", "mean_"]
      [.bool true, .bool true, .list [.float 1, .float 2], .list [.float 3, .float 4]]) :=
  (initStandardScaler_iff ⟨"StandardScaler", some "0.22".toList, demoScaler⟩ _).1 (by rfl)

/-- A `numpy.float64` intercept passes `check_types` and stays in the converted model. -/
example : initLinear "svm._classes.LinearSVCPure" (⟨"LinearSVC", none,
    [("coef_", .ndarray (.list [.list [.float 1]])), ("classes_", .ndarray (.list [.int 0, .int 1])),
     ("intercept_", .npFloat 5)]⟩ : SkFitted Nat) =
    .ok (.pure "svm._classes.LinearSVCPure" ["coef_", "classes_", "intercept_"]
      [.list [.list [.float 1]], .list [.int 0, .int 1], .list [.npFloat 5, .npFloat 5]]) := by rfl

end PurePredict
