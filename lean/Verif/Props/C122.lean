import Verif.Lemmas.Spares
import Verif.Lemmas.Parts
import Verif.Props.C80
import Verif.Props.C85
import Verif.Props.C113
/-
C122: an object that lacks a needed attribute anywhere is refused when it is converted.
-/
namespace PurePredict
open Spec
variable {F : Type} [Arith F] (trunc : F → Py Int)

section
variable {α β V G : Type} (K : Leaves α β V)

theorem all_robbed {o o' : SkObj α V G} {x : PyErr} (h : ∀ r, convert K o = .ok r → convert K o' = .error x) (l m : List (SkObj α V G)) (r : List (PureEst β V G))
    (hr : convertAll K (l ++ o :: m) = .ok r) : convertAll K (l ++ o' :: m) = .error x := by
  induction l generalizing r with
  | nil =>
    rw [List.nil_append, convertAll] at hr ⊢
    cases ho : convert K o with
    | error y => rw [ho] at hr; cases hr
    | ok a => rw [h a ho]; rfl
  | cons a l ih =>
    rw [List.cons_append, convertAll] at hr ⊢
    cases ha : convert K a with
    | error y => rw [ha] at hr; cases hr
    | ok b =>
      rw [ha] at hr
      cases hl : convertAll K (l ++ o :: m) with
      | error y => rw [hl] at hr; cases hr
      | ok c => rw [ih c hl]; rfl

theorem steps_robbed {o o' : SkObj α V G} {x : PyErr} (h : ∀ r, convert K o = .ok r → convert K o' = .error x) (l m : List (String × SkObj α V G)) (name : String)
    (r : List (String × PureEst β V G)) (hr : convertSteps K (l ++ (name, o) :: m) = .ok r) : convertSteps K (l ++ (name, o') :: m) = .error x := by
  induction l generalizing r with
  | nil =>
    rw [List.nil_append, convertSteps, convertStep] at hr ⊢
    cases ho : convert K o with
    | error y => rw [ho] at hr; cases hr
    | ok a => rw [h a ho]; rfl
  | cons a l ih =>
    rw [List.cons_append, convertSteps] at hr ⊢
    cases ha : convertStep K a with
    | error y => rw [ha] at hr; cases hr
    | ok b =>
      rw [ha] at hr
      cases hl : convertSteps K (l ++ (name, o) :: m) with
      | error y => rw [hl] at hr; cases hr
      | ok c => rw [ih c hl]; rfl

theorem stages_robbed {s s' : List (SkObj α V G)} {x : PyErr} (h : ∀ r, convertAll K s = .ok r → convertAll K s' = .error x) (l m : List (List (SkObj α V G)))
    (r : List (List (PureEst β V G))) (hr : convertStages K (l ++ s :: m) = .ok r) : convertStages K (l ++ s' :: m) = .error x := by
  induction l generalizing r with
  | nil =>
    rw [List.nil_append, convertStages] at hr ⊢
    cases ho : convertAll K s with
    | error y => rw [ho] at hr; cases hr
    | ok a => rw [h a ho]; rfl
  | cons a l ih =>
    rw [List.cons_append, convertStages] at hr ⊢
    cases ha : convertAll K a with
    | error y => rw [ha] at hr; cases hr
    | ok b =>
      rw [ha] at hr
      cases hl : convertStages K (l ++ s :: m) with
      | error y => rw [hl] at hr; cases hr
      | ok c => rw [ih c hl]; rfl

theorem all_member (l : List (SkObj α V G)) (r : List (PureEst β V G)) (h : convertAll K l = .ok r) : ∀ o ∈ l, ∃ p, convert K o = .ok p := by
  induction l generalizing r with
  | nil => simp
  | cons a l ih =>
    rw [convertAll] at h
    cases ha : convert K a with
    | error y => rw [ha] at h; cases h
    | ok b =>
      rw [ha] at h
      cases hl : convertAll K l with
      | error y => rw [hl] at h; cases h
      | ok c =>
        rintro o (_ | ⟨_, ho⟩)
        · exact ⟨b, ha⟩
        · exact ih c hl o ho

theorem steps_member (l : List (String × SkObj α V G)) (r : List (String × PureEst β V G)) (h : convertSteps K l = .ok r) : ∀ n o, (n, o) ∈ l → ∃ p, convert K o = .ok p := by
  induction l generalizing r with
  | nil => simp
  | cons a l ih =>
    rw [convertSteps] at h
    cases ha : convertStep K a with
    | error y => rw [ha] at h; cases h
    | ok b =>
      rw [ha] at h
      cases hl : convertSteps K l with
      | error y => rw [hl] at h; cases h
      | ok c =>
        intro n o ho
        rcases List.mem_cons.1 ho with rfl | ho
        · rw [convertStep] at ha
          cases hc : convert K o with
          | error y => rw [hc] at ha; cases ha
          | ok p => exact ⟨p, rfl⟩
        · exact ih c hl n o ho

theorem stages_member (l : List (List (SkObj α V G))) (r : List (List (PureEst β V G))) (h : convertStages K l = .ok r) : ∀ s ∈ l, ∃ p, convertAll K s = .ok p := by
  induction l generalizing r with
  | nil => simp
  | cons a l ih =>
    rw [convertStages] at h
    cases ha : convertAll K a with
    | error y => rw [ha] at h; cases h
    | ok b =>
      rw [ha] at h
      cases hl : convertStages K l with
      | error y => rw [hl] at h; cases h
      | ok c =>
        rintro o (_ | ⟨_, ho⟩)
        · exact ⟨b, ha⟩
        · exact ih c hl o ho

theorem bind_ok {β γ : Type} {p : Py β} {f : β → Py γ} {r : γ} (h : (p >>= f) = .ok r) : ∃ b, p = .ok b ∧ f b = .ok r := by
  cases p with
  | error x => cases h
  | ok b => exact ⟨b, rfl, h⟩
end

theorem leaf_robbed {c n : String} {v : Option (List Char)} {a a' : Attrs F} (hn : n ∈ needsOf c) (h : Lacks n a a') {r}
    (hr : convert (singles trunc initXgb) (.leaf c v a : SkObj (Attrs F) (PVal F) F) = .ok r) :
    convert (singles trunc initXgb) (.leaf c v a' : SkObj (Attrs F) (PVal F) F) = .error .attributeError := by
  rw [convert] at hr ⊢
  by_cases hm : ∃ m, Counterpart m c
  · obtain ⟨m, hm⟩ := hm
    rw [C43_supported _ _ _ hm] at hr ⊢
    obtain ⟨b, hb, -⟩ := bind_ok hr
    have he := construct_needs trunc m.toList hn ⟨c, v, a⟩ ⟨c, v, a'⟩ ⟨rfl, h⟩ b hb
    simp only at he ⊢
    rw [he]
    rfl
  · rw [C43_unsupported _ _ _ (not_exists.1 hm)] at hr
    cases hr

/-- **C122**: take a needed attribute away from one single estimator, anywhere in an object that can be converted; the conversion of the whole then raises AttributeError. -/
theorem C122_robbed {o o' : SkObj (Attrs F) (PVal F) F} (h : Robbed o o') : ∀ r, convert (singles trunc initXgb) o = .ok r →
    convert (singles trunc initXgb) o' = .error .attributeError := by
  induction h with
  | leaf hn h => exact fun r hr => leaf_robbed trunc hn h hr
  | pipeline _ ih =>
    intro r hr
    rw [convert_pipeline] at hr ⊢
    obtain ⟨w, hw, hr⟩ := bind_ok hr
    obtain ⟨s, hs, -⟩ := bind_ok hr
    rw [hw, steps_robbed _ ih _ _ _ _ hs]
    rfl
  | union _ ih =>
    intro r hr
    rw [convert_union] at hr ⊢
    obtain ⟨w, hw, hr⟩ := bind_ok hr
    obtain ⟨s, hs, -⟩ := bind_ok hr
    rw [hw, steps_robbed _ ih _ _ _ _ hs]
    rfl
  | ensemble _ ih =>
    intro r hr
    rw [convert_ensemble] at hr ⊢
    obtain ⟨w, hw, hr⟩ := bind_ok hr
    obtain ⟨s, hs, -⟩ := bind_ok hr
    rw [hw, all_robbed _ ih _ _ _ hs]
    rfl
  | stage _ ih =>
    intro r hr
    rw [convert_boosting] at hr ⊢
    obtain ⟨w, hw, hr⟩ := bind_ok hr
    obtain ⟨s, hs, -⟩ := bind_ok hr
    rw [hw, stages_robbed _ (fun q hq => all_robbed _ ih _ _ q hq) _ _ _ hs]
    rfl
  | init _ ih =>
    intro r hr
    rw [convert_boosting] at hr ⊢
    obtain ⟨w, hw, hr⟩ := bind_ok hr
    obtain ⟨s, hs, hr⟩ := bind_ok hr
    obtain ⟨i, hi, -⟩ := bind_ok hr
    rw [hw, hs, ih _ hi]
    rfl

/-- All single estimators in what can be converted can be converted. -/
theorem houses_converted {o : SkObj (Attrs F) (PVal F) F} {c : String} {v : Option (List Char)} {a : Attrs F} (h : Houses c v a o) : ∀ r, convert (singles trunc initXgb) o = .ok r →
    ∃ p, convert (singles trunc initXgb) (.leaf c v a : SkObj (Attrs F) (PVal F) F) = .ok p := by
  induction h with
  | leaf => exact fun r hr => ⟨r, hr⟩
  | pipeline hm _ ih =>
    intro r hr
    rw [convert_pipeline] at hr
    obtain ⟨w, -, hr⟩ := bind_ok hr
    obtain ⟨s, hs, -⟩ := bind_ok hr
    obtain ⟨p, hp⟩ := steps_member _ _ _ hs _ _ hm
    exact ih p hp
  | union hm _ ih =>
    intro r hr
    rw [convert_union] at hr
    obtain ⟨w, -, hr⟩ := bind_ok hr
    obtain ⟨s, hs, -⟩ := bind_ok hr
    obtain ⟨p, hp⟩ := steps_member _ _ _ hs _ _ hm
    exact ih p hp
  | ensemble hm _ ih =>
    intro r hr
    rw [convert_ensemble] at hr
    obtain ⟨w, -, hr⟩ := bind_ok hr
    obtain ⟨s, hs, -⟩ := bind_ok hr
    obtain ⟨p, hp⟩ := all_member _ _ _ hs _ hm
    exact ih p hp
  | stage hm ho _ ih =>
    intro r hr
    rw [convert_boosting] at hr
    obtain ⟨w, -, hr⟩ := bind_ok hr
    obtain ⟨s, hs, -⟩ := bind_ok hr
    obtain ⟨q, hq⟩ := stages_member _ _ _ hs _ hm
    obtain ⟨p, hp⟩ := all_member _ _ _ hq _ ho
    exact ih p hp
  | init _ ih =>
    intro r hr
    rw [convert_boosting] at hr
    obtain ⟨w, -, hr⟩ := bind_ok hr
    obtain ⟨s, -, hr⟩ := bind_ok hr
    obtain ⟨i, hi, -⟩ := bind_ok hr
    exact ih i hi

/-- **C122**: in an object that can be converted every single estimator, at any depth, has all the attributes its class needs.  So nothing that was forgotten, or never fitted,
gets through to a prediction. -/
theorem C122_complete {o : SkObj (Attrs F) (PVal F) F} {r} (h : convert (singles trunc initXgb) o = .ok r) {c : String} {v : Option (List Char)} {a : Attrs F} (ho : Houses c v a o) :
    ∀ n ∈ needsOf c, ∃ x, Dict.get? a n = some x := by
  intro n hn
  obtain ⟨p, hp⟩ := houses_converted trunc ho _ h
  cases hx : Dict.get? a n with
  | some x => exact ⟨x, rfl⟩
  | none =>
    have := leaf_robbed trunc hn (v := v) ⟨hx, fun _ _ => rfl⟩ hp
    rw [hp] at this
    cases this

/-- Everything that is needed is in the list of what is read. -/
theorem C122_read (c : String) : ∀ n ∈ needsOf c, n ∈ readsOf c := by
  rcases find_parallel reads_needs (fun p => p.1 == c) (fun p => p.1 == c) (by rintro a b ⟨h1, -⟩; rw [h1]) with ⟨h1, h2⟩ | ⟨p, r, h1, h2, -, hr⟩
  · intro n hn
    unfold needsOf at hn
    unfold readsOf
    rw [h1] at hn
    rw [h2]
    exact hn
  · intro n hn
    unfold needsOf at hn
    unfold readsOf
    rw [h1] at hn
    rw [h2]
    exact hr n hn

omit [Arith F] in
theorem lacks_filter (n : String) (a : Attrs F) : Lacks n a (a.filter fun p => p.1 != n) := by
  constructor
  · induction a with
    | nil => rfl
    | cons p a ih =>
      obtain ⟨k, y⟩ := p
      by_cases hk : k = n
      · rw [List.filter_cons_of_neg (by simpa using hk), ih]
      · rw [List.filter_cons_of_pos (by simpa using hk), Dict.get?_cons, if_neg (by rintro rfl; exact hk rfl), ih]
  · intro m hm
    induction a with
    | nil => rfl
    | cons p a ih =>
      obtain ⟨k, y⟩ := p
      by_cases hk : k = n
      · rw [List.filter_cons_of_neg (by simpa using hk), ih, Dict.get?_cons, if_neg]
        rintro rfl
        exact hm hk
      · rw [List.filter_cons_of_pos (by simpa using hk), Dict.get?_cons, Dict.get?_cons, ih]

/-- **C122**, one estimator: `del estimator.n` of a needed attribute turns a conversion that succeeds into AttributeError. -/
theorem C122_deleted {c n : String} (hn : n ∈ needsOf c) (v : Option (List Char)) (a : Attrs F) {r}
    (h : convert (singles trunc initXgb) (.leaf c v a : SkObj (Attrs F) (PVal F) F) = .ok r) :
    convert (singles trunc initXgb) (.leaf c v (a.filter fun p => p.1 != n) : SkObj (Attrs F) (PVal F) F) = .error .attributeError :=
  leaf_robbed trunc hn (lacks_filter n a) h

/-- **C122**, the list of needed attributes is exact: every other attribute that is read may be absent.  (DummyClassifier: see the next theorem.) -/
theorem C122_spared {c n : String} (hr : n ∈ readsOf c) (hn : n ∉ needsOf c) (hc : c ≠ "DummyClassifier") (v : Option (List Char)) {a a' : Attrs F} (hl : Lacks n a a') {r}
    (h : convert (singles trunc initXgb) (.leaf c v a : SkObj (Attrs F) (PVal F) F) = .ok r) :
    ∃ r', convert (singles trunc initXgb) (.leaf c v a' : SkObj (Attrs F) (PVal F) F) = .ok r' := by
  rw [convert] at h ⊢
  by_cases hm : ∃ m, Counterpart m c
  · obtain ⟨m, hm⟩ := hm
    rw [C43_supported _ _ _ hm] at h ⊢
    obtain ⟨b, hb, -⟩ := bind_ok h
    obtain ⟨b', hb'⟩ := construct_spares trunc m.toList hr hn hc ⟨c, v, a⟩ ⟨c, v, a'⟩ ⟨rfl, hl⟩ b hb
    simp only at hb' ⊢
    rw [hb']
    exact ⟨_, rfl⟩
  · rw [C43_unsupported _ _ _ (not_exists.1 hm)] at h
    cases h

/-- **C122**, DummyClassifier: of the strategy as given and the strategy as recorded in training one is needed. -/
theorem C122_dummy {v : Option (List Char)} {a : Attrs F} {r} (h : convert (singles trunc initXgb) (.leaf "DummyClassifier" v a : SkObj (Attrs F) (PVal F) F) = .ok r) :
    (∃ x, Dict.get? a "_strategy" = some x) ∨ ∃ x, Dict.get? a "strategy" = some x := by
  cases h1 : Dict.get? a "_strategy" with
  | some x => exact .inl ⟨x, rfl⟩
  | none => cases h2 : Dict.get? a "strategy" with
    | some x => exact .inr ⟨x, rfl⟩
    | none =>
      exfalso
      rw [convert_ctor trunc initXgb (n := "DummyClassifierPure") (ctor := initDummy) 15 rfl rfl] at h
      obtain ⟨b, hb, -⟩ := bind_ok h
      unfold initDummy at hb
      obtain ⟨w, -, hb⟩ := bind_ok hb
      obtain ⟨s, hs, -⟩ := bind_ok hb
      simp [Fitted.getOr, Fitted.has, Dict.contains, Fitted.get, h1, h2] at hs

/-- **C122**, objects held by single estimators: the tree of a decision tree, the indicator of an imputer and the transformer of a tf-idf vectorizer have all the attributes that are read
of them, whenever the whole can be converted. -/
theorem C122_parts {o : SkObj (Attrs F) (PVal F) F} {r} (h : convert (singles trunc initXgb) o = .ok r) {c : String} {v : Option (List Char)} {a : Attrs F} (ho : Houses c v a o)
    {n : String} {names : List String} (hn : n ∈ readsOf c) (hp : (n, names) ∈ partReads) {d w ns vs} (hx : Dict.get? a n = some (.obj d w ns vs)) :
    ∀ m ∈ names, ∃ x, Dict.get? (ns.zip vs) m = some x := by
  obtain ⟨p, hc⟩ := houses_converted trunc ho _ h
  rw [convert] at hc
  by_cases hm : ∃ m, Counterpart m c
  · obtain ⟨m, hm⟩ := hm
    rw [C43_supported _ _ _ hm] at hc
    obtain ⟨b, hb, -⟩ := bind_ok hc
    exact construct_kept trunc m.toList hn hp ⟨c, v, a⟩ b d w ns vs hb hx
  · rw [C43_unsupported _ _ _ (not_exists.1 hm)] at hc
    cases hc

/-! ### Cases -/

/-- A logistic regression without its coefficients. -/
example (lib : String → TextLib) (encode : Str → List Nat) (W b : List F) :
    (∃ r, convert (singles trunc initXgb) (.leaf "LogisticRegression" (some "0.22".toList) (linearOf W b [.str "a", .str "b"]) : SkObj (Attrs F) (PVal F) F) = .ok r) ∧
    convert (singles trunc initXgb) (.leaf "LogisticRegression" (some "0.22".toList) ((linearOf W b [.str "a", .str "b"]).filter fun p => p.1 != "coef_") : SkObj (Attrs F) (PVal F) F) =
      .error .attributeError := by
  obtain ⟨r, hr, -⟩ := C89_converted_behaves trunc lib encode _ _ (.single version_022 (linearOf_learned (c := "LogisticRegression") (k := .logistic) (by simp [linearClasses]) W b (strings_plain ["a", "b"])))
  exact ⟨⟨r, hr⟩, C122_deleted trunc (by decide) _ _ hr⟩

/-- Without its intercept it is converted. -/
example (lib : String → TextLib) (encode : Str → List Nat) (W b : List F) :
    ∃ r, convert (singles trunc initXgb) (.leaf "LogisticRegression" (some "0.22".toList) ((linearOf W b [.str "a", .str "b"]).filter fun p => p.1 != "intercept_") : SkObj (Attrs F) (PVal F) F) = .ok r := by
  obtain ⟨r, hr, -⟩ := C89_converted_behaves trunc lib encode _ _ (.single version_022 (linearOf_learned (c := "LogisticRegression") (k := .logistic) (by simp [linearClasses]) W b (strings_plain ["a", "b"])))
  exact C122_spared trunc (by decide) (by decide) (by decide) _ (lacks_filter "intercept_" _) hr

/-- A forest with a tree that has lost its thresholds is refused. -/
example (w : Option (List Char)) (cs : List (PVal F)) (before after : List (SkObj (Attrs F) (PVal F) F)) (l r f v labels : PVal F) (k) :
    convert (singles trunc initXgb) (.ensemble .randomForest w none cs (before ++ .leaf "DecisionTreeClassifier" w
      [("tree_", .obj "Tree" none ["children_left", "children_right", "feature", "value"] [l, r, f, v]), ("classes_", labels)] :: after)) ≠ .ok k := by
  intro h
  obtain ⟨x, hx⟩ := C122_parts trunc h (.ensemble (List.mem_append_right _ List.mem_cons_self) .leaf) (n := "tree_") (names := ["children_left", "children_right", "feature", "threshold", "value"]) (by decide)
    (by simp [partReads]) rfl "threshold" (by simp)
  cases hx

/-- The same in a pipeline, without the coefficients. -/
example (lib : String → TextLib) (encode : Str → List Nat) (W b : List F) : let w := some "0.22".toList
    let o : Attrs F → SkObj (Attrs F) (PVal F) F := fun a => .pipeline w [("model", .leaf "LogisticRegression" w a)]
    (∃ r, convert (singles trunc initXgb) (o (linearOf W b [.str "a", .str "b"])) = .ok r) ∧
      convert (singles trunc initXgb) (o ((linearOf W b [.str "a", .str "b"]).filter fun p => p.1 != "coef_")) = .error .attributeError := by
  intro w o
  obtain ⟨r, hr, -⟩ := C89_converted_behaves trunc lib encode (o (linearOf W b [.str "a", .str "b"])) _ (.pipeline (es := [_]) version_022 (.cons (.single version_022 (linearOf_learned (c := "LogisticRegression") (k := .logistic) (by simp [linearClasses]) W b (strings_plain ["a", "b"]))) .nil))
  exact ⟨⟨r, hr⟩, C122_robbed trunc (.pipeline (s := []) (.leaf (n := "coef_") (by decide) (lacks_filter _ _))) r hr⟩

end PurePredict
