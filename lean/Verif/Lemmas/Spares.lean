import Verif.Lemmas.Needs
import Verif.Lemmas.Construct
/-
Constructors get along without the attributes that they read but do not need.
-/
namespace PurePredict
open Spec
variable {F : Type}

/-- What still succeeds when the attribute `n` is taken away. -/
def Spared (n : String) {β : Type} (f : SkFitted F → Py β) : Prop := ∀ e e', Short n e e' → ∀ r, f e = .ok r → ∃ r', f e' = .ok r'
/-- What then gives no attributes that it did not give before. -/
def Trims (n : String) (f : SkFitted F → Py (Attrs F)) : Prop := ∀ e e', Short n e e' → ∀ l, f e = .ok l → ∃ l', f e' = .ok l' ∧ ∀ p ∈ l', p ∈ l

theorem Unmoved.trims {n : String} {f : SkFitted F → Py (Attrs F)} (h : Unmoved n f) : Trims n f := fun e e' hs l hl => ⟨l, by rw [h e e' hs, hl], fun _ => id⟩

theorem short_has {n m : String} {e e' : SkFitted F} (hs : Short n e e') (h : m ≠ n) : e'.has m = e.has m := by
  unfold Fitted.has Dict.contains
  rw [hs.lacks.rest m h]

theorem short_gone {n : String} {e e' : SkFitted F} (hs : Short n e e') : e'.has n = false := by
  unfold Fitted.has Dict.contains
  rw [hs.lacks.gone]
  rfl

theorem optional_trims (n m : String) : Trims (F := F) n fun e => e.optional m := by
  by_cases h : m = n
  · subst h
    intro e e' hs l _
    refine ⟨[], ?_, by simp⟩
    simp only [Fitted.optional, short_gone hs]
    rfl
  · refine Unmoved.trims fun e e' hs => ?_
    have hg : e'.get m = e.get m := Unmoved.get h e e' hs
    simp only [Fitted.optional, short_has hs h, hg]

theorem intercept_trims (n : String) (c : PVal F) : Trims (F := F) n fun e => interceptAttr e c := by
  by_cases h : "intercept_" = n
  · subst h
    intro e e' hs l _
    refine ⟨[], ?_, by simp⟩
    simp only [interceptAttr, short_gone hs]
    rfl
  · refine Unmoved.trims fun e e' hs => ?_
    have hg : e'.get "intercept_" = e.get "intercept_" := Unmoved.get h e e' hs
    simp only [interceptAttr, short_has hs h, hg]

theorem indicator_trims (n : String) : Trims (F := F) n indicatorAttr := by
  by_cases h : "indicator_" = n
  · subst h
    intro e e' hs l _
    refine ⟨[], ?_, by simp⟩
    unfold indicatorAttr
    rw [hs.lacks.gone]
    rfl
  · refine Unmoved.trims fun e e' hs => ?_
    unfold indicatorAttr
    rw [hs.lacks.rest _ h]

theorem finish_trims {d : String} {l l' : Attrs F} {r : PVal F} (h : finish d l = .ok r) (hl : ∀ p ∈ l', p ∈ l ∨ Plain p.2) : ∃ r', finish d l' = .ok r' := by
  have hp := ((finish_ok_iff d l r).1 h).1
  exact ⟨_, (finish_ok_iff d l' _).2 ⟨fun p hp' => (hl p hp').elim (hp p) id, rfl⟩⟩

theorem linear_spares (d : String) : ∀ n ∈ ["intercept_", "multi_class", "solver", "loss"], Spared (F := F) n (initLinear d) := by
  intro n hn e e' hs r hr
  have h1 : "coef_" ≠ n := by rintro rfl; simp at hn
  have h2 : "classes_" ≠ n := by rintro rfl; simp at hn
  unfold initLinear at hr ⊢
  obtain ⟨w, hw, hr⟩ := bind_ok_iff.1 hr
  obtain ⟨co, hco, hr⟩ := bind_ok_iff.1 hr
  obtain ⟨cl, hcl, hr⟩ := bind_ok_iff.1 hr
  obtain ⟨b, hb, hr⟩ := bind_ok_iff.1 hr
  obtain ⟨mc, hmc, hr⟩ := bind_ok_iff.1 hr
  obtain ⟨so, hso, hr⟩ := bind_ok_iff.1 hr
  obtain ⟨lo, hlo, hr⟩ := bind_ok_iff.1 hr
  obtain ⟨b', hb', kb⟩ := intercept_trims n cl e e' hs b hb
  obtain ⟨mc', hmc', kmc⟩ := optional_trims n _ e e' hs mc hmc
  obtain ⟨so', hso', kso⟩ := optional_trims n _ e e' hs so hso
  obtain ⟨lo', hlo', klo⟩ := optional_trims n _ e e' hs lo hlo
  have e1 : e'.array "coef_" = e.array "coef_" := Unmoved.array h1 e e' hs
  have e2 : e'.array "classes_" = e.array "classes_" := Unmoved.array h2 e e' hs
  simp only at hb' hmc' hso' hlo'
  rw [← hs.version, hw, e1, hco, e2, hcl]
  simp only [py_ok_bind]
  rw [hb', hmc', hso', hlo']
  simp only [py_ok_bind]
  refine finish_trims hr fun p hp => .inl ?_
  simp only [List.mem_append] at hp ⊢
  rcases hp with (((hp | hp) | hp) | hp) | hp
  · exact .inl (.inl (.inl (.inl hp)))
  · exact .inl (.inl (.inl (.inr (kb p hp))))
  · exact .inl (.inl (.inr (kmc p hp)))
  · exact .inl (.inr (kso p hp))
  · exact .inr (klo p hp)

theorem tree_spares (d : String) : ∀ n ∈ ["classes_"], Spared (F := F) n (initTree d) := by
  intro n hn e e' hs r hr
  simp only [List.mem_cons, List.not_mem_nil, or_false] at hn
  subst hn
  unfold initTree at hr ⊢
  obtain ⟨w, hw, hr⟩ := bind_ok_iff.1 hr
  obtain ⟨t, ht, hr⟩ := bind_ok_iff.1 hr
  have e1 : e'.get "tree_" = e.get "tree_" := Unmoved.get (by decide) e e' hs
  have hc : treeClasses e' = .ok (.list [.int 0, .int 1]) := by
    unfold treeClasses Fitted.hasNotNone
    rw [hs.lacks.gone]
    rfl
  rw [← hs.version, hw, e1, ht, hc]
  simp only [py_ok_bind] at hr ⊢
  obtain ⟨l, hl, hr⟩ := bind_ok_iff.1 hr
  obtain ⟨rr, hrr, hr⟩ := bind_ok_iff.1 hr
  obtain ⟨f, hf, hr⟩ := bind_ok_iff.1 hr
  obtain ⟨th, hth, hr⟩ := bind_ok_iff.1 hr
  obtain ⟨va, hva, hr⟩ := bind_ok_iff.1 hr
  obtain ⟨it, hit, hr⟩ := bind_ok_iff.1 hr
  obtain ⟨v, hv, hr⟩ := bind_ok_iff.1 hr
  obtain ⟨cl, hcl, hr⟩ := bind_ok_iff.1 hr
  rw [hl, hrr, hf, hth, hva]
  simp only [py_ok_bind]
  rw [hit]
  simp only [py_ok_bind]
  rw [hv]
  simp only [py_ok_bind]
  refine finish_trims hr fun p hp => ?_
  simp only [List.mem_cons, List.not_mem_nil, or_false] at hp ⊢
  rcases hp with hp | hp | hp | hp | hp | rfl
  · exact .inl (.inl hp)
  · exact .inl (.inr (.inl hp))
  · exact .inl (.inr (.inr (.inl hp)))
  · exact .inl (.inr (.inr (.inr (.inl hp))))
  · exact .inl (.inr (.inr (.inr (.inr (.inl hp)))))
  · exact .inr (.list _ (by simp [Plain.int]))

theorem encoder_spares (d : String) : ∀ n ∈ ["sparse", "drop", "handle_unknown"], Spared (F := F) n (initEncoder d) := by
  intro n hn e e' hs r hr
  have h1 : "dtype" ≠ n := by rintro rfl; simp at hn
  have h2 : "categories_" ≠ n := by rintro rfl; simp at hn
  unfold initEncoder at hr ⊢
  obtain ⟨w, hw, hr⟩ := bind_ok_iff.1 hr
  obtain ⟨t, ht, hr⟩ := bind_ok_iff.1 hr
  obtain ⟨dt, hdt, hr⟩ := bind_ok_iff.1 hr
  obtain ⟨ca, hca, hr⟩ := bind_ok_iff.1 hr
  obtain ⟨it, hit, hr⟩ := bind_ok_iff.1 hr
  obtain ⟨cs, hcs, hr⟩ := bind_ok_iff.1 hr
  obtain ⟨sp, hsp, hr⟩ := bind_ok_iff.1 hr
  cases hd : e.hasNotNone "drop" with
  | true => rw [hd] at hr; cases hr
  | false =>
    rw [hd] at hr
    simp only [Bool.false_eq_true, if_false] at hr
    obtain ⟨hu, hhu, hr⟩ := bind_ok_iff.1 hr
    obtain ⟨sp', hsp', ksp⟩ := optional_trims n _ e e' hs sp hsp
    obtain ⟨hu', hhu', khu⟩ := optional_trims n _ e e' hs hu hhu
    have e1 : e'.get "dtype" = e.get "dtype" := Unmoved.get h1 e e' hs
    have e2 : e'.get "categories_" = e.get "categories_" := Unmoved.get h2 e e' hs
    have e3 : e'.hasNotNone "drop" = false := by
      by_cases hn : "drop" = n
      · subst hn
        unfold Fitted.hasNotNone
        rw [hs.lacks.gone]
      · unfold Fitted.hasNotNone at hd ⊢
        rw [hs.lacks.rest _ hn, hd]
    simp only at hsp' hhu'
    rw [← hs.version, hw, e1, ht, e2, hca]
    simp only [py_ok_bind]
    rw [hdt, hit]
    simp only [py_ok_bind]
    rw [hcs, hsp', e3]
    simp only [py_ok_bind, Bool.false_eq_true, if_false]
    rw [hhu']
    refine finish_trims hr fun p hp => .inl ?_
    simp only [List.mem_append] at hp ⊢
    rcases hp with (hp | hp) | hp
    · exact .inl (.inl hp)
    · exact .inl (.inr (ksp p hp))
    · exact .inr (khu p hp)

theorem imputer_spares : ∀ n ∈ ["add_indicator", "indicator_"], Spared (F := F) n initSimpleImputer := by
  intro n hn e e' hs r hr
  have h1 : "statistics_" ≠ n := by rintro rfl; simp at hn
  have h2 : "strategy" ≠ n := by rintro rfl; simp at hn
  have h3 : "missing_values" ≠ n := by rintro rfl; simp at hn
  unfold initSimpleImputer at hr ⊢
  obtain ⟨w, hw, hr⟩ := bind_ok_iff.1 hr
  obtain ⟨st, hst, hr⟩ := bind_ok_iff.1 hr
  obtain ⟨sy, hsy, hr⟩ := bind_ok_iff.1 hr
  obtain ⟨ai, hai, hr⟩ := bind_ok_iff.1 hr
  obtain ⟨mv, hmv, hr⟩ := bind_ok_iff.1 hr
  obtain ⟨ind, hind, hr⟩ := bind_ok_iff.1 hr
  obtain ⟨ind', hind', kind⟩ := indicator_trims n e e' hs ind hind
  have e1 : e'.array "statistics_" = e.array "statistics_" := Unmoved.array h1 e e' hs
  have e2 : e'.get "strategy" = e.get "strategy" := Unmoved.get h2 e e' hs
  have e3 : e'.number "missing_values" = e.number "missing_values" := Unmoved.number h3 e e' hs
  have e4 : ∃ ai', e'.getOr "add_indicator" (.ok (.bool false)) = .ok ai' ∧ (ai' = ai ∨ Plain ai') := by
    by_cases hn : "add_indicator" = n
    · subst hn
      refine ⟨.bool false, ?_, .inr (.bool _)⟩
      simp only [Fitted.getOr, short_gone hs]
      rfl
    · refine ⟨ai, ?_, .inl rfl⟩
      have hg : e'.get "add_indicator" = e.get "add_indicator" := Unmoved.get hn e e' hs
      rw [← hai]
      simp only [Fitted.getOr, short_has hs hn, hg]
  obtain ⟨ai', hai', kai⟩ := e4
  rw [← hs.version, hw, e1, hst, e2, hsy, hai', e3, hmv, hind']
  simp only [py_ok_bind]
  refine finish_trims hr fun p hp => ?_
  simp only [List.mem_append, List.mem_cons, List.not_mem_nil, or_false] at hp ⊢
  rcases hp with (hp | hp | rfl | hp) | hp
  · exact .inl (.inl (.inl hp))
  · exact .inl (.inl (.inr (.inl hp)))
  · rcases kai with rfl | hk
    · exact .inl (.inl (.inr (.inr (.inl rfl))))
    · exact .inr hk
  · exact .inl (.inl (.inr (.inr (.inr hp))))
  · exact .inl (.inr (kind p hp))

/-- For each class what is read and not needed, except in DummyClassifier, which needs one of two attributes. -/
def sparesTable : List (String × List String) := [
  ("LogisticRegression", ["intercept_", "multi_class", "solver", "loss"]), ("RidgeClassifier", ["intercept_", "multi_class", "solver", "loss"]),
  ("SGDClassifier", ["intercept_", "multi_class", "solver", "loss"]), ("Perceptron", ["intercept_", "multi_class", "solver", "loss"]),
  ("PassiveAggressiveClassifier", ["intercept_", "multi_class", "solver", "loss"]), ("LinearSVC", ["intercept_", "multi_class", "solver", "loss"]),
  ("DecisionTreeClassifier", ["classes_"]), ("DecisionTreeRegressor", ["classes_"]), ("ExtraTreeClassifier", ["classes_"]), ("ExtraTreeRegressor", ["classes_"]),
  ("GaussianNB", []), ("MultinomialNB", []), ("ComplementNB", []), ("SimpleImputer", ["add_indicator", "indicator_"]), ("MissingIndicator", []), ("DummyClassifier", []),
  ("OneHotEncoder", ["sparse", "drop", "handle_unknown"]), ("OrdinalEncoder", ["sparse", "drop", "handle_unknown"]), ("StandardScaler", []), ("MinMaxScaler", []), ("MaxAbsScaler", []),
  ("Normalizer", []), ("DictVectorizer", []), ("TfidfVectorizer", []), ("CountVectorizer", []), ("TfidfTransformer", []), ("HashingVectorizer", [])]

theorem nothing_spared {f : SkFitted F → Py (PVal F)} : ∀ n ∈ ([] : List String), Spared n f := by simp

theorem constructors_spare (trunc : F → Py Int) : List.Forall₂ (fun (p : String × (SkFitted F → Py (PVal F))) (r : String × List String) =>
    p.1 = r.1 ++ "Pure" ∧ ∀ n ∈ r.2, Spared n p.2) (constructors trunc) sparesTable := by
  unfold constructors sparesTable
  exact .cons ⟨rfl, linear_spares _⟩ <| .cons ⟨rfl, linear_spares _⟩ <| .cons ⟨rfl, linear_spares _⟩ <| .cons ⟨rfl, linear_spares _⟩ <| .cons ⟨rfl, linear_spares _⟩ <|
    .cons ⟨rfl, linear_spares _⟩ <| .cons ⟨rfl, tree_spares _⟩ <| .cons ⟨rfl, tree_spares _⟩ <| .cons ⟨rfl, tree_spares _⟩ <| .cons ⟨rfl, tree_spares _⟩ <|
    .cons ⟨rfl, nothing_spared⟩ <| .cons ⟨rfl, nothing_spared⟩ <| .cons ⟨rfl, nothing_spared⟩ <| .cons ⟨rfl, imputer_spares⟩ <| .cons ⟨rfl, nothing_spared⟩ <|
    .cons ⟨rfl, nothing_spared⟩ <| .cons ⟨rfl, encoder_spares _⟩ <| .cons ⟨rfl, encoder_spares _⟩ <| .cons ⟨rfl, nothing_spared⟩ <| .cons ⟨rfl, nothing_spared⟩ <|
    .cons ⟨rfl, nothing_spared⟩ <| .cons ⟨rfl, nothing_spared⟩ <| .cons ⟨rfl, nothing_spared⟩ <| .cons ⟨rfl, nothing_spared⟩ <| .cons ⟨rfl, nothing_spared⟩ <|
    .cons ⟨rfl, nothing_spared⟩ <| .cons ⟨rfl, nothing_spared⟩ .nil

theorem reads_spares : List.Forall₂ (fun (p r : String × List String) => p.1 = r.1 ∧ ∀ n ∈ p.2, n ∈ r.2 ∨ n ∈ needsOf p.1 ∨ p.1 = "DummyClassifier") readsTable sparesTable := by
  unfold readsTable sparesTable
  repeat refine List.Forall₂.cons ⟨rfl, by decide⟩ ?_
  exact .nil

theorem reads_needs : List.Forall₂ (fun (p r : String × List String) => p.1 = r.1 ∧ ∀ n ∈ p.2, n ∈ r.2) needsTable readsTable := by
  unfold needsTable readsTable
  repeat refine List.Forall₂.cons ⟨rfl, by decide⟩ ?_
  exact .nil

theorem construct_spares [Arith F] (trunc : F → Py Int) (m : List Char) {c n : String} (hr : n ∈ readsOf c) (hn : n ∉ needsOf c) (hc : c ≠ "DummyClassifier") :
    Spared (F := F) n fun e => (singles trunc initXgb).construct m (c ++ "Pure").toList e := by
  rcases find_parallel (constructors_spare trunc) (fun p => p.1.toList == (c ++ "Pure").toList) (fun r => r.1 == c) (by
    rintro a b ⟨h1, -⟩
    rw [h1, Bool.eq_iff_iff]
    simp only [beq_iff_eq, String.toList_append, List.append_cancel_right_eq, String.toList_inj]) with ⟨h1, h2⟩ | ⟨p, r, h1, h2, -, hs⟩
  · exfalso
    rcases find_parallel reads_spares (fun p => p.1 == c) (fun p => p.1 == c) (by rintro a b ⟨h1, -⟩; rw [h1]) with ⟨h3, -⟩ | ⟨p, r, h3, h4, -, -⟩
    · rcases find_parallel reads_needs (fun p => p.1 == c) (fun p => p.1 == c) (by rintro a b ⟨h1, -⟩; rw [h1]) with ⟨h5, -⟩ | ⟨p, r, h5, h6, -, -⟩
      · unfold readsOf at hr
        unfold needsOf at hn
        rw [h3] at hr
        rw [h5] at hn
        exact hn hr
      · rw [h3] at h6
        cases h6
    · rw [h2] at h4
      cases h4
  · rcases find_parallel reads_spares (fun p => p.1 == c) (fun p => p.1 == c) (by rintro a b ⟨h1, -⟩; rw [h1]) with ⟨-, h4⟩ | ⟨q, t, h3, h4, -, hq⟩
    · rw [h2] at h4
      cases h4
    · rw [h2] at h4
      cases h4
      have hqc : q.1 = c := by simpa using List.find?_some h3
      unfold readsOf at hr
      rw [h3] at hr
      unfold singles
      simp only
      rw [h1]
      rcases hq n hr with h | h | h
      · exact hs n h
      · rw [hqc] at h
        exact absurd h hn
      · exact absurd (hqc.symm.trans h) hc

end PurePredict
