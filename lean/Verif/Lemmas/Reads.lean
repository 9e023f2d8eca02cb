import Verif.Spec.Reads
import Verif.Props.C43
import Verif.Props.C84
/-
The constructors read nothing but the listed attributes.
-/
namespace PurePredict
open Spec
variable {F : Type}

theorem Spec.SameRead.eq {n : String} {x y : Option (PVal F)} (h : SameRead n x y) (hn : n ∉ ["tree_", "indicator_", "_tfidf", "get_booster"]) : x = y := by
  cases h with
  | same => rfl
  | part hp _ =>
    exfalso
    apply hn
    simp only [partReads, List.mem_cons, Prod.mk.injEq, List.not_mem_nil, or_false] at hp
    rcases hp with ⟨rfl, _⟩ | ⟨rfl, _⟩ | ⟨rfl, _⟩ <;> simp
  | booster => simp at hn

/-- Two fitted estimators with the same version and the same values of some attributes. -/
structure Reads (l : List String) (e e' : SkFitted F) : Prop where
  version : e.version = e'.version
  attr : ∀ n ∈ l, SameRead n (Dict.get? e.state n) (Dict.get? e'.state n)

namespace Reads
variable {l : List String} {e e' : SkFitted F}

theorem at_ (h : Reads l e e') {n : String} (hn : n ∈ l) (hs : n ∉ ["tree_", "indicator_", "_tfidf", "get_booster"]) : Dict.get? e.state n = Dict.get? e'.state n :=
  (h.attr n hn).eq hs

theorem get (h : Reads l e e') {n : String} (hn : n ∈ l) (hs : n ∉ ["tree_", "indicator_", "_tfidf", "get_booster"]) : e.get n = e'.get n := by
  unfold Fitted.get
  rw [h.at_ hn hs]

theorem array (h : Reads l e e') {n : String} (hn : n ∈ l) (hs : n ∉ ["tree_", "indicator_", "_tfidf", "get_booster"]) : e.array n = e'.array n := by
  unfold Fitted.array
  rw [h.get hn hs]

theorem arrayOrNone (h : Reads l e e') {n : String} (hn : n ∈ l) (hs : n ∉ ["tree_", "indicator_", "_tfidf", "get_booster"]) : e.arrayOrNone n = e'.arrayOrNone n := by
  unfold Fitted.arrayOrNone
  rw [h.get hn hs]

theorem number (h : Reads l e e') {n : String} (hn : n ∈ l) (hs : n ∉ ["tree_", "indicator_", "_tfidf", "get_booster"]) : e.number n = e'.number n := by
  unfold Fitted.number
  rw [h.get hn hs]

theorem has (h : Reads l e e') {n : String} (hn : n ∈ l) (hs : n ∉ ["tree_", "indicator_", "_tfidf", "get_booster"]) : e.has n = e'.has n := by
  unfold Fitted.has Dict.contains
  rw [h.at_ hn hs]

theorem optional (h : Reads l e e') {n : String} (hn : n ∈ l) (hs : n ∉ ["tree_", "indicator_", "_tfidf", "get_booster"]) : e.optional n = e'.optional n := by
  unfold Fitted.optional
  rw [h.get hn hs, h.has hn hs]

theorem hasNotNone (h : Reads l e e') {n : String} (hn : n ∈ l) (hs : n ∉ ["tree_", "indicator_", "_tfidf", "get_booster"]) : e.hasNotNone n = e'.hasNotNone n := by
  unfold Fitted.hasNotNone
  rw [h.at_ hn hs]
end Reads

theorem init_linear (d : String) {e e' : SkFitted F} (h : Reads linearReads e e') : initLinear d e = initLinear d e' := by
  unfold initLinear interceptAttr
  rw [h.version, h.array (n := "coef_") (by decide) (by decide), h.array (n := "classes_") (by decide) (by decide), h.has (n := "intercept_") (by decide) (by decide), h.get (n := "intercept_") (by decide) (by decide), h.optional (n := "multi_class") (by decide) (by decide), h.optional (n := "solver") (by decide) (by decide), h.optional (n := "loss") (by decide) (by decide)]

theorem init_gaussian {e e' : SkFitted F} (h : Reads ["class_prior_", "classes_", "sigma_", "theta_"] e e') : initGaussianNB e = initGaussianNB e' := by
  unfold initGaussianNB
  rw [h.version, h.array (n := "class_prior_") (by decide) (by decide), h.array (n := "classes_") (by decide) (by decide), h.array (n := "sigma_") (by decide) (by decide), h.array (n := "theta_") (by decide) (by decide)]

theorem init_discrete (d : String) {e e' : SkFitted F} (h : Reads discreteReads e e') : initDiscreteNB d e = initDiscreteNB d e' := by
  unfold initDiscreteNB
  rw [h.version, h.array (n := "class_log_prior_") (by decide) (by decide), h.array (n := "classes_") (by decide) (by decide), h.array (n := "feature_log_prob_") (by decide) (by decide)]

theorem init_dummy {e e' : SkFitted F} (h : Reads ["_strategy", "strategy", "class_prior_", "n_classes_", "n_outputs_"] e e') : initDummy e = initDummy e' := by
  unfold initDummy Fitted.getOr
  rw [h.version, h.has (n := "_strategy") (by decide) (by decide), h.get (n := "_strategy") (by decide) (by decide), h.get (n := "strategy") (by decide) (by decide), h.array (n := "class_prior_") (by decide) (by decide), h.get (n := "n_classes_") (by decide) (by decide), h.get (n := "n_outputs_") (by decide) (by decide)]

theorem init_normalizer {e e' : SkFitted F} (h : Reads ["norm", "copy"] e e') : initNormalizer e = initNormalizer e' := by
  unfold initNormalizer
  rw [h.version, h.get (n := "norm") (by decide) (by decide), h.get (n := "copy") (by decide) (by decide)]

theorem init_standard {e e' : SkFitted F} (h : Reads ["with_mean", "with_std", "scale_", "mean_"] e e') : initStandardScaler e = initStandardScaler e' := by
  unfold initStandardScaler
  rw [h.version, h.get (n := "with_mean") (by decide) (by decide), h.get (n := "with_std") (by decide) (by decide), h.arrayOrNone (n := "scale_") (by decide) (by decide), h.arrayOrNone (n := "mean_") (by decide) (by decide)]

theorem init_minmax {e e' : SkFitted F} (h : Reads ["feature_range", "scale_", "min_"] e e') : initMinMaxScaler e = initMinMaxScaler e' := by
  unfold initMinMaxScaler
  rw [h.version, h.get (n := "feature_range") (by decide) (by decide), h.arrayOrNone (n := "scale_") (by decide) (by decide), h.arrayOrNone (n := "min_") (by decide) (by decide)]

theorem init_maxabs {e e' : SkFitted F} (h : Reads ["copy", "scale_", "max_abs_"] e e') : initMaxAbsScaler e = initMaxAbsScaler e' := by
  unfold initMaxAbsScaler
  rw [h.version, h.get (n := "copy") (by decide) (by decide), h.arrayOrNone (n := "scale_") (by decide) (by decide), h.arrayOrNone (n := "max_abs_") (by decide) (by decide)]

theorem init_encoder (d : String) {e e' : SkFitted F} (h : Reads encoderReads e e') : initEncoder d e = initEncoder d e' := by
  unfold initEncoder
  rw [h.version, h.get (n := "dtype") (by decide) (by decide), h.get (n := "categories_") (by decide) (by decide), h.optional (n := "sparse") (by decide) (by decide), h.hasNotNone (n := "drop") (by decide) (by decide), h.optional (n := "handle_unknown") (by decide) (by decide)]

theorem init_indicator {e e' : SkFitted F} (h : Reads indicatorReads e e') : initMissingIndicator e = initMissingIndicator e' := by
  unfold initMissingIndicator missingIndicatorAttrs
  rw [h.version, h.get (n := "features") (by decide) (by decide), h.array (n := "features_") (by decide) (by decide), h.get (n := "_n_features") (by decide) (by decide), h.number (n := "missing_values") (by decide) (by decide), h.get (n := "error_on_new") (by decide) (by decide)]

theorem init_dict {e e' : SkFitted F} (h : Reads ["vocabulary_", "feature_names_", "sparse", "dtype", "separator"] e e') : initDictVectorizer e = initDictVectorizer e' := by
  unfold initDictVectorizer
  rw [h.version, h.get (n := "vocabulary_") (by decide) (by decide), h.get (n := "feature_names_") (by decide) (by decide), h.get (n := "sparse") (by decide) (by decide), h.get (n := "dtype") (by decide) (by decide), h.get (n := "separator") (by decide) (by decide)]

theorem init_tfidf {e e' : SkFitted F} (h : Reads tfidfReads e e') : initTfidfTransformer e = initTfidfTransformer e' := by
  unfold initTfidfTransformer
  rw [h.version, h.get (n := "norm") (by decide) (by decide), h.get (n := "use_idf") (by decide) (by decide), h.get (n := "smooth_idf") (by decide) (by decide), h.get (n := "sublinear_tf") (by decide) (by decide), h.array (n := "idf_") (by decide) (by decide), h.get (n := "_idf_diag") (by decide) (by decide)]

theorem text_options {l : List String} (hl : textReads ⊆ l) {e e' : SkFitted F} (h : Reads l e e') : textOptions e = textOptions e' := by
  unfold textOptions
  rw [h.get (n := "analyzer") (hl (by decide)) (by decide), h.get (n := "preprocessor") (hl (by decide)) (by decide), h.get (n := "tokenizer") (hl (by decide)) (by decide), h.get (n := "stop_words") (hl (by decide)) (by decide), h.get (n := "token_pattern") (hl (by decide)) (by decide), h.get (n := "ngram_range") (hl (by decide)) (by decide), h.get (n := "strip_accents") (hl (by decide)) (by decide), h.get (n := "decode_error") (hl (by decide)) (by decide), h.get (n := "encoding") (hl (by decide)) (by decide), h.get (n := "lowercase") (hl (by decide)) (by decide), h.get (n := "input") (hl (by decide)) (by decide)]

theorem init_hashing {e e' : SkFitted F} (h : Reads (["dtype", "norm", "binary", "n_features", "alternate_sign"] ++ textReads) e e') : initHashingVectorizer e = initHashingVectorizer e' := by
  unfold initHashingVectorizer
  rw [h.version, text_options (List.subset_append_right _ _) h, h.get (n := "dtype") (by decide) (by decide), h.get (n := "norm") (by decide) (by decide), h.get (n := "binary") (by decide) (by decide), h.get (n := "n_features") (by decide) (by decide), h.get (n := "alternate_sign") (by decide) (by decide)]

theorem init_countWith (trunc : F → Py Int) (d : String) (b : Attrs F) {l : List String} (hl : ["dtype", "binary", "vocabulary_"] ++ textReads ⊆ l) {e e' : SkFitted F} (h : Reads l e e') :
    initCountWith trunc d b e = initCountWith trunc d b e' := by
  unfold initCountWith
  rw [h.version, text_options (fun _ hx => hl (List.mem_append_right _ hx)) h, h.get (n := "dtype") (hl (by decide)) (by decide), h.get (n := "binary") (hl (by decide)) (by decide), h.get (n := "vocabulary_") (hl (by decide)) (by decide)]

theorem init_count (trunc : F → Py Int) {e e' : SkFitted F} (h : Reads (["dtype", "binary", "vocabulary_"] ++ textReads) e e') : initCountVectorizer trunc e = initCountVectorizer trunc e' :=
  init_countWith trunc _ _ (fun _ hx => hx) h

/-- an attribute holding an object: the same, or objects of which what matters agrees -/
theorem part_cases {n : String} {names : List String} (hn : (n, names) ∈ partReads) {x y : Option (PVal F)} (h : SameRead n x y) :
    x = y ∨ ∃ c v ns vs ns' vs', x = some (.obj c v ns vs) ∧ y = some (.obj c v ns' vs') ∧ ∀ m ∈ names, Dict.get? (ns.zip vs) m = Dict.get? (ns'.zip vs') m := by
  cases h with
  | same => exact .inl rfl
  | part hp hm =>
    refine .inr ⟨_, _, _, _, _, _, rfl, rfl, ?_⟩
    simp only [partReads, List.mem_cons, Prod.mk.injEq, List.not_mem_nil, or_false] at hp hn
    rcases hp with ⟨rfl, rfl⟩ | ⟨rfl, rfl⟩ | ⟨rfl, rfl⟩ <;> simp at hn <;> subst hn <;> exact hm
  | booster => simp [partReads] at hn

theorem Reads.of {l : List String} {c c' : String} {v : Option (List Char)} {a a' : Attrs F} (h : ∀ n ∈ l, Dict.get? a n = Dict.get? a' n) : Reads l ⟨c, v, a⟩ ⟨c', v, a'⟩ :=
  ⟨rfl, fun n hn => by rw [show Dict.get? a n = Dict.get? a' n from h n hn]; exact .same _ _⟩

theorem get_of {e e' : SkFitted F} {n : String} (h : Dict.get? e.state n = Dict.get? e'.state n) : e.get n = e'.get n := by
  unfold Fitted.get
  rw [h]

theorem get_some {e : SkFitted F} {n : String} {x : PVal F} (h : Dict.get? e.state n = some x) : e.get n = .ok x := by
  unfold Fitted.get
  rw [h]

theorem init_imputer {e e' : SkFitted F} (h : Reads ["statistics_", "strategy", "add_indicator", "missing_values", "indicator_"] e e') : initSimpleImputer e = initSimpleImputer e' := by
  have hi : indicatorAttr e = indicatorAttr e' := by
    unfold indicatorAttr
    rcases part_cases (names := indicatorReads) (by simp [partReads]) (h.attr "indicator_" (by decide)) with he | ⟨c, v, ns, vs, ns', vs', he, he', hm⟩
    · rw [he]
    · rw [he, he']
      simp only [init_indicator (Reads.of (c := c) (c' := c) (v := v) hm)]
  unfold initSimpleImputer Fitted.getOr
  rw [h.version, hi, h.array (n := "statistics_") (by decide) (by decide), h.get (n := "strategy") (by decide) (by decide), h.has (n := "add_indicator") (by decide) (by decide),
    h.get (n := "add_indicator") (by decide) (by decide), h.number (n := "missing_values") (by decide) (by decide)]

theorem init_tfidfVectorizer (trunc : F → Py Int) {e e' : SkFitted F} (h : Reads (["_tfidf", "dtype", "binary", "vocabulary_"] ++ textReads) e e') :
    initTfidfVectorizer trunc e = initTfidfVectorizer trunc e' := by
  have hi : (e.get "_tfidf" >>= convertTfidf) = (e'.get "_tfidf" >>= convertTfidf) := by
    rcases part_cases (names := tfidfReads) (by simp [partReads]) (h.attr "_tfidf" (by decide)) with he | ⟨c, v, ns, vs, ns', vs', he, he', hm⟩
    · rw [get_of he]
    · rw [get_some he, get_some he', py_ok_bind, py_ok_bind]
      unfold convertTfidf
      simp only [init_tfidf (Reads.of (c := c) (c' := c) (v := v) hm)]
  have hc : ∀ b, initCountWith trunc "feature_extraction.text.TfidfVectorizerPure" b e = initCountWith trunc "feature_extraction.text.TfidfVectorizerPure" b e' := fun b =>
    init_countWith trunc _ b (fun x hx => List.mem_cons_of_mem _ hx) h
  unfold initTfidfVectorizer
  rw [h.version]
  simp only [← bind_assoc, hi, hc]

theorem init_tree (d : String) {e e' : SkFitted F} (h : Reads treeReads e e') : initTree d e = initTree d e' := by
  have hcl : treeClasses e = treeClasses e' := by
    unfold treeClasses
    rw [h.hasNotNone (n := "classes_") (by decide) (by decide), h.array (n := "classes_") (by decide) (by decide)]
  unfold initTree
  rw [h.version, hcl]
  rcases part_cases (names := ["children_left", "children_right", "feature", "threshold", "value"]) (by simp [partReads]) (h.attr "tree_" (by decide)) with he | ⟨c, v, ns, vs, ns', vs', he, he', hm⟩
  · rw [get_of he]
  · have ha : ∀ n ∈ ["children_left", "children_right", "feature", "threshold", "value"], (treeOf (.obj c v ns vs)).array n = (treeOf (.obj c v ns' vs')).array n := by
      intro n hn
      unfold Fitted.array Fitted.get treeOf
      simp only [hm n hn]
    rw [get_some he, get_some he']
    simp only [py_ok_bind]
    rw [ha _ (by decide), ha _ (by decide), ha _ (by decide), ha _ (by decide), ha _ (by decide)]

section
variable [Arith F]

/-- The columns of a table of trees that are read. -/
def frameReads : List String := ["Tree", "Split", "Gain", "Yes", "No", "Feature"]

theorem xgb_tree {d d' : Attrs F} (h : ∀ m ∈ frameReads, Dict.get? d m = Dict.get? d' m) (i : Nat) : initXgbTree d i = initXgbTree d' i := by
  have hc : ∀ n ∈ frameReads, treeColumn d i n = treeColumn d' i n := by
    intro n hn
    unfold treeColumn frameColumn
    rw [h "Tree" (by decide), h n hn]
  unfold initXgbTree
  rw [hc "Split" (by decide), hc "Gain" (by decide), hc "Yes" (by decide), hc "No" (by decide), hc "Feature" (by decide)]

theorem xgb_trees {d d' : Attrs F} (h : ∀ m ∈ frameReads, Dict.get? d m = Dict.get? d' m) (i n : Nat) : initXgbTrees d i n = initXgbTrees d' i n := by
  induction n generalizing i with
  | zero => rfl
  | succ n ih => rw [initXgbTrees, initXgbTrees, xgb_tree h, ih]

theorem xgb_rounds {d d' : Attrs F} (h : ∀ m ∈ frameReads, Dict.get? d m = Dict.get? d' m) (k i n : Nat) : initXgbRounds d k i n = initXgbRounds d' k i n := by
  induction n generalizing i with
  | zero => rfl
  | succ n ih => rw [initXgbRounds, initXgbRounds, xgb_trees h, ih]

theorem init_xgb {e e' : SkFitted F} (h : Reads xgbReads e e') : initXgb e = initXgb e' := by
  unfold initXgb
  rw [h.get (n := "objective") (by decide) (by decide), h.get (n := "booster") (by decide) (by decide), h.array (n := "classes_") (by decide) (by decide),
    h.get (n := "n_classes_") (by decide) (by decide), h.get (n := "n_estimators") (by decide) (by decide)]
  have hb := h.attr "get_booster" (by decide)
  generalize hx : Dict.get? e.state "get_booster" = x at hb
  generalize hy : Dict.get? e'.state "get_booster" = y at hb
  cases hb with
  | same => rw [get_of (hx.trans hy.symm)]
  | part hp => simp [partReads] at hp
  | @booster c v ns vs c' v' ns' vs' d w cs xs d' w' cs' xs' h1 h2 hm =>
    rw [get_some hx, get_some hy]
    have f1 : boosterFrame (.obj c v ns vs) = .ok (cs.zip xs) := by unfold boosterFrame; simp only [h1]
    have f2 : boosterFrame (.obj c' v' ns' vs') = .ok (cs'.zip xs') := by unfold boosterFrame; simp only [h2]
    simp only [py_ok_bind, f1, f2, xgb_trees hm, xgb_rounds hm]
end

/-- The constructors, one by one, and what they read. -/
theorem constructors_read (trunc : F → Py Int) : List.Forall₂ (fun (p : String × (SkFitted F → Py (PVal F))) (r : String × List String) =>
    p.1 = r.1 ++ "Pure" ∧ ∀ e e', Reads r.2 e e' → p.2 e = p.2 e') (constructors trunc) readsTable := by
  unfold constructors readsTable
  refine .cons ⟨rfl, fun _ _ => init_linear _⟩ <| .cons ⟨rfl, fun _ _ => init_linear _⟩ <| .cons ⟨rfl, fun _ _ => init_linear _⟩ <| .cons ⟨rfl, fun _ _ => init_linear _⟩ <|
    .cons ⟨rfl, fun _ _ => init_linear _⟩ <| .cons ⟨rfl, fun _ _ => init_linear _⟩ <|
    .cons ⟨rfl, fun _ _ => init_tree _⟩ <| .cons ⟨rfl, fun _ _ => init_tree _⟩ <| .cons ⟨rfl, fun _ _ => init_tree _⟩ <| .cons ⟨rfl, fun _ _ => init_tree _⟩ <|
    .cons ⟨rfl, fun _ _ => init_gaussian⟩ <| .cons ⟨rfl, fun _ _ => init_discrete _⟩ <| .cons ⟨rfl, fun _ _ => init_discrete _⟩ <|
    .cons ⟨rfl, fun _ _ => init_imputer⟩ <| .cons ⟨rfl, fun _ _ => init_indicator⟩ <| .cons ⟨rfl, fun _ _ => init_dummy⟩ <|
    .cons ⟨rfl, fun _ _ => init_encoder _⟩ <| .cons ⟨rfl, fun _ _ => init_encoder _⟩ <|
    .cons ⟨rfl, fun _ _ => init_standard⟩ <| .cons ⟨rfl, fun _ _ => init_minmax⟩ <| .cons ⟨rfl, fun _ _ => init_maxabs⟩ <| .cons ⟨rfl, fun _ _ => init_normalizer⟩ <|
    .cons ⟨rfl, fun _ _ => init_dict⟩ <| .cons ⟨rfl, fun _ _ => init_tfidfVectorizer trunc⟩ <| .cons ⟨rfl, fun _ _ => init_count trunc⟩ <|
    .cons ⟨rfl, fun _ _ => init_tfidf⟩ <| .cons ⟨rfl, fun _ _ => init_hashing⟩ .nil

theorem find_parallel {α β : Type} {R : α → β → Prop} {l : List α} {l' : List β} (h : List.Forall₂ R l l') (f : α → Bool) (g : β → Bool) (hfg : ∀ a b, R a b → f a = g b) :
    (l.find? f = none ∧ l'.find? g = none) ∨ ∃ a b, l.find? f = some a ∧ l'.find? g = some b ∧ R a b := by
  induction h with
  | nil => exact .inl ⟨rfl, rfl⟩
  | @cons a b l l' h1 _ ih =>
    rw [List.find?_cons, List.find?_cons, hfg a b h1]
    cases g b with
    | true => exact .inr ⟨a, b, rfl, rfl, h1⟩
    | false => exact ih

theorem construct_reads [Arith F] (trunc : F → Py Int) (m : List Char) {c : String} {e e' : SkFitted F} (h : Reads (readsOf c) e e') :
    (singles trunc initXgb).construct m (c ++ "Pure").toList e = (singles trunc initXgb).construct m (c ++ "Pure").toList e' := by
  have := find_parallel (constructors_read trunc) (fun p => p.1.toList == (c ++ "Pure").toList) (fun r => r.1 == c) (by
    rintro a b ⟨h1, -⟩
    rw [h1, Bool.eq_iff_iff]
    simp only [beq_iff_eq, String.toList_append, List.append_cancel_right_eq, String.toList_inj])
  unfold singles
  simp only
  rcases this with ⟨h1, h2⟩ | ⟨p, r, h1, h2, -, hr⟩
  · have : readsOf c = xgbReads := by unfold readsOf; rw [h2]
    rw [this] at h
    rw [h1]
    simp only [init_xgb h]
  · have : readsOf c = r.2 := by unfold readsOf; rw [h2]
    rw [this] at h
    rw [h1]
    simp only [hr e e' h]

end PurePredict
