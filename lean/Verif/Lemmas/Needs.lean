import Verif.Spec.Needs
import Verif.Lemmas.Reads
/-
Constructors that lack an attribute they need raise AttributeError.
-/
namespace PurePredict
open Spec
variable {F : Type}

/-- The second fitted estimator is the first one without the attribute `n`. -/
structure Short (n : String) (e e' : SkFitted F) : Prop where
  version : e.version = e'.version
  lacks : Lacks n e.state e'.state

/-- What does not change when the attribute `n` is taken away. -/
def Unmoved (n : String) {β : Type} (f : SkFitted F → Py β) : Prop := ∀ e e', Short n e e' → f e' = f e
/-- What raises AttributeError when the attribute `n` is taken away from something it can handle. -/
def Needs (n : String) {β : Type} (f : SkFitted F → Py β) : Prop := ∀ e e', Short n e e' → ∀ r, f e = .ok r → f e' = .error .attributeError

namespace Needs
variable {n : String} {β γ : Type}

theorem first {f : SkFitted F → Py β} (g : SkFitted F → β → Py γ) (h : Needs n f) : Needs n fun e => f e >>= g e := by
  intro e e' hs r hr
  simp only at hr ⊢
  cases hf : f e with
  | error x => rw [hf] at hr; cases hr
  | ok b => rw [h e e' hs b hf]; rfl

theorem after {f : SkFitted F → Py β} {g : SkFitted F → β → Py γ} (h : Unmoved n f) (hg : ∀ b, Needs n fun e => g e b) : Needs n fun e => f e >>= g e := by
  intro e e' hs r hr
  simp only at hr ⊢
  rw [h e e' hs]
  cases hf : f e with
  | error x => rw [hf] at hr; cases hr
  | ok b =>
    rw [hf] at hr
    exact hg b e e' hs r hr

theorem ite {c : Prop} [Decidable c] {x : PyErr} {f : SkFitted F → Py β} (h : Needs n f) : Needs n fun e => if c then .error x else f e := by
  intro e e' hs r hr
  simp only at hr ⊢
  split at hr
  · cases hr
  · rw [if_neg (by assumption)]
    exact h e e' hs r hr

theorem get : Needs (F := F) n fun e => e.get n := by
  intro e e' hs r hr
  simp only [Fitted.get, hs.lacks.gone]

theorem array : Needs (F := F) n fun e => e.array n := by
  unfold Fitted.array
  exact first _ get

theorem arrayOrNone : Needs (F := F) n fun e => e.arrayOrNone n := by
  unfold Fitted.arrayOrNone
  exact first _ get

theorem number : Needs (F := F) n fun e => e.number n := by
  unfold Fitted.number
  exact first _ get
end Needs

namespace Unmoved
variable {n m : String} {β γ : Type}

theorem const (p : Py β) : Unmoved (F := F) n fun _ => p := fun _ _ _ => rfl

theorem version : Unmoved (F := F) n fun e => checkVersion e.version none := fun e e' h => by simp only [h.version]

theorem get (h : m ≠ n) : Unmoved (F := F) n fun e => e.get m := by
  intro e e' hs
  simp only [Fitted.get, hs.lacks.rest m h]

theorem bind {f : SkFitted F → Py β} {g : SkFitted F → β → Py γ} (h : Unmoved n f) (hg : ∀ b, Unmoved n fun e => g e b) : Unmoved n fun e => f e >>= g e := by
  intro e e' hs
  simp only
  rw [h e e' hs, show g e' = g e from funext fun b => hg b e e' hs]

theorem array (h : m ≠ n) : Unmoved (F := F) n fun e => e.array m := by
  unfold Fitted.array
  exact bind (get h) fun _ => const _

theorem arrayOrNone (h : m ≠ n) : Unmoved (F := F) n fun e => e.arrayOrNone m := by
  unfold Fitted.arrayOrNone
  exact bind (get h) fun _ => const _

theorem number (h : m ≠ n) : Unmoved (F := F) n fun e => e.number m := by
  unfold Fitted.number
  exact bind (get h) fun _ => const _

theorem getOr {x : SkFitted F → Py (PVal F)} (h : m ≠ n) (hx : Unmoved n x) : Unmoved (F := F) n fun e => e.getOr m (x e) := by
  intro e e' hs
  have hc : e'.has m = e.has m := by
    unfold Fitted.has Dict.contains
    rw [hs.lacks.rest m h]
  have hg : e'.get m = e.get m := get h e e' hs
  simp only [Fitted.getOr, hc, hg, hx e e' hs]

end Unmoved

/-- go through a constructor to the place where the attribute is read -/
macro "to_the_need" : tactic => `(tactic| (
  repeat first
    | exact Needs.get
    | exact Needs.array
    | exact Needs.arrayOrNone
    | exact Needs.number
    | (refine Needs.first _ ?_; first | exact Needs.get | exact Needs.array | exact Needs.arrayOrNone | exact Needs.number)
    | refine Needs.after Unmoved.version fun _ => ?_
    | refine Needs.after (Unmoved.get (by decide)) fun _ => ?_
    | refine Needs.after (Unmoved.array (by decide)) fun _ => ?_
    | refine Needs.after (Unmoved.arrayOrNone (by decide)) fun _ => ?_
    | refine Needs.after (Unmoved.number (by decide)) fun _ => ?_
    | refine Needs.after (Unmoved.getOr (by decide) (Unmoved.get (by decide))) fun _ => ?_
    | refine Needs.after (Unmoved.getOr (by decide) (Unmoved.const _)) fun _ => ?_
    | refine Needs.after (Unmoved.const _) fun _ => ?_
    | refine Needs.ite ?_))

theorem linear_needs (d : String) : ∀ n ∈ ["coef_", "classes_"], Needs (F := F) n (initLinear d) := by
  intro n hn
  simp only [List.mem_cons, List.not_mem_nil, or_false] at hn
  unfold initLinear
  rcases hn with rfl | rfl <;> to_the_need

theorem gaussian_needs : ∀ n ∈ ["class_prior_", "classes_", "sigma_", "theta_"], Needs (F := F) n initGaussianNB := by
  intro n hn
  simp only [List.mem_cons, List.not_mem_nil, or_false] at hn
  unfold initGaussianNB
  rcases hn with rfl | rfl | rfl | rfl <;> to_the_need

theorem discrete_needs (d : String) : ∀ n ∈ discreteReads, Needs (F := F) n (initDiscreteNB d) := by
  intro n hn
  simp only [List.mem_cons, List.not_mem_nil, or_false, discreteReads] at hn
  unfold initDiscreteNB
  rcases hn with rfl | rfl | rfl <;> to_the_need

theorem dummy_needs : ∀ n ∈ ["class_prior_", "n_classes_", "n_outputs_"], Needs (F := F) n initDummy := by
  intro n hn
  simp only [List.mem_cons, List.not_mem_nil, or_false] at hn
  unfold initDummy
  rcases hn with rfl | rfl | rfl <;> to_the_need

theorem normalizer_needs : ∀ n ∈ ["norm", "copy"], Needs (F := F) n initNormalizer := by
  intro n hn
  simp only [List.mem_cons, List.not_mem_nil, or_false] at hn
  unfold initNormalizer
  rcases hn with rfl | rfl <;> to_the_need

theorem standard_needs : ∀ n ∈ ["with_mean", "with_std", "scale_", "mean_"], Needs (F := F) n initStandardScaler := by
  intro n hn
  simp only [List.mem_cons, List.not_mem_nil, or_false] at hn
  unfold initStandardScaler
  rcases hn with rfl | rfl | rfl | rfl <;> to_the_need

theorem minMax_needs : ∀ n ∈ ["feature_range", "scale_", "min_"], Needs (F := F) n initMinMaxScaler := by
  intro n hn
  simp only [List.mem_cons, List.not_mem_nil, or_false] at hn
  unfold initMinMaxScaler
  rcases hn with rfl | rfl | rfl <;> to_the_need

theorem maxAbs_needs : ∀ n ∈ ["copy", "scale_", "max_abs_"], Needs (F := F) n initMaxAbsScaler := by
  intro n hn
  simp only [List.mem_cons, List.not_mem_nil, or_false] at hn
  unfold initMaxAbsScaler
  rcases hn with rfl | rfl | rfl <;> to_the_need

theorem encoder_needs (d : String) : ∀ n ∈ ["dtype", "categories_"], Needs (F := F) n (initEncoder d) := by
  intro n hn
  simp only [List.mem_cons, List.not_mem_nil, or_false] at hn
  unfold initEncoder
  rcases hn with rfl | rfl <;> to_the_need

theorem indicator_needs : ∀ n ∈ indicatorReads, Needs (F := F) n initMissingIndicator := by
  intro n hn
  simp only [List.mem_cons, List.not_mem_nil, or_false, indicatorReads] at hn
  unfold initMissingIndicator
  refine Needs.first _ ?_
  unfold missingIndicatorAttrs
  rcases hn with rfl | rfl | rfl | rfl | rfl <;> to_the_need

theorem imputer_needs : ∀ n ∈ ["statistics_", "strategy", "missing_values"], Needs (F := F) n initSimpleImputer := by
  intro n hn
  simp only [List.mem_cons, List.not_mem_nil, or_false] at hn
  unfold initSimpleImputer
  rcases hn with rfl | rfl | rfl <;> to_the_need

theorem dictVectorizer_needs : ∀ n ∈ ["vocabulary_", "feature_names_", "sparse", "dtype", "separator"], Needs (F := F) n initDictVectorizer := by
  intro n hn
  simp only [List.mem_cons, List.not_mem_nil, or_false] at hn
  unfold initDictVectorizer
  rcases hn with rfl | rfl | rfl | rfl | rfl <;> to_the_need

theorem textOptions_needs : ∀ n ∈ textReads, Needs (F := F) n textOptions := by
  intro n hn
  simp only [List.mem_cons, List.not_mem_nil, or_false, textReads] at hn
  unfold textOptions
  rcases hn with rfl | rfl | rfl | rfl | rfl | rfl | rfl | rfl | rfl | rfl | rfl <;> to_the_need

theorem textOptions_unmoved {n : String} (h : n ∉ textReads) : Unmoved (F := F) n textOptions := by
  unfold textOptions
  have : ∀ m ∈ textReads, m ≠ n := fun m hm he => h (he ▸ hm)
  repeat refine Unmoved.bind (Unmoved.get (this _ (by decide))) fun _ => ?_
  exact Unmoved.const _

variable (trunc : F → Py Int)

theorem countWith_needs (d : String) (b : Attrs F) : ∀ n ∈ ["dtype", "binary", "vocabulary_"] ++ textReads, Needs n (initCountWith trunc d b) := by
  intro n hn
  unfold initCountWith
  rcases List.mem_append.1 hn with hn | hn
  · simp only [List.mem_cons, List.not_mem_nil, or_false] at hn
    rcases hn with rfl | rfl | rfl <;> to_the_need
  · have : ∀ m ∈ ["dtype", "binary", "vocabulary_"], m ≠ n := by
      rintro m hm rfl
      revert hn hm
      simp only [textReads, List.mem_cons, List.not_mem_nil, or_false]
      rintro (rfl | rfl | rfl) h <;> simp at h
    refine Needs.after Unmoved.version fun _ => ?_
    refine Needs.after (Unmoved.get (this _ (by decide))) fun _ => Needs.after (Unmoved.const _) fun _ => ?_
    refine Needs.after (Unmoved.get (this _ (by decide))) fun _ => ?_
    refine Needs.after (Unmoved.get (this _ (by decide))) fun _ => Needs.after (Unmoved.const _) fun _ => ?_
    exact Needs.first _ (textOptions_needs n hn)

theorem tfidf_needs : ∀ n ∈ tfidfReads, Needs (F := F) n initTfidfTransformer := by
  intro n hn
  simp only [List.mem_cons, List.not_mem_nil, or_false, tfidfReads] at hn
  unfold initTfidfTransformer
  rcases hn with rfl | rfl | rfl | rfl | rfl | rfl <;> to_the_need

theorem tfidfVectorizer_needs : ∀ n ∈ ["_tfidf", "dtype", "binary", "vocabulary_"] ++ textReads, Needs n (initTfidfVectorizer trunc) := by
  intro n hn
  unfold initTfidfVectorizer
  refine Needs.after Unmoved.version fun _ => ?_
  by_cases h : n = "_tfidf"
  · subst h
    to_the_need
  · refine Needs.after (Unmoved.get (Ne.symm h)) fun _ => Needs.after (Unmoved.const _) fun _ => ?_
    refine countWith_needs trunc _ _ n ?_
    simp only [List.cons_append, List.mem_cons, h, false_or] at hn
    simpa only [List.cons_append, List.nil_append, List.mem_cons] using hn

theorem hashing_needs : ∀ n ∈ ["dtype", "norm", "binary", "n_features", "alternate_sign"] ++ textReads, Needs (F := F) n initHashingVectorizer := by
  intro n hn
  unfold initHashingVectorizer
  by_cases ht : n ∈ textReads
  · have : ∀ m ∈ ["dtype", "norm", "binary"], m ≠ n := by
      rintro m hm rfl
      revert ht hm
      simp only [textReads, List.mem_cons, List.not_mem_nil, or_false]
      rintro (rfl | rfl | rfl) h <;> simp at h
    refine Needs.after Unmoved.version fun _ => ?_
    refine Needs.after (Unmoved.get (this _ (by decide))) fun _ => Needs.after (Unmoved.const _) fun _ => ?_
    refine Needs.after (Unmoved.get (this _ (by decide))) fun _ => ?_
    refine Needs.after (Unmoved.get (this _ (by decide))) fun _ => ?_
    exact Needs.first _ (textOptions_needs n ht)
  · have hn := (List.mem_append.1 hn).resolve_right ht
    simp only [List.mem_cons, List.not_mem_nil, or_false] at hn
    rcases hn with rfl | rfl | rfl | rfl | rfl
    · to_the_need
    · to_the_need
    · to_the_need
    · repeat refine Needs.after Unmoved.version fun _ => ?_
      refine Needs.after (Unmoved.get (by decide)) fun _ => Needs.after (Unmoved.const _) fun _ => ?_
      refine Needs.after (Unmoved.get (by decide)) fun _ => Needs.after (Unmoved.get (by decide)) fun _ => ?_
      refine Needs.after (textOptions_unmoved ht) fun _ => ?_
      to_the_need
    · refine Needs.after Unmoved.version fun _ => ?_
      refine Needs.after (Unmoved.get (by decide)) fun _ => Needs.after (Unmoved.const _) fun _ => ?_
      refine Needs.after (Unmoved.get (by decide)) fun _ => Needs.after (Unmoved.get (by decide)) fun _ => ?_
      refine Needs.after (textOptions_unmoved ht) fun _ => ?_
      to_the_need

theorem tree_needs (d : String) : ∀ n ∈ ["tree_"], Needs (F := F) n (initTree d) := by
  intro n hn
  simp only [List.mem_cons, List.not_mem_nil, or_false] at hn
  subst hn
  unfold initTree
  to_the_need

theorem xgb_needs [Arith F] : ∀ n ∈ xgbReads, Needs (F := F) n initXgb := by
  intro n hn
  simp only [List.mem_cons, List.not_mem_nil, or_false, xgbReads] at hn
  unfold initXgb
  rcases hn with rfl | rfl | rfl | rfl | rfl | rfl <;> to_the_need

/-- The constructors, one by one, and what they need. -/
theorem constructors_need : List.Forall₂ (fun (p : String × (SkFitted F → Py (PVal F))) (r : String × List String) =>
    p.1 = r.1 ++ "Pure" ∧ ∀ n ∈ r.2, Needs n p.2) (constructors trunc) needsTable := by
  unfold constructors needsTable
  exact .cons ⟨rfl, linear_needs _⟩ <| .cons ⟨rfl, linear_needs _⟩ <| .cons ⟨rfl, linear_needs _⟩ <| .cons ⟨rfl, linear_needs _⟩ <| .cons ⟨rfl, linear_needs _⟩ <|
    .cons ⟨rfl, linear_needs _⟩ <| .cons ⟨rfl, tree_needs _⟩ <| .cons ⟨rfl, tree_needs _⟩ <| .cons ⟨rfl, tree_needs _⟩ <| .cons ⟨rfl, tree_needs _⟩ <|
    .cons ⟨rfl, gaussian_needs⟩ <| .cons ⟨rfl, discrete_needs _⟩ <| .cons ⟨rfl, discrete_needs _⟩ <| .cons ⟨rfl, imputer_needs⟩ <| .cons ⟨rfl, indicator_needs⟩ <|
    .cons ⟨rfl, dummy_needs⟩ <| .cons ⟨rfl, encoder_needs _⟩ <| .cons ⟨rfl, encoder_needs _⟩ <| .cons ⟨rfl, standard_needs⟩ <| .cons ⟨rfl, minMax_needs⟩ <|
    .cons ⟨rfl, maxAbs_needs⟩ <| .cons ⟨rfl, normalizer_needs⟩ <| .cons ⟨rfl, dictVectorizer_needs⟩ <| .cons ⟨rfl, tfidfVectorizer_needs trunc⟩ <|
    .cons ⟨rfl, countWith_needs trunc _ _⟩ <| .cons ⟨rfl, tfidf_needs⟩ <| .cons ⟨rfl, hashing_needs⟩ .nil

theorem construct_needs [Arith F] (m : List Char) {c n : String} (hn : n ∈ needsOf c) :
    Needs (F := F) n fun e => (singles trunc initXgb).construct m (c ++ "Pure").toList e := by
  have := find_parallel (constructors_need trunc) (fun p => p.1.toList == (c ++ "Pure").toList) (fun r => r.1 == c) (by
    rintro a b ⟨h1, -⟩
    rw [h1, Bool.eq_iff_iff]
    simp only [beq_iff_eq, String.toList_append, List.append_cancel_right_eq, String.toList_inj])
  unfold singles
  simp only
  rcases this with ⟨h1, h2⟩ | ⟨p, r, h1, h2, -, hr⟩
  · have : needsOf c = xgbReads := by unfold needsOf; rw [h2]
    rw [this] at hn
    rw [h1]
    exact Needs.first _ (xgb_needs n hn)
  · have : needsOf c = r.2 := by unfold needsOf; rw [h2]
    rw [this] at hn
    rw [h1]
    exact hr n hn

end PurePredict
