import Verif.Model.Ensemble
import Verif.Model.Encoders
import Verif.Model.FastText
import Verif.Spec.Loss
import Verif.Props.C44
import Verif.Props.C51
/-
C69: configurations the library does not support are refused when the estimator is converted.
-/
namespace PurePredict
open Spec
variable {F C : Type}

/-! ### Encoders, losses, boosters -/

/-- **C69**, encoders: conversion succeeds exactly when `drop` is not used, and then keeps the fitted
attributes. -/
theorem C69_encoder (categories : List (List C)) (dtype : DType) (sparse err drop : Bool) :
    (drop = true → Encoder.ofFitted categories dtype sparse err drop = .error .valueError) ∧
    (drop = false → Encoder.ofFitted categories dtype sparse err drop =
      .ok ⟨categories, dtype, sparse, err⟩) := by
  constructor <;> rintro rfl <;> rfl

/-- **C69**, gradient boosting: every supported loss is recognised, every other is a ValueError. -/
theorem C69_gb_loss (loss : String) (k : Nat) :
    mkLoss loss k = match lossOf loss k with
      | some l => .ok l
      | none => .error .valueError := by
  unfold mkLoss lossOf
  by_cases hd : loss = "deviance"
  · subst hd
    by_cases h3 : 3 ≤ k
    · simp [h3, show 2 < k from h3]
    · have h2 : ¬ 2 < k := by omega
      by_cases h : k = 2 <;> simp [h3, h2, h]
  · by_cases he : loss = "exponential"
    · subst he
      by_cases h : k = 2 <;> simp [h]
    · simp [hd, he]

/-- **C69**, XGBoost: exactly the two supported objectives with tree boosters convert. -/
theorem C69_xgb (objective booster : String) :
    (∃ o, xgbCheck objective booster = .ok o) ↔
      (objective = "binary:logistic" ∨ objective = "multi:softprob") ∧ booster = "gbtree" := by
  unfold xgbCheck
  by_cases h1 : objective = "binary:logistic"
  · by_cases hb : booster = "gbtree" <;> simp [h1, hb]
  · by_cases h2 : objective = "multi:softprob"
    · by_cases hb : booster = "gbtree" <;> simp [h2, hb]
    · simp [h1, h2]

theorem C69_xgb_error (objective booster : String)
    (h : ¬ ((objective = "binary:logistic" ∨ objective = "multi:softprob") ∧ booster = "gbtree")) :
    xgbCheck objective booster = .error .valueError := by
  cases hc : xgbCheck objective booster with
  | ok o => exact absurd ((C69_xgb _ _).1 ⟨o, hc⟩) h
  | error e =>
    unfold xgbCheck at hc
    split at hc
    · split at hc <;> simp_all
    · split at hc
      · split at hc <;> simp_all
      · simp_all

/-! ### fastText -/
section fasttext
variable [Arith F]

/-- The loss functions of fastText. -/
def Spec.fastTextLosses : List Str := ["hs".toList, "ns".toList, "softmax".toList, "ova".toList]

/-- **C69**, fastText, supervised: of fastText's losses exactly softmax converts. -/
theorem C69_fasttext_loss_partial (pre : Str) (label : Str) (labels : List Str) (hsup : pre <:+: label)
    (maxn : Int) (loss : Str) (hloss : loss ∈ fastTextLosses) (words : List Str) (I : List (List F))
    (dim : Nat) (O : List (List F)) :
    FT.Model.ofFitted pre (label :: labels) maxn loss words I dim O =
      if loss = "softmax".toList then
        .ok ⟨true, words, I, dim, label :: labels, O, true⟩ else .error .exception := by
  have h1 : FT.isSupervised pre (label :: labels) = .ok true := by
    simp [FT.isSupervised, pyGet_zero_cons, (isInfix_iff pre label).2 hsup]
  unfold FT.Model.ofFitted
  rw [h1, py_ok_bind]
  simp only [fastTextLosses, List.mem_cons, List.not_mem_nil, or_false] at hloss
  rcases hloss with rfl | rfl | rfl | rfl
  · rw [if_neg (by simp), if_pos (by decide), if_neg (by decide)]
  · rw [if_neg (by simp), if_pos (by decide), if_neg (by decide)]
  · rw [if_neg (by simp), if_neg (by decide), if_pos rfl]; rfl
  · rw [if_neg (by simp), if_pos (by decide), if_neg (by decide)]

/-- **C69**, fastText, unsupervised: models with subwords are refused, the others convert. -/
theorem C69_fasttext_unsupervised (pre : Str) (label : Str) (labels : List Str)
    (hsup : ¬ pre <:+: label) (maxn : Int) (loss : Str) (words : List Str) (I : List (List F))
    (dim : Nat) (O : List (List F)) :
    (maxn ≠ 0 → FT.Model.ofFitted pre (label :: labels) maxn loss words I dim O = .error .valueError) ∧
    (maxn = 0 → ∃ m, FT.Model.ofFitted pre (label :: labels) maxn loss words I dim O = .ok m ∧
      m.supervised = false ∧ m.words = words ∧ m.inputMatrix = I ∧ m.dim = dim) := by
  have h1 : FT.isSupervised pre (label :: labels) = .ok false := by
    have : isInfix pre label = false := by
      rw [← Bool.not_eq_true, isInfix_iff]; exact hsup
    simp [FT.isSupervised, pyGet_zero_cons, this]
  unfold FT.Model.ofFitted
  rw [h1, py_ok_bind]
  constructor
  · intro h; simp [h]
  · rintro rfl; exact ⟨_, rfl, rfl, rfl, rfl, rfl⟩

/-- A model whose label list is empty does not convert (IndexError). -/
theorem C69_fasttext_no_labels (pre : Str) (maxn : Int) (loss : Str) (words : List Str)
    (I : List (List F)) (dim : Nat) (O : List (List F)) :
    FT.Model.ofFitted pre [] maxn loss words I dim O = .error .indexError := rfl

/-- The rows of the input matrix behind those of the words (subwords, word n-grams) are never used,
in any arithmetic: models that agree on the rows of the words answer alike. -/
theorem C69_buckets_ignored (ws : Char → Bool) (m : FT.Model F) (I : List (List F))
    (hlen : m.words.length ≤ m.inputMatrix.length) (hlen' : m.words.length ≤ I.length)
    (hI : I.take m.words.length = m.inputMatrix.take m.words.length) :
    (∀ text, ({ m with inputMatrix := I } : FT.Model F).getSentenceVector ws text =
      m.getSentenceVector ws text) ∧
    ∀ text k th, ({ m with inputMatrix := I } : FT.Model F).predict ws text k th =
      m.predict ws text k th := by
  have hw : ∀ w, ({ m with inputMatrix := I } : FT.Model F).getWordVector w = m.getWordVector w := by
    intro w
    by_cases hm : w ∈ m.words
    · have hlt := List.idxOf_lt_length_of_mem hm
      have h1 : I[m.words.idxOf w]? = m.inputMatrix[m.words.idxOf w]? := by
        rw [← List.getElem?_take_of_lt hlt, hI, List.getElem?_take_of_lt hlt]
      simp only [FT.Model.getWordVector, getWordId_known (m := m) hm,
        getWordId_known (m := { m with inputMatrix := I }) hm]
      rw [pyGet_lt (by omega), pyGet_lt (by omega)]
      rw [List.getElem?_eq_getElem (by omega), List.getElem?_eq_getElem (by omega)] at h1
      simp only [Option.some.injEq] at h1
      rw [h1]
    · rw [C51_unknown _ _ hm]
      exact C51_unknown { m with inputMatrix := I } w hm
  have hs : ∀ text, ({ m with inputMatrix := I } : FT.Model F).getSentenceVector ws text =
      m.getSentenceVector ws text := by
    intro text
    unfold FT.Model.getSentenceVector
    have e : ({ m with inputMatrix := I } : FT.Model F).getWordVector = m.getWordVector := funext hw
    rw [e]
  refine ⟨hs, fun text k th => ?_⟩
  unfold FT.Model.predict FT.Model.predict_
  cases text <;> simp only [hs]

end fasttext

/-- fastText's sentence vector of a supervised model: the mean of the rows of all input ids. -/
noncomputable def Spec.inputMean (dim : Nat) (rows : List (List ℝ)) (ids : List Nat) : List ℝ :=
  meanVec dim (ids.map fun i => rows.getD i [])

/-- **C69 is false** for supervised fastText models with subwords: they are not refused, and answer
without the subwords.  Here the only word has id 0, one subword with id 1, and there is no end of
sentence token. -/
theorem C69_fasttext_subwords_false :
    ∃ (maxn : Int) (words : List Str) (I : List (List ℝ)) (m : FT.Model Ex) (v : List ℝ), maxn ≠ 0 ∧
      FT.Model.ofFitted "__label__".toList ["__label__a".toList] maxn "softmax".toList words (I.map fins) 1
        [fins [1]] = .ok m ∧
      m.getSentenceVector (fun c => c == ' ' || c == '\n') "ab".toList = .ok (fins v) ∧
      v = inputMean 1 I [0] ∧ v ≠ inputMean 1 I [0, 1] := by
  refine ⟨2, ["ab".toList], [[1], [3]], ⟨true, ["ab".toList], [fins [1], fins [3]], 1,
    ["__label__a".toList], [fins [1]], true⟩, [1], by decide, ?_, ?_, ?_, ?_⟩
  · rw [C69_fasttext_loss_partial _ _ _ ((isInfix_iff _ _).1 (by decide)) _ _ (by decide)]
    rfl
  · have h := (C51_supervised_partial (fun c => c == ' ' || c == '\n') rfl
      ⟨true, ["ab".toList], [fins [1], fins [3]], 1, ["__label__a".toList], [fins [1]], true⟩ rfl
      [[1], [3]] rfl (by simp) (by simp [Rect]) "ab".toList (by decide)
      ⟨"ab".toList, by decide, by simp⟩).1
    rw [h]
    have hw : (words (fun c => c == ' ' || c == '\n') "ab".toList ++ [eosToken]).filter
        (· ∈ ["ab".toList]) = ["ab".toList] := by decide
    simp only [hw]
    simp [meanVec, wordVec, List.range_succ]
  · simp [inputMean, meanVec, List.range_succ]
  · simp [inputMean, meanVec, List.range_succ]
    norm_num

/-! ### Non-vacuity -/

example : mkLoss "deviance" 2 = .ok .binomial ∧ mkLoss "deviance" 4 = .ok (.multinomial 4) ∧
    mkLoss "huber" 2 = .error .valueError ∧ mkLoss "exponential" 3 = .error .valueError := by
  simp [C69_gb_loss, lossOf]

example : xgbCheck "rank:pairwise" "gbtree" = .error .valueError := C69_xgb_error _ _ (by decide)

/-- A one-vs-all model is refused although "ova" is compared with a substring test. -/
example : FT.Model.ofFitted "__label__".toList ["__label__a".toList] 0 "ova".toList [] [] 1
    ([] : List (List Ex)) = .error .exception := by
  rw [C69_fasttext_loss_partial _ _ _ ((isInfix_iff _ _).1 (by decide)) _ _ (by decide), if_neg (by decide)]

example : FT.Model.ofFitted "__label__".toList ["the".toList] 3 "ns".toList [] [] 1
    ([] : List (List Ex)) = .error .valueError :=
  (C69_fasttext_unsupervised _ _ _ (fun h => absurd ((isInfix_iff _ _).2 h) (by decide)) _ _ _ _ _ _).1
    (by decide)

/-- Changing the row of a subword changes nothing. -/
example : (⟨true, ["ab".toList], [fins [1], fins [9]], 1, [], [], true⟩ : FT.Model Ex).getSentenceVector
      (· == ' ') "ab".toList =
    (⟨true, ["ab".toList], [fins [1], fins [3]], 1, [], [], true⟩ : FT.Model Ex).getSentenceVector
      (· == ' ') "ab".toList :=
  (C69_buckets_ignored (· == ' ') ⟨true, ["ab".toList], [fins [1], fins [3]], 1, [], [], true⟩
    [fins [1], fins [9]] (by simp) (by simp) rfl).1 _

end PurePredict
