import Verif.Props.C49
import Verif.Props.C51
import Verif.Props.C69
import Verif.Spec.Linear
import Verif.Lemmas.LinearExact
/-
C79: fastText classification from the fitted matrices and a text to the labels
(pure_fasttext/FastText.py:64-165).  Exact arithmetic.
-/
namespace PurePredict
open Spec

namespace Spec
/-- The vector of a text: the mean of the rows of its known words and of the end-of-sentence token. -/
noncomputable def ftVector (ws : Char → Bool) (V : List Str) (W : List (List ℝ)) (dim : Nat) (text : Str) : List ℝ :=
  meanVec dim (((words ws text ++ [eosToken]).filter (· ∈ V)).map (wordVec V W dim))

/-- The probability of label `c`: softmax of the inner products with the rows of the output matrix. -/
noncomputable def ftProba (dim : Nat) (O : List (List ℝ)) (x : List ℝ) (c : Nat) : ℝ :=
  softmax O.length (linScore dim O [] x) c
end Spec

theorem softmaxR_eq (dim : Nat) (O : List (List ℝ)) (x : List ℝ) :
    softmaxR ((List.range O.length).map (linScore dim O [] x)) = (List.range O.length).map (ftProba dim O x) := by
  unfold softmaxR
  rw [List.map_map, List.map_map, list_sum_range]
  rfl

theorem TopK.real {s : Nat → ℝ} {S : Nat → EReal} {n k : Nat} {t : ℝ} {sel : List Nat}
    (h : TopK S n (t : EReal) k sel) (hS : ∀ i < n, S i = (s i : EReal)) : TopK s n t k sel := by
  have hle : ∀ i < n, ∀ j < n, S i ≤ S j ↔ s i ≤ s j := by
    intro i hi j hj
    rw [hS i hi, hS j hj, EReal.coe_le_coe_iff]
  have hte : ∀ i < n, (t : EReal) ≤ S i ↔ t ≤ s i := by
    intro i hi
    rw [hS i hi, EReal.coe_le_coe_iff]
  refine ⟨h.nodup, h.valid, fun i hi => (hte i (h.valid i hi)).1 (h.threshold i hi), h.atMost, ?_, ?_, ?_⟩
  · refine h.sorted.imp_of_mem ?_
    intro i j hi hj hij
    exact (hle j (h.valid j hj) i (h.valid i hi)).1 hij
  · intro i hi ht hn j hj
    exact (hle i hi j (h.valid j hj)).1 (h.best i hi ((hte i hi).2 ht) hn j hj)
  · intro i hi ht hn
    exact h.full i hi ((hte i hi).2 ht) hn

theorem getD_fins_zero (l : List ℝ) (i : Nat) : (fins l).getD i (ofInt 0) = (.fin (l.getD i 0) : Ex) := by
  simp only [fins_def, List.getD_eq_getElem?_getD, List.getElem?_map]
  cases l[i]? <;> simp

/-- Prediction from the vector of the text. -/
theorem predict_of_vector (ws : Char → Bool) (m : FT.Model Ex) (hsup : m.supervised = true)
    (hl : m.lossSoftmax = true) (text : Str) (x : List ℝ) (O : List (List ℝ)) (hO : m.outputMatrix = O.map fins)
    (hne : O ≠ []) (hlab : O.length = m.labels.length)
    (hx : m.getSentenceVector ws text = .ok (fins x)) {p : Nat → ℝ}
    (hp : softmaxR (O.map fun o => (List.zipWith (· * ·) x o).sum) = (List.range O.length).map p)
    (k : Nat) (t : ℝ) :
    ∃ sel : List Nat, TopK p m.labels.length t k sel ∧
      m.predict ws (.one text) k (.fin t) = .ok [(sel.map fun i => m.labels.getD i [],
        fins (sel.map p))] := by
  have hdot : FT.dot (fins x) m.outputMatrix = fins (O.map fun o => (List.zipWith (· * ·) x o).sum) := by
    rw [hO, FT.dot, List.map_map, fins_def (l := O.map _), List.map_map]
    exact List.map_congr_left fun o _ => dotList_fins x o
  have hsf := C50_exact (O.map fun o => (List.zipWith (· * ·) x o).sum) (by simpa using hne)
  rw [hp] at hsf
  have hlen : (fins ((List.range O.length).map p) : List Ex).length = m.labels.length := by simp [hlab]
  obtain ⟨sel, h1, h2⟩ := C49_topk ws m hsup hl text (fins x) (fins ((List.range O.length).map p)) hx
    (by rw [hdot]; exact hsf) (by omega) (by simp [fins_def]) k (.fin t) (by simp)
  rw [hlen] at h1
  have hS : ∀ i < m.labels.length, (fins ((List.range O.length).map p) : List Ex).getD i (ofInt 0) = .fin (p i) := by
    intro i hi
    rw [getD_fins_zero]
    simp [hlab, hi]
  have h3 := TopK.real (s := p) h1 fun i hi => by rw [scoreAt, hS i hi]; rfl
  refine ⟨sel, h3, ?_⟩
  rw [h2]
  congr 3
  rw [fins_def (l := sel.map p), List.map_map]
  exact List.map_congr_left fun i hi => hS i (h3.valid i hi)

/-- **C79**: conversion of a supervised softmax model, then `predict` on one line of text with a
known word: the labels and probabilities are the `k` most probable ones above the threshold, where
the probabilities are the softmax of the output matrix applied to the mean of the known words'
vectors.  Missing: texts without a known word (`C79_no_words`), lists of texts (C52), subwords
(C69). -/
theorem C79_predict_partial (ws : Char → Bool) (hws : ws '\n' = true) (pre label : Str) (labels : List Str)
    (hsup : pre <:+: label) (maxn : Int) (V : List Str) (W O : List (List ℝ)) (dim : Nat)
    (hlen : V.length ≤ W.length) (hW : Rect dim W) (hO : Rect dim O) (hOl : O.length = (label :: labels).length)
    (text : Str) (hnl : '\n' ∉ text) (hk : ∃ w ∈ words ws text ++ [eosToken], w ∈ V) (k : Nat) (t : ℝ) :
    ∃ (m : FT.Model Ex) (sel : List Nat),
      FT.Model.ofFitted pre (label :: labels) maxn "softmax".toList V (W.map fins) dim (O.map fins) = .ok m ∧
      TopK (ftProba dim O (ftVector ws V W dim text)) O.length t k sel ∧
      m.predict ws (.one text) k (.fin t) = .ok [(sel.map fun i => (label :: labels).getD i [],
        fins (sel.map (ftProba dim O (ftVector ws V W dim text))))] := by
  have hm := C69_fasttext_loss_partial (F := Ex) pre label labels hsup maxn "softmax".toList (by decide) V
    (W.map fins) dim (O.map fins)
  rw [if_pos rfl] at hm
  have hv := C51_supervised_partial ws hws (⟨true, V, W.map fins, dim, label :: labels, O.map fins, true⟩ : FT.Model Ex)
    rfl W rfl hlen hW text hnl hk
  have hne : O ≠ [] := by rintro rfl; simp at hOl
  obtain ⟨sel, h1, h2⟩ := predict_of_vector ws
    (⟨true, V, W.map fins, dim, label :: labels, O.map fins, true⟩ : FT.Model Ex) rfl rfl text
    (ftVector ws V W dim text) O rfl hne hOl hv.1 (p := ftProba dim O (ftVector ws V W dim text)) (by
      rw [← softmaxR_eq]
      congr 1
      apply List.ext_getElem (by simp)
      intro i h1 h2
      have hi : i < O.length := by simpa using h1
      simp only [List.getElem_map, List.getElem_range]
      rw [zipWith_sum_range (x := ftVector ws V W dim text) hv.2 (hO _ (List.getElem_mem hi)), linScore]
      simp [hi]) k t
  exact ⟨_, sel, hm, hOl ▸ h1, h2⟩

/-- **C79**: only the multiset of known words matters: unknown words and the order of the words are
ignored. -/
theorem C79_bag (ws : Char → Bool) (V : List Str) (W : List (List ℝ)) (dim : Nat) {a b : Str}
    (h : ((words ws a).filter (· ∈ V)).Perm ((words ws b).filter (· ∈ V))) :
    ftVector ws V W dim a = ftVector ws V W dim b := by
  unfold ftVector meanVec
  rw [List.filter_append, List.filter_append]
  have hp := ((h.append_right ([eosToken].filter (· ∈ V))).map (wordVec V W dim))
  apply List.map_congr_left
  intro j _
  rw [(hp.map fun v => v.getD j 0).sum_eq, hp.length_eq]

/-- **C79**: the probabilities form a distribution over the labels. -/
theorem C79_distribution (dim : Nat) (O : List (List ℝ)) (hne : O ≠ []) (x : List ℝ) :
    IsDist O.length ((List.range O.length).map (ftProba dim O x)) := by
  rw [← softmaxR_eq]
  have := C50_distribution ((List.range O.length).map (linScore dim O [] x)) (by simpa using hne)
  simpa using this

/-- **C79**, texts without any known word, when the model has no end-of-sentence token: every label
gets the same probability.  (fastText itself returns no label then.) -/
theorem C79_no_words (ws : Char → Bool) (hws : ws '\n' = true) (m : FT.Model Ex) (hsup : m.supervised = true)
    (hl : m.lossSoftmax = true) (O : List (List ℝ)) (hO : m.outputMatrix = O.map fins)
    (hne : O ≠ []) (hlab : O.length = m.labels.length) (text : Str) (hnl : '\n' ∉ text)
    (h : ∀ w ∈ words ws text, w ∉ m.words) (heos : eosToken ∉ m.words) (k : Nat) (t : ℝ) :
    ∃ sel : List Nat, TopK (fun _ => 1 / (m.labels.length : ℝ)) m.labels.length t k sel ∧
      m.predict ws (.one text) k (.fin t) = .ok [(sel.map fun i => m.labels.getD i [],
        fins (sel.map fun _ => 1 / (m.labels.length : ℝ)))] := by
  refine predict_of_vector ws m hsup hl text [] O hO hne hlab
    (C51_no_known_word ws hws m text hnl h fun _ => heos) ?_ k t
  simp only [List.zipWith_nil_left, List.sum_nil, softmaxR, List.map_map, Function.comp_def, Real.exp_zero]
  rw [← hlab]
  apply List.ext_getElem (by simp)
  intro i h1 h2
  simp

/-- Non-vacuity: two labels, one word "a" with vector (2), output rows (1) and (3); the text "a zz"
is given the second label. -/
example : ∃ (m : FT.Model Ex) (sel : List Nat),
    FT.Model.ofFitted "__label__".toList ["__label__x".toList, "__label__y".toList] 0 "softmax".toList
      [['a']] ([[2]].map fins) 1 ([[1], [3]].map fins) = .ok m ∧
    TopK (ftProba 1 [[1], [3]] (ftVector (fun c => c == ' ' || c == '\n') [['a']] [[2]] 1 "a zz".toList)) 2 0 1
      sel ∧
    m.predict (fun c => c == ' ' || c == '\n') (.one "a zz".toList) 1 (.fin 0) =
      .ok [(sel.map fun i => ["__label__x".toList, "__label__y".toList].getD i [],
        fins (sel.map (ftProba 1 [[1], [3]]
          (ftVector (fun c => c == ' ' || c == '\n') [['a']] [[2]] 1 "a zz".toList))))] := by
  have hw : words (fun c => c == ' ' || c == '\n') "a zz".toList = [['a'], "zz".toList] := by
    rw [← splitWs_eq]; decide
  exact C79_predict_partial _ rfl _ _ _ ((isInfix_iff _ _).1 (by decide)) 0 [['a']] [[2]] [[1], [3]] 1 (by simp)
    (by simp [Rect]) (by simp [Rect]) rfl "a zz".toList (by decide) ⟨['a'], by rw [hw]; simp, by simp⟩ 1 0

end PurePredict
