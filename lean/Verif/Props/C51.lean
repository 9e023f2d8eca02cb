import Verif.Model.FastText
import Verif.Spec.Embedding
import Verif.Lemmas.Text
import Verif.Lemmas.Normalize
import Verif.Lemmas.Mat
/-
C51: fastText word and sentence vectors.
-/
namespace PurePredict
open Spec

section structural
variable {F : Type} [Arith F]

theorem getWordId_known {m : FT.Model F} {w : Str} (h : w ∈ m.words) :
    m.getWordId w = (m.words.idxOf w : Int) := by
  unfold FT.Model.getWordId
  have : m.words.findIdx? (· == w) = some (m.words.idxOf w) := by
    rw [List.findIdx?_eq_some_iff_findIdx_eq]
    exact ⟨List.idxOf_lt_length_of_mem h, rfl⟩
  rw [this]

theorem getWordId_unknown {m : FT.Model F} {w : Str} (h : w ∉ m.words) : m.getWordId w = -1 := by
  unfold FT.Model.getWordId
  have : m.words.findIdx? (· == w) = none := by
    rw [List.findIdx?_eq_none_iff]
    intro x hx
    simp only [beq_eq_false_iff_ne, ne_eq]
    rintro rfl; exact h hx
  rw [this]

/-- **C51**, word vectors: a known word has the row of the input matrix at its position … -/
theorem C51_known (m : FT.Model F) (hlen : m.words.length ≤ m.inputMatrix.length) (i : Nat) (w : Str)
    (hi : m.words[i]? = some w) (hfirst : ∀ j < i, m.words[j]? ≠ some w) :
    ∃ r, m.inputMatrix[i]? = some r ∧ m.getWordVector w = .ok r := by
  obtain ⟨hil, hiw⟩ := List.getElem?_eq_some_iff.1 hi
  have hmem : w ∈ m.words := hiw ▸ List.getElem_mem hil
  have hidx : m.words.idxOf w = i := by
    have h1 := List.idxOf_lt_length_of_mem hmem
    have h2 : m.words[m.words.idxOf w] = w := List.getElem_idxOf h1
    rcases lt_trichotomy (m.words.idxOf w) i with h | h | h
    · exact absurd (List.getElem?_eq_some_iff.2 ⟨h1, h2⟩) (hfirst _ h)
    · exact h
    · exact absurd (List.not_of_lt_findIdx (p := (· == w)) h) (by simp [hiw])
  have hlt : i < m.inputMatrix.length := by omega
  refine ⟨m.inputMatrix[i], List.getElem?_eq_getElem hlt, ?_⟩
  simp only [FT.Model.getWordVector, getWordId_known hmem, hidx]
  rw [if_pos (by omega), pyGet_lt hlt]

/-- … and an unknown word the zero vector of length `dim`. -/
theorem C51_unknown (m : FT.Model F) (w : Str) (h : w ∉ m.words) :
    m.getWordVector w = .ok (List.replicate m.dim (ofInt 0)) := by
  simp [FT.Model.getWordVector, getWordId_unknown h]

theorem splitWs_newline (ws : Char → Bool) (hws : ws '\n' = true) (s : Str) :
    splitWs ws (s ++ ['\n']) = words ws s := by
  have : ∀ cur, splitWs.go ws (s ++ ['\n']) cur = splitWs.go ws s cur := by
    induction s with
    | nil =>
      intro cur
      simp only [List.nil_append, splitWs.go, hws, if_true]
      cases cur <;> simp
    | cons c s ih =>
      intro cur
      simp only [List.cons_append, splitWs.go, ih]
  rw [← splitWs_eq]
  exact this []

/-- fastText's end-of-sentence token. -/
def Spec.eosToken : Str := "</s>".toList

omit [Arith F] in
theorem eos_eq : FT.Model.eos = eosToken := rfl

/-- **C51 is false** as stated: for a text without any known word `get_sentence_vector` returns the
empty list instead of a vector of length `dim`, in any arithmetic. -/
theorem C51_no_known_word (ws : Char → Bool) (hws : ws '\n' = true) (m : FT.Model F) (text : Str)
    (hnl : '\n' ∉ text) (h : ∀ w ∈ words ws text, w ∉ m.words)
    (heos : m.supervised = true → eosToken ∉ m.words) :
    m.getSentenceVector ws text = .ok [] := by
  have h1 : (words ws text).filter (fun w => m.words.contains w) = [] := by
    rw [List.filter_eq_nil_iff]
    intro w hw
    simpa using h w hw
  have hc : text.contains '\n' = false := by simpa using hnl
  unfold FT.Model.getSentenceVector
  rw [hc, splitWs_newline ws hws, eos_eq]
  simp only [Bool.false_eq_true, if_false]
  cases hsup : m.supervised with
  | false =>
    simp only [Bool.false_eq_true, if_false, h1]
    rfl
  | true =>
    have h2 : (words ws text ++ [eosToken]).filter (fun w => m.words.contains w) = [] := by
      rw [List.filter_append, h1, List.nil_append, List.filter_eq_nil_iff]
      intro w hw
      have : w = eosToken := by simpa using hw
      subst this
      simpa using heos hsup
    simp only [if_true, h2]
    rfl

/-- A text with a newline is rejected. -/
theorem C51_newline (ws : Char → Bool) (m : FT.Model F) (text : Str) (h : '\n' ∈ text) :
    m.getSentenceVector ws text = .error .valueError := by
  simp [FT.Model.getSentenceVector, h]
end structural

theorem C51_false : ¬ ∀ (m : FT.Model Ex) (text : Str) (A : List Ex), '\n' ∉ text →
    m.getSentenceVector (fun c => c == ' ' || c == '\n') text = .ok A → A.length = m.dim := by
  intro h
  have := h ⟨false, [], [], 3, [], [], false⟩ [] [] (by simp)
    (C51_no_known_word _ rfl _ _ (by simp) (by simp) (by simp))
  simp at this

/-! ### Sentence vectors in exact arithmetic -/

theorem average_exact {dim : Nat} {vs : List (List ℝ)} (hne : vs ≠ []) (hr : Rect dim vs) :
    FT.average (vs.map fins) = .ok (fins (meanVec dim vs)) := by
  unfold FT.average
  have hne' : vs.map fins ≠ [] := by simpa using hne
  have hr' : Rect dim (vs.map fins) := by
    intro r h
    obtain ⟨x, hx, rfl⟩ := List.mem_map.1 h
    simp [hr x hx]
  have hz : zipStar (vs.map fins) = (List.range dim).map fun j => fins (vs.map fun v => v.getD j 0) := by
    unfold zipStar
    rw [minLen_rect hne' hr']
    apply List.map_congr_left
    intro j hj
    have hj' : j < dim := List.mem_range.1 hj
    rw [List.filterMap_map, fins_def, List.map_map]
    have : ∀ l : List (List ℝ), (∀ v ∈ l, v.length = dim) →
        l.filterMap ((fun r => r[j]?) ∘ fins) = l.map (XR.fin ∘ fun v => v.getD j 0) := by
      intro l hl
      induction l with
      | nil => rfl
      | cons v l ih =>
        have hv : j < v.length := by rw [hl v (by simp)]; exact hj'
        rw [List.filterMap_cons_some (b := XR.fin (v.getD j 0)), ih fun u hu => hl u (by simp [hu])]
        · rfl
        · simp [fins_def, List.getElem?_eq_getElem hv]
    exact this vs hr
  rw [hz, mapM_map', meanVec, fins_def, List.map_map]
  apply mapM_ok_map
  intro j _
  have hn : ((vs.length : Int) : ℝ) ≠ 0 := by
    have : vs.length ≠ 0 := by simpa using hne
    exact_mod_cast this
  rw [List.length_map, pySum_fins, XR.ofInt_exact, XR.div_exact _ hn]
  simp

theorem getWordVector_exact {m : FT.Model Ex} {W : List (List ℝ)} (hW : m.inputMatrix = W.map fins)
    (hlen : m.words.length ≤ W.length) {w : Str} (h : w ∈ m.words) :
    m.getWordVector w = .ok (fins (wordVec m.words W m.dim w)) := by
  have hlt : m.words.idxOf w < W.length := by
    have := List.idxOf_lt_length_of_mem h
    omega
  simp only [FT.Model.getWordVector, getWordId_known h, hW, wordVec, h, if_true]
  rw [if_pos (by omega), pyGet_lt (by simpa using hlt)]
  simp [List.getElem?_eq_getElem hlt]

theorem divNorm_exact (x : List ℝ) : FT.divNorm (fins x) = .ok (fins (unitBy l2norm x)) := by
  have hn : FT.l2Norm (fins x) = .ok (.fin (l2norm x)) := by
    unfold FT.l2Norm
    rw [mapM_fins (g := fun a => a * a) fun a _ => XR.sq_exact a, py_ok_bind, pySum_fins,
      XR.sqrt_exact (sum_sq_nonneg x), l2norm_eq]
  have hnn : 0 ≤ l2norm x := Real.sqrt_nonneg _
  unfold FT.divNorm
  rw [hn, py_ok_bind, XR.ofInt_exact, XR.lt_fin]
  by_cases h : l2norm x = 0
  · simp [h, unitBy]
  · have hp : (((0 : Int) : ℝ) < l2norm x) := by
      rw [Int.cast_zero]; exact lt_of_le_of_ne hnn (Ne.symm h)
    rw [if_pos (by simpa using hp)]
    rw [mapM_fins (g := fun a => a / l2norm x)]
    · simp [unitBy, h]
    · intro a _
      rw [XR.ofInt_exact, XR.div_exact _ h]
      simp [div_eq_mul_inv]

theorem rect_wordVec {V : List Str} {W : List (List ℝ)} {dim : Nat} (hlen : V.length ≤ W.length)
    (hr : Rect dim W) {ws : List Str} : Rect dim (ws.map (wordVec V W dim)) := by
  intro r h
  obtain ⟨w, _, rfl⟩ := List.mem_map.1 h
  unfold wordVec
  split
  · rename_i hw
    have : V.idxOf w < W.length := by
      have := List.idxOf_lt_length_of_mem hw
      omega
    rw [List.getD_eq_getElem?_getD, List.getElem?_eq_getElem this]
    exact hr _ (List.getElem_mem this)
  · simp

/-- **C51**, sentence vector of a supervised model (exact arithmetic): the mean of the vectors of
the known words of the text and of the end-of-sentence token.  Missing: texts without any known
word, for which the claim is false (`C51_false`). -/
theorem C51_supervised_partial (ws : Char → Bool) (hws : ws '\n' = true) (m : FT.Model Ex)
    (hsup : m.supervised = true) (W : List (List ℝ)) (hW : m.inputMatrix = W.map fins)
    (hlen : m.words.length ≤ W.length) (hr : Rect m.dim W) (text : Str) (hnl : '\n' ∉ text)
    (hk : ∃ w ∈ words ws text ++ [eosToken], w ∈ m.words) :
    m.getSentenceVector ws text = .ok (fins (meanVec m.dim
      (((words ws text ++ [eosToken]).filter (· ∈ m.words)).map (wordVec m.words W m.dim)))) ∧
    (meanVec m.dim (((words ws text ++ [eosToken]).filter (· ∈ m.words)).map
      (wordVec m.words W m.dim))).length = m.dim := by
  refine ⟨?_, by simp [meanVec]⟩
  have hc : text.contains '\n' = false := by simpa using hnl
  have hf : (words ws text ++ [eosToken]).filter (fun w => m.words.contains w) =
      (words ws text ++ [eosToken]).filter (· ∈ m.words) := by
    apply List.filter_congr; intro w _; exact List.contains_eq_mem _ _
  unfold FT.Model.getSentenceVector
  rw [hc, splitWs_newline ws hws, eos_eq]
  simp only [Bool.false_eq_true, if_false, hsup, if_true, hf]
  rw [mapM_ok_map (g := fun w => fins (wordVec m.words W m.dim w))]
  · rw [py_ok_bind, show (List.map (fun w => fins (wordVec m.words W m.dim w))
      ((words ws text ++ [eosToken]).filter (· ∈ m.words))) =
      (((words ws text ++ [eosToken]).filter (· ∈ m.words)).map (wordVec m.words W m.dim)).map fins by rw [List.map_map]; rfl]
    refine average_exact ?_ (rect_wordVec hlen hr)
    obtain ⟨w, h1, h2⟩ := hk
    intro h
    have : w ∈ (words ws text ++ [eosToken]).filter (· ∈ m.words) :=
      List.mem_filter.2 ⟨h1, by simpa using h2⟩
    rw [List.map_eq_nil_iff.1 h] at this
    cases this
  · intro w hw
    exact getWordVector_exact hW hlen (by simpa using (List.mem_filter.1 hw).2)

/-- **C51**, sentence vector of an unsupervised model: the mean of the unit-normalised vectors of the
known words.  Missing: as above. -/
theorem C51_unsupervised_partial (ws : Char → Bool) (hws : ws '\n' = true) (m : FT.Model Ex)
    (hsup : m.supervised = false) (W : List (List ℝ)) (hW : m.inputMatrix = W.map fins)
    (hlen : m.words.length ≤ W.length) (hr : Rect m.dim W) (text : Str) (hnl : '\n' ∉ text)
    (hk : ∃ w ∈ words ws text, w ∈ m.words) :
    m.getSentenceVector ws text = .ok (fins (meanVec m.dim
      (((words ws text).filter (· ∈ m.words)).map fun w => unitBy l2norm (wordVec m.words W m.dim w)))) := by
  have hc : text.contains '\n' = false := by simpa using hnl
  have hf : (words ws text).filter (fun w => m.words.contains w) = (words ws text).filter (· ∈ m.words) := by
    apply List.filter_congr; intro w _; exact List.contains_eq_mem _ _
  unfold FT.Model.getSentenceVector
  rw [hc, splitWs_newline ws hws, eos_eq]
  simp only [Bool.false_eq_true, if_false, hsup, hf]
  rw [mapM_ok_map (g := fun w => fins (wordVec m.words W m.dim w))]
  · rw [py_ok_bind, mapM_map', mapM_ok_map (g := fun w => fins (unitBy l2norm (wordVec m.words W m.dim w)))]
    · rw [py_ok_bind, show (List.map (fun w => fins (unitBy l2norm (wordVec m.words W m.dim w)))
        ((words ws text).filter (· ∈ m.words))) = (((words ws text).filter (· ∈ m.words)).map
        fun w => unitBy l2norm (wordVec m.words W m.dim w)).map fins by simp]
      refine average_exact ?_ ?_
      · obtain ⟨w, h1, h2⟩ := hk
        intro h
        have : w ∈ (words ws text).filter (· ∈ m.words) := List.mem_filter.2 ⟨h1, by simpa using h2⟩
        rw [List.map_eq_nil_iff.1 h] at this
        cases this
      · intro r h
        obtain ⟨w, hw, rfl⟩ := List.mem_map.1 h
        have := rect_wordVec hlen hr (ws := (words ws text).filter (· ∈ m.words)) (wordVec m.words W m.dim w)
          (List.mem_map.2 ⟨w, hw, rfl⟩)
        rw [unitBy_eq]
        simpa using this
    · intro w _
      exact divNorm_exact _
  · intro w hw
    exact getWordVector_exact hW hlen (by simpa using (List.mem_filter.1 hw).2)

/-- Non-vacuity: the sentence "a b" with vectors (2), (4) and no end-of-sentence entry has the
vector (3). -/
example : (⟨true, [['a'], ['b']], [[2], [4]].map fins, 1, [], [], true⟩ : FT.Model Ex).getSentenceVector
    (fun c => c == ' ' || c == '\n') ['a', ' ', 'b'] = .ok (fins [3]) := by
  have hw : words (fun c => c == ' ' || c == '\n') ['a', ' ', 'b'] = [['a'], ['b']] := by
    rw [← splitWs_eq]; decide
  rw [(C51_supervised_partial _ rfl _ rfl [[2], [4]] rfl (by simp)
    (by intro r hr; simp at hr; rcases hr with rfl | rfl <;> rfl) _ (by decide)
    ⟨['a'], by rw [hw]; simp, by simp⟩).1, hw]
  have he : ([['a'], ['b']] ++ [eosToken]).filter (· ∈ ([['a'], ['b']] : List Str)) = [['a'], ['b']] := by
    decide
  have ha : wordVec [['a'], ['b']] [[2], [4]] 1 ['a'] = [2] := by simp [wordVec, List.idxOf_cons]
  have hb : wordVec [['a'], ['b']] [[2], [4]] 1 ['b'] = [4] := by simp [wordVec, List.idxOf_cons]
  simp only [he, meanVec, List.map_cons, List.map_nil, ha, hb]
  norm_num [List.range_succ]

end PurePredict
