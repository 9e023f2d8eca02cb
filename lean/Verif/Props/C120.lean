import Verif.Spec.Drift
import Verif.Props.C83Pair
import Verif.Props.C114
import Verif.Props.C112Stages
/-
C120: a small change of a record changes the probabilities of a linear classifier only a little, and a clear label not at all.
-/
namespace PurePredict
open Spec Linear
variable {lib : String → TextLib} {encode : Str → List Nat}

theorem drift_bound (w : Nat) (W : List (List ℝ)) (b x x' : List ℝ) (c : Nat) : |linScore w W b x c - linScore w W b x' c| ≤ scoreMove w W x x' c := by
  have : linScore w W b x c - linScore w W b x' c = ∑ i ∈ Finset.range w, (x.getD i 0 - x'.getD i 0) * (W.getD c []).getD i 0 := by
    simp only [linScore, sub_mul, Finset.sum_sub_distrib]
    ring
  rw [this]
  refine (Finset.abs_sum_le_sum_abs _ _).trans (le_of_eq (Finset.sum_congr rfl fun i _ => ?_))
  exact abs_mul _ _

theorem steady_of {β : Type} {R R' : List (List ℝ)} {A A' : List β} {P : List ℝ → β → Prop} {S : List ℝ → List ℝ → β → β → Prop}
    (h : List.Forall₂ P R A) (h' : List.Forall₂ P R' A') (hs : ∀ x ∈ R, ∀ x' ∈ R', ∀ q q', P x q → P x' q' → S x x' q q') : EachPair R R' A A' S := by
  refine ⟨h.length_eq.symm, h'.length_eq.symm, fun i j x x' q q' hx hx' hq hq' => ?_⟩
  refine hs x (List.mem_of_getElem? hx) x' (List.mem_of_getElem? hx') q q' ?_ ?_
  · obtain ⟨hi, rfl⟩ := List.getElem?_eq_some_iff.1 hx
    obtain ⟨hi', rfl⟩ := List.getElem?_eq_some_iff.1 hq
    exact h.get hi hi'
  · obtain ⟨hi, rfl⟩ := List.getElem?_eq_some_iff.1 hx'
    obtain ⟨hi', rfl⟩ := List.getElem?_eq_some_iff.1 hq'
    exact h'.get hi hi'

theorem between {a a' p p' e e' d : ℝ} (h : |a - p| ≤ e) (h' : |a' - p'| ≤ e') (hd : |p - p'| ≤ d) : |a - a'| ≤ d + e + e' := by
  rw [abs_le] at *
  constructor <;> linarith [h.1, h.2, h'.1, h'.2, hd.1, hd.2]

/-- The fitted classifiers whose probabilities are one-vs-rest logistic functions: logistic regression in that mode, and SGD trained with the logistic loss. -/
def OneVsRest (kind : LinKind) (m : Linear (XR FP.binary64) (PVal (XR FP.binary64))) : Prop :=
  (kind = .logistic ∧ m.isOvr = .ok true) ∨ (kind = .sgd ∧ m.loss = some "log")

theorem OneVsRest.proba {kind : LinKind} {m : Linear (XR FP.binary64) (PVal (XR FP.binary64))} (h : OneVsRest kind m) :
    ∃ q, ((Single.linear kind m).est lib encode).predictProba = some q ∧ ∀ X, q (.arr X) = m.predictProbaLr X := by
  rcases h with ⟨rfl, ho⟩ | ⟨rfl, hl⟩
  · exact ⟨_, rfl, fun X => by show m.predictProba X = _; simp [Linear.predictProba, ho]⟩
  · have hch : m.checkProba = .ok () := by simp [Linear.checkProba, attr, hl]
    refine ⟨Data.onArr m.sgdPredictProba, by simp only [Single.est, LinKind.est, hch]; rfl, fun X => ?_⟩
    show m.sgdPredictProba X = _
    simp [Linear.sgdPredictProba, hch, Linear.sgdPredictProba_, attr, hl]

theorem linear_says {kind : LinKind} {m : Linear (XR FP.binary64) (PVal (XR FP.binary64))} :
    ∃ q, ((Single.linear kind m).est lib encode).predict = some q ∧ ∀ X, q (.arr X) = m.predict X := by
  refine ⟨Data.onArr m.predict, ?_, fun _ => rfl⟩
  show (kind.est m).predict = _
  unfold LinKind.est
  split
  · rfl
  · split <;> rfl
  · rfl

section
variable (trunc : XR FP.binary64 → Py Int) {cl : String} {a : Attrs (XR FP.binary64)} {v : Option (List Char)} {kind : LinKind}
  {m : Linear (XR FP.binary64) (PVal (XR FP.binary64))} {w k : Nat} {W : List (List ℝ)} {b : List ℝ} {X X' : Arr (XR FP.binary64)} {R R' : List (List ℝ)}

/-- **C120**, two classes, in double precision: between any two records, of the same request or of two, dense or sparse, no probability differs by more than a quarter of
the weighted change of the columns and of the rounding errors of the scores, and 2⁻⁴⁹. -/
theorem C120_two_classes (hv : ReadableVersion v) (hl : Learned cl a (.linear kind m)) (ho : OneVsRest kind m)
    (hw : w + 1 ≤ 2 ^ 52) (h : m.IsReal w 1 W b) {c0 c1} (hc : m.classes = [c0, c1])
    (hX : Denotes (.fin 0) X w (R.map fun x => x.map XR.fin)) (hX' : Denotes (.fin 0) X' w (R'.map fun x => x.map XR.fin))
    (hm : Moderate w 1 W b R) (hm' : Moderate w 1 W b R') :
    ∃ r q, ∃ Q Q' : List (List ℝ), convert (singles trunc initXgb) (.leaf cl v a) = .ok r ∧ (r.methods lib encode).predictProba = some q ∧
      q (.arr X) = .ok (Q.map fun p => p.map .fin) ∧ q (.arr X') = .ok (Q'.map fun p => p.map .fin) ∧
      EachPair R R' Q Q' fun x x' p p' => p.length = 2 ∧ p'.length = 2 ∧ ∀ c < 2, |p.getD c 0 - p'.getD c 0| ≤
        (scoreMove w W x x' 0 + scoreErr64 w W b x 0 + scoreErr64 w W b x' 0) / 4 + 2 ^ (-49 : ℤ) := by
  obtain ⟨r, hr, e⟩ := C89_converted_behaves trunc lib encode _ _ (.single hv hl)
  obtain ⟨q, hq, he⟩ := ho.proba (lib := lib) (encode := encode)
  obtain ⟨Q, hQ, hN⟩ := C83_lr_binary m w hw W b h c0 c1 hc X R hX hm
  obtain ⟨Q', hQ', hN'⟩ := C83_lr_binary m w hw W b h c0 c1 hc X' R' hX' hm'
  refine ⟨r, q, Q, Q', hr, by rw [e]; exact hq, by rw [he, hQ], by rw [he, hQ'], steady_of hN hN' fun x _ x' _ p p' hp hp' => ⟨hp.1, hp'.1, fun c hc => ?_⟩⟩
  have h1 := between (hp.2 c hc) (hp'.2 c hc) ((logisticPair_lip _ _ c).trans (div_le_div_of_nonneg_right (drift_bound w W b x x' 0) (by norm_num)))
  have h2 : (2 : ℝ) ^ (-49 : ℤ) = 2 ^ (-50 : ℤ) + 2 ^ (-50 : ℤ) := by norm_num
  rw [h2]
  linarith only [h1]

/-- **C120**, two classes in multinomial mode: half the weighted change, as the probabilities are those of twice the score. -/
theorem C120_two_multinomial (hv : ReadableVersion v) (hl : Learned cl a (.linear .logistic m)) (ho : m.isOvr = .ok false)
    (hw : w + 1 ≤ 2 ^ 52) (h : m.IsReal w 1 W b) {c0 c1} (hc : m.classes = [c0, c1])
    (hX : Denotes (.fin 0) X w (R.map fun x => x.map XR.fin)) (hX' : Denotes (.fin 0) X' w (R'.map fun x => x.map XR.fin))
    (hm : Moderate w 1 W b R) (hm' : Moderate w 1 W b R') (hR : ∀ x ∈ R ++ R', |linScore w W b x 0| + scoreErr64 w W b x 0 ≤ 600) :
    ∃ r q, ∃ Q Q' : List (List ℝ), convert (singles trunc initXgb) (.leaf cl v a) = .ok r ∧ (r.methods lib encode).predictProba = some q ∧
      q (.arr X) = .ok (Q.map fun p => p.map .fin) ∧ q (.arr X') = .ok (Q'.map fun p => p.map .fin) ∧
      EachPair R R' Q Q' fun x x' p p' => p.length = 2 ∧ p'.length = 2 ∧ ∀ c < 2, |p.getD c 0 - p'.getD c 0| ≤
        (scoreMove w W x x' 0 + scoreErr64 w W b x 0 + scoreErr64 w W b x' 0) / 2 + 6 * 2 ^ (-51 : ℤ) := by
  obtain ⟨r, hr, e⟩ := C89_converted_behaves trunc lib encode _ _ (.single hv hl)
  obtain ⟨Q, hQ, hN⟩ := C83_multinomial_binary m ho w hw W b h c0 c1 hc X R hX hm fun x hx => hR x (List.mem_append_left _ hx)
  obtain ⟨Q', hQ', hN'⟩ := C83_multinomial_binary m ho w hw W b h c0 c1 hc X' R' hX' hm' fun x hx => hR x (List.mem_append_right _ hx)
  refine ⟨r, Data.onArr m.predictProba, Q, Q', hr, by rw [e]; rfl, hQ, hQ', steady_of hN hN' fun x _ x' _ p p' hp hp' => ⟨hp.1, hp'.1, fun c hc => ?_⟩⟩
  have e3 : |2 * linScore w W b x 0 - 2 * linScore w W b x' 0| / 4 ≤ scoreMove w W x x' 0 / 2 := by
    rw [← mul_sub, abs_mul, abs_of_pos (by norm_num : (0 : ℝ) < 2)]
    linarith [drift_bound w W b x x' 0]
  have h1 := between (hp.2 c hc) (hp'.2 c hc) ((logisticPair_lip _ _ c).trans e3)
  linarith only [h1]

/-- **C120**, one-vs-rest with several classes: where no score can change by more than `D`. -/
theorem C120_several_classes (hv : ReadableVersion v) (hl : Learned cl a (.linear kind m)) (ho : OneVsRest kind m)
    (hw : w + 1 ≤ 2 ^ 52) (h : m.IsReal w k W b) (hk : k ≠ 1) (hk51 : k ≤ 2 ^ 51) (hc : m.classes.length = k)
    (hX : Denotes (.fin 0) X w (R.map fun x => x.map XR.fin)) (hX' : Denotes (.fin 0) X' w (R'.map fun x => x.map XR.fin))
    (hm : Moderate w k W b R) (hm' : Moderate w k W b R') {δ : ℝ} (hδ : δ ≤ 1)
    (hR : ∀ x ∈ R ++ R', (∀ c < k, scoreErr64 w W b x c ≤ δ) ∧ ∃ c < k, -399 ≤ linScore w W b x c) :
    ∃ r q, ∃ Q Q' : List (List ℝ), convert (singles trunc initXgb) (.leaf cl v a) = .ok r ∧ (r.methods lib encode).predictProba = some q ∧
      q (.arr X) = .ok (Q.map fun p => p.map .fin) ∧ q (.arr X') = .ok (Q'.map fun p => p.map .fin) ∧
      EachPair R R' Q Q' fun x x' p p' => p.length = k ∧ p'.length = k ∧ ∀ D : ℝ, (∀ c < k, scoreMove w W x x' c ≤ D) → ∀ c < k, |p.getD c 0 - p'.getD c 0| ≤
        Real.exp (2 * D) - 1 + 2 * (Real.exp (2 * δ) - 1 + (k + 4) * 2 ^ (-51 : ℤ)) := by
  obtain ⟨r, hr, e⟩ := C89_converted_behaves trunc lib encode _ _ (.single hv hl)
  obtain ⟨q, hq, he⟩ := ho.proba (lib := lib) (encode := encode)
  obtain ⟨Q, hQ, hN⟩ := C83_lr_multiclass m w k hw W b h hk hk51 hc X R hX hm δ hδ fun x hx => hR x (List.mem_append_left _ hx)
  obtain ⟨Q', hQ', hN'⟩ := C83_lr_multiclass m w k hw W b h hk hk51 hc X' R' hX' hm' δ hδ fun x hx => hR x (List.mem_append_right _ hx)
  refine ⟨r, q, Q, Q', hr, by rw [e]; exact hq, by rw [he, hQ], by rw [he, hQ'], steady_of hN hN' fun x _ x' _ p p' hp hp' => ⟨hp.1, hp'.1, fun D hD c hc => ?_⟩⟩
  have h1 := between (hp.2 c hc) (hp'.2 c hc) (ovr_lip (fun j hj => (drift_bound w W b x x' j).trans (hD j hj)) hc)
  linarith only [h1]

/-- **C120**, multinomial logistic regression: where no score can change by more than `D`. -/
theorem C120_multinomial (hv : ReadableVersion v) (hl : Learned cl a (.linear .logistic m)) (ho : m.isOvr = .ok false)
    (hw : w + 1 ≤ 2 ^ 52) (h : m.IsReal w k W b) (hk : k ≠ 1) (hk51 : k ≤ 2 ^ 51) (hc : m.classes.length = k)
    (hX : Denotes (.fin 0) X w (R.map fun x => x.map XR.fin)) (hX' : Denotes (.fin 0) X' w (R'.map fun x => x.map XR.fin))
    (hm : Moderate w k W b R) (hm' : Moderate w k W b R') {δ : ℝ} (hδ : δ ≤ 1)
    (hR : ∀ x ∈ R ++ R', (∀ c < k, scoreErr64 w W b x c ≤ δ ∧ linScore w W b x c ≤ 599) ∧ ∃ c < k, -599 ≤ linScore w W b x c) :
    ∃ r q, ∃ Q Q' : List (List ℝ), convert (singles trunc initXgb) (.leaf cl v a) = .ok r ∧ (r.methods lib encode).predictProba = some q ∧
      q (.arr X) = .ok (Q.map fun p => p.map .fin) ∧ q (.arr X') = .ok (Q'.map fun p => p.map .fin) ∧
      EachPair R R' Q Q' fun x x' p p' => p.length = k ∧ p'.length = k ∧ ∀ D : ℝ, (∀ c < k, scoreMove w W x x' c ≤ D) → ∀ c < k, |p.getD c 0 - p'.getD c 0| ≤
        Real.exp (2 * D) - 1 + 2 * (Real.exp (2 * δ) - 1 + (k + 1) * 2 ^ (-51 : ℤ)) := by
  obtain ⟨r, hr, e⟩ := C89_converted_behaves trunc lib encode _ _ (.single hv hl)
  obtain ⟨Q, hQ, hN⟩ := C83_multinomial m ho w k hw W b h hk hk51 hc X R hX hm δ hδ fun x hx => hR x (List.mem_append_left _ hx)
  obtain ⟨Q', hQ', hN'⟩ := C83_multinomial m ho w k hw W b h hk hk51 hc X' R' hX' hm' δ hδ fun x hx => hR x (List.mem_append_right _ hx)
  refine ⟨r, Data.onArr m.predictProba, Q, Q', hr, by rw [e]; rfl, hQ, hQ', steady_of hN hN' fun x _ x' _ p p' hp hp' => ⟨hp.1, hp'.1, fun D hD c hc => ?_⟩⟩
  have h1 := between (hp.2 c hc) (hp'.2 c hc) (softmax_lip (fun j hj => (drift_bound w W b x x' j).trans (hD j hj)) hc)
  linarith only [h1]

/-- **C120**, labels of several classes, any linear classifier: if class `c` leads for the one record by more than the scores can change and the rounding errors, both
records get its label. -/
theorem C120_labels (hv : ReadableVersion v) (hl : Learned cl a (.linear kind m)) (hw : w + 1 ≤ 2 ^ 52) (h : m.IsReal w k W b) (hk : k ≠ 1) (hc : m.classes.length = k)
    (hX : Denotes (.fin 0) X w (R.map fun x => x.map XR.fin)) (hX' : Denotes (.fin 0) X' w (R'.map fun x => x.map XR.fin))
    (hm : Moderate w k W b R) (hm' : Moderate w k W b R') :
    ∃ r q ls ls', convert (singles trunc initXgb) (.leaf cl v a) = .ok r ∧ (r.methods lib encode).predict = some q ∧ q (.arr X) = .ok ls ∧ q (.arr X') = .ok ls' ∧
      EachPair R R' ls ls' fun x x' l l' => ∀ c < k,
        (∀ j < k, j ≠ c → linScore w W b x j + (scoreMove w W x x' j + scoreErr64 w W b x j + scoreErr64 w W b x' j) <
          linScore w W b x c - (scoreMove w W x x' c + scoreErr64 w W b x c + scoreErr64 w W b x' c)) →
        m.classes[c]? = some l ∧ l' = l := by
  obtain ⟨r, hr, e⟩ := C89_converted_behaves trunc lib encode _ _ (.single hv hl)
  obtain ⟨q, hq, he⟩ := linear_says (lib := lib) (encode := encode) (kind := kind) (m := m)
  obtain ⟨-, ls, -, -, hL, hF⟩ := C60_total m w k hw W b h hk hc X R hX hm
  obtain ⟨-, ls', -, -, hL', hF'⟩ := C60_total m w k hw W b h hk hc X' R' hX' hm'
  refine ⟨r, q, ls, ls', hr, by rw [e]; exact hq, by rw [he, hL], by rw [he, hL'], steady_of hF hF' fun x _ x' _ l l' hx hx' c hc hlead => ?_⟩
  have hpos : ∀ y j, 0 ≤ scoreErr64 w W b y j := fun y j => by unfold scoreErr64; positivity
  have hdrift : ∀ j, 0 ≤ scoreMove w W x x' j := fun j => (abs_nonneg _).trans (drift_bound w W b x x' j)
  have h1 := hx c hc fun j hj hne => by linarith only [hlead j hj hne, hpos x' j, hpos x' c, hdrift j, hdrift c]
  have h2 := hx' c hc fun j hj hne => by
    have a1 := abs_le.1 (drift_bound w W b x x' j)
    have a2 := abs_le.1 (drift_bound w W b x x' c)
    linarith only [hlead j hj hne, hpos x j, hpos x c, a1.1, a1.2, a2.1, a2.2]
  exact ⟨h1, Option.some.inj (h2.symm.trans h1)⟩

/-- **C120**, labels of two classes: if the score of the one record is further from 0 than it can change, together with the rounding errors, both records get the same
label, the one of the sign. -/
theorem C120_labels_two (hv : ReadableVersion v) (hl : Learned cl a (.linear kind m)) (hw : w + 1 ≤ 2 ^ 52) (h : m.IsReal w 1 W b) {c0 c1} (hc : m.classes = [c0, c1])
    (hX : Denotes (.fin 0) X w (R.map fun x => x.map XR.fin)) (hX' : Denotes (.fin 0) X' w (R'.map fun x => x.map XR.fin))
    (hm : Moderate w 1 W b R) (hm' : Moderate w 1 W b R') :
    ∃ r q ls ls', convert (singles trunc initXgb) (.leaf cl v a) = .ok r ∧ (r.methods lib encode).predict = some q ∧ q (.arr X) = .ok ls ∧ q (.arr X') = .ok ls' ∧
      EachPair R R' ls ls' fun x x' l l' => scoreMove w W x x' 0 + scoreErr64 w W b x 0 + scoreErr64 w W b x' 0 < |linScore w W b x 0| →
        l = (if 0 < linScore w W b x 0 then c1 else c0) ∧ l' = l := by
  obtain ⟨r, hr, e⟩ := C89_converted_behaves trunc lib encode _ _ (.single hv hl)
  obtain ⟨q, hq, he⟩ := linear_says (lib := lib) (encode := encode) (kind := kind) (m := m)
  obtain ⟨-, ls, -, -, hL, hF⟩ := C60_total_binary m w hw W b h c0 c1 hc X R hX hm
  obtain ⟨-, ls', -, -, hL', hF'⟩ := C60_total_binary m w hw W b h c0 c1 hc X' R' hX' hm'
  refine ⟨r, q, ls, ls', hr, by rw [e]; exact hq, by rw [he, hL], by rw [he, hL'], steady_of hF hF' fun x _ x' _ l l' hx hx' hlead => ?_⟩
  have hpos : ∀ y, 0 ≤ scoreErr64 w W b y 0 := fun y => by unfold scoreErr64; positivity
  have hd := drift_bound w W b x x' 0
  have hdrift := (abs_nonneg _).trans hd
  have hd := abs_le.1 hd
  split
  next hs =>
    rw [abs_of_pos hs] at hlead
    have h1 := hx.1 (by linarith only [hlead, hpos x', hdrift])
    exact ⟨h1, (hx'.1 (by linarith only [hlead, hpos x, hd.1, hd.2])).trans h1.symm⟩
  next hs =>
    rw [abs_of_nonpos (not_lt.1 hs)] at hlead
    have h1 := hx.2 (by linarith only [hlead, hpos x', hdrift])
    exact ⟨h1, (hx'.2 (by linarith only [hlead, hpos x, hd.1, hd.2])).trans h1.symm⟩
end

/-- **C120** fails for a tree, even in exact arithmetic: however small the change of a record, a probability can change from 0 to 1. -/
theorem C120_false_tree (trunc : Ex → Py Int) (ε : ℝ) (hε : 0 < ε) :
    ∃ r q, convert (singles trunc initXgb) (.leaf "DecisionTreeClassifier" (some "0.22".toList)
        (arraysTree [1, -1, -1] [2, -1, -1] [0, -2, -2] [.fin 0, .fin (-2), .fin (-2)] [[.fin 1, .fin 1], [.fin 1, .fin 0], [.fin 0, .fin 1]] [.str "x", .str "y"])) = .ok r ∧
      (r.methods lib encode).predictProba = some q ∧
      q (.arr (.ofMat [[.fin 0]])) = .ok [[.fin 1, .fin 0]] ∧ q (.arr (.ofMat [[.fin ε]])) = .ok [[.fin 0, .fin 1]] := by
  obtain ⟨r, hr, e⟩ := C89_converted_behaves trunc lib encode _ _ (.single version_022 (arraysTree_learned [1, -1, -1] [2, -1, -1] [0, -2, -2] [.fin 0, .fin (-2), .fin (-2)] [[.fin 1, .fin 1], [.fin 1, .fin 0], [.fin 0, .fin 1]] (strings_plain ["x", "y"])))
  have s1 : pySum [(.fin 1 : Ex), .fin 0] = .fin 1 := (XR.pySum_exact [1, 0]).trans (by simp)
  have s2 : pySum [(.fin 0 : Ex), .fin 1] = .fin 1 := (XR.pySum_exact [0, 1]).trans (by simp)
  refine ⟨r, _, hr, by rw [e]; rfl, ?_, ?_⟩
  · simp [Data.onArr, Tree.predictProba, checkArray_ofMat_cons, Tree.getLeafNode, Tree.walk, Tree.step, Tree.featureValue, Tree.probaFromLeaf, pyGet, s1, XR.div_exact]
  · simp [Data.onArr, Tree.predictProba, checkArray_ofMat_cons, Tree.getLeafNode, Tree.walk, Tree.step, Tree.featureValue, Tree.probaFromLeaf, pyGet, s2, XR.div_exact, not_le.2 hε]

/-! ### Cases -/

/-- a logistic regression with one column, with its mode -/
def logisticOf {F : Type} [Arith F] (mode : String) (W b : List F) (l : List (PVal F)) : Attrs F :=
  [("coef_", .ndarray (vmat (W.map fun x => [x]))), ("intercept_", .ndarray (vnums b)), ("classes_", .ndarray (.list l)),
   ("multi_class", .str mode), ("solver", .str "lbfgs")]

theorem logisticOf_learned {F : Type} [Arith F] (mode : String) (W b : List F) {l : List (PVal F)} (hl : ∀ c ∈ l, Plain c) :
    Learned "LogisticRegression" (logisticOf mode W b l) (.linear .logistic (Linear.ofFitted (W.map fun x => [x]) l (some (.vector b)) (some mode) (some "lbfgs") none)) :=
  .linear (by simp [linearClasses]) rfl ⟨rfl, hl⟩ rfl rfl rfl rfl

/-- a dense request with one record -/
theorem oneDense (x : ℝ) : Denotes (.fin 0) (.ofMat [[(.fin x : XR FP.binary64)]]) 1 ([[x]].map fun x => x.map XR.fin) :=
  .dense (by simp) (by simp)

/-- a sparse request with one record -/
theorem oneSparse (x : ℝ) : Denotes (.fin 0) (.sparse [[(0, (.fin x : XR FP.binary64))]] (some 1) .float) 1 ([[x]].map fun x => x.map XR.fin) := by
  have := Denotes.sparse (z := (.fin 0 : XR FP.binary64)) (ds := [[(0, .fin x)]]) (w := 1) (dt := .float) (by simp) (by
    intro d hd
    simp at hd
    subst hd
    exact ⟨by simp, by intro p hp; simp at hp; subst hp; norm_num⟩)
  have e : [[((0 : Int), (.fin x : XR FP.binary64))]].map (Spec.dense (.fin 0) 1) = [[x]].map fun x => x.map XR.fin := by
    simp [Spec.dense, Spec.entry, List.range_succ]
  rwa [e] at this

theorem oneModerate {x : ℝ} (hx : |x| ≤ 4) : Moderate 1 1 [[2]] [0] [[x]] := by
  intro y hy c hc
  simp only [List.mem_cons, List.not_mem_nil, or_false] at hy
  subst hy
  obtain rfl : c = 0 := by omega
  have := eight_le
  generalize (2 : ℝ) ^ (1000 : ℤ) = p at *
  simp [abs_mul]
  linarith

theorem oneReal : (Linear.ofFitted (([.fin 2] : List (XR FP.binary64)).map fun x => [x]) (["a", "b"].map (PVal.str (F := XR FP.binary64))) (some (.vector [.fin 0])) (some "ovr") (some "lbfgs") none).IsReal 1 1 [[2]] [0] :=
  ⟨rfl, by intro r hr; simp at hr; subst hr; rfl, rfl, rfl, rfl, by norm_num, by intro y hy; simp at hy; subst hy; exact FP.binary64_sound.zero⟩

theorem oneErr {x : ℝ} (hx : |x| ≤ 4) : scoreErr64 1 [[2]] [0] [x] 0 ≤ 2 ^ (-40 : ℤ) := by
  have e : (2 : ℝ) ^ (-1074 : ℤ) ≤ 2 ^ (-53 : ℤ) := B64.pow_mono (by norm_num)
  simp only [scoreErr64, Finset.sum_range_succ, Finset.sum_range_zero]
  generalize (2 : ℝ) ^ (-1074 : ℤ) = p at *
  simp [abs_mul]
  norm_num at e ⊢
  linarith

/-- The score 2x: 3 in a dense request and 3.001 in a sparse one are both "b" for certain, and their probabilities differ by less than a thousandth. -/
example (trunc : XR FP.binary64 → Py Int) : ∃ r q p, ∃ u u' : List ℝ, convert (singles trunc initXgb) (.leaf "LogisticRegression" (some "0.22".toList) (logisticOf "ovr" [.fin 2] [.fin 0] (["a", "b"].map .str))) = .ok r ∧
    (r.methods lib encode).predictProba = some q ∧ (r.methods lib encode).predict = some p ∧
    q (.arr (.ofMat [[.fin 3]])) = .ok [u.map .fin] ∧ q (.arr (.sparse [[(0, .fin 3.001)]] (some 1) .float)) = .ok [u'.map .fin] ∧ (∀ c < 2, |u.getD c 0 - u'.getD c 0| ≤ 1 / 1000) ∧
    p (.arr (.ofMat [[.fin 3]])) = .ok [.str "b"] ∧ p (.arr (.sparse [[(0, .fin 3.001)]] (some 1) .float)) = .ok [.str "b"] := by
  have hl := logisticOf_learned "ovr" [(.fin 2 : XR FP.binary64)] [.fin 0] (strings_plain ["a", "b"])
  have h3 : |(3 : ℝ)| ≤ 4 := by norm_num
  have h3' : |(3.001 : ℝ)| ≤ 4 := by norm_num
  have e3 := oneErr h3
  have e3' := oneErr h3'
  have hmove : scoreMove 1 [[2]] [3] [3.001] 0 = 0.002 := by
    simp [scoreMove]
    norm_num [abs_of_neg]
  obtain ⟨r, q, Q, Q', hr, hq, hQ, hQ', n1, n2, hS⟩ := C120_two_classes (lib := lib) (encode := encode) trunc version_022 hl (.inl ⟨rfl, rfl⟩) (by norm_num) oneReal rfl
    (oneDense 3) (oneSparse 3.001) (oneModerate h3) (oneModerate h3')
  obtain ⟨r', p, ls, ls', hr', hp, hL, hL', m1, m2, hT⟩ := C120_labels_two (lib := lib) (encode := encode) trunc version_022 hl (by norm_num) oneReal rfl
    (oneDense 3) (oneSparse 3.001) (oneModerate h3) (oneModerate h3')
  cases hr.symm.trans hr'
  obtain ⟨u, rfl⟩ := List.length_eq_one_iff.1 n1
  obtain ⟨u', rfl⟩ := List.length_eq_one_iff.1 n2
  obtain ⟨l, rfl⟩ := List.length_eq_one_iff.1 m1
  obtain ⟨l', rfl⟩ := List.length_eq_one_iff.1 m2
  have hs := hS 0 0 _ _ _ _ rfl rfl rfl rfl
  have ht := hT 0 0 _ _ _ _ rfl rfl rfl rfl
  have hscore : linScore 1 [[2]] [0] [3] 0 = 6 := by norm_num [linScore]
  simp only [hmove, hscore] at ht
  simp only [hmove] at hs
  have e40 : (2 : ℝ) ^ (-40 : ℤ) ≤ 0.0001 := by norm_num
  have e49 : (2 : ℝ) ^ (-49 : ℤ) ≤ 0.0001 := by norm_num
  have ht := ht (by norm_num at e3 e3' e40 ⊢; linarith)
  rw [if_pos (by norm_num)] at ht
  obtain ⟨rfl, rfl⟩ := ht
  exact ⟨r, q, p, u, u', hr, hq, hp, hQ, hQ', fun c hc => (hs.2.2 c hc).trans (by norm_num at e3 e3' e40 e49 ⊢; linarith), hL, hL'⟩

/-- The same in multinomial mode, for any records from -4 to 4. -/
example (trunc : XR FP.binary64 → Py Int) {x y : ℝ} (hx : |x| ≤ 4) (hy : |y| ≤ 4) :=
  C120_two_multinomial (lib := lib) (encode := encode) trunc version_022 (logisticOf_learned "multinomial" [(.fin 2 : XR FP.binary64)] [.fin 0] (strings_plain ["a", "b"])) rfl (by norm_num)
    ⟨rfl, oneReal.rect, rfl, rfl, rfl, by norm_num, oneReal.rep⟩ rfl (oneDense x) (oneSparse y) (oneModerate hx) (oneModerate hy) (by
      have e40 : (2 : ℝ) ^ (-40 : ℤ) ≤ 1 := by norm_num
      intro z hz
      simp only [List.cons_append, List.nil_append, List.mem_cons, List.not_mem_nil, or_false] at hz
      rcases hz with rfl | rfl
      · have := oneErr hx
        have e : linScore 1 [[2]] [0] [x] 0 = x * 2 := by simp [linScore]
        rw [e, abs_mul, abs_of_pos (by norm_num : (0 : ℝ) < 2)]
        linarith only [this, hx, e40]
      · have := oneErr hy
        have e : linScore 1 [[2]] [0] [y] 0 = y * 2 := by simp [linScore]
        rw [e, abs_mul, abs_of_pos (by norm_num : (0 : ℝ) < 2)]
        linarith only [this, hy, e40])

theorem threeReal (mode : String) : (Linear.ofFitted (([.fin 1, .fin 2, .fin 4] : List (XR FP.binary64)).map fun x => [x]) (["a", "b", "c"].map (PVal.str (F := XR FP.binary64))) (some (.vector [.fin 0, .fin 0, .fin 0])) (some mode) (some "lbfgs") none).IsReal 1 3 [[1], [2], [4]] [0, 0, 0] :=
  ⟨rfl, by intro r hr; simp at hr; rcases hr with rfl | rfl | rfl <;> rfl, rfl, rfl, rfl, by norm_num, by intro y hy; simp at hy; subst hy; exact FP.binary64_sound.zero⟩

theorem threeModerate {x : ℝ} (hx : |x| ≤ 2) : Moderate 1 3 [[1], [2], [4]] [0, 0, 0] [[x]] := by
  intro y hy c hc
  simp only [List.mem_cons, List.not_mem_nil, or_false] at hy
  subst hy
  have := eight_le
  generalize (2 : ℝ) ^ (1000 : ℤ) = p at *
  have := abs_nonneg x
  rcases (show c = 0 ∨ c = 1 ∨ c = 2 by omega) with rfl | rfl | rfl <;> simp [abs_mul] <;> linarith

theorem threeErr {x : ℝ} (hx : |x| ≤ 2) : ∀ c < 3, scoreErr64 1 [[1], [2], [4]] [0, 0, 0] [x] c ≤ 2 ^ (-40 : ℤ) := by
  intro c hc
  have e : (2 : ℝ) ^ (-1074 : ℤ) ≤ 2 ^ (-53 : ℤ) := B64.pow_mono (by norm_num)
  simp only [scoreErr64, Finset.sum_range_succ, Finset.sum_range_zero]
  generalize (2 : ℝ) ^ (-1074 : ℤ) = p at *
  have := abs_nonneg x
  rcases (show c = 0 ∨ c = 1 ∨ c = 2 by omega) with rfl | rfl | rfl <;> simp [abs_mul] <;> norm_num at e ⊢ <;> linarith

theorem threeScores {x : ℝ} (hx : 0 ≤ x) (hx' : x ≤ 2) : (∀ c < 3, linScore 1 [[1], [2], [4]] [0, 0, 0] [x] c ≤ 8) ∧ ∃ c < 3, 0 ≤ linScore 1 [[1], [2], [4]] [0, 0, 0] [x] c := by
  constructor
  · intro c hc
    rcases (show c = 0 ∨ c = 1 ∨ c = 2 by omega) with rfl | rfl | rfl <;> simp [linScore] <;> linarith
  · exact ⟨0, by norm_num, by simpa [linScore] using hx⟩

/-- Three classes with the scores x, 2x and 4x, multinomial and one-vs-rest: any records from 0 to 2, the one dense and the other sparse. -/
example (trunc : XR FP.binary64 → Py Int) {x y : ℝ} (hx : 0 ≤ x) (hx' : x ≤ 2) (hy : 0 ≤ y) (hy' : y ≤ 2) :=
  C120_multinomial (lib := lib) (encode := encode) trunc version_022 (logisticOf_learned "multinomial" [(.fin 1 : XR FP.binary64), .fin 2, .fin 4] [.fin 0, .fin 0, .fin 0] (strings_plain ["a", "b", "c"])) rfl
    (by norm_num) (threeReal _) (by norm_num) (by norm_num) rfl (oneDense x) (oneSparse y) (threeModerate (by rwa [abs_of_nonneg hx])) (threeModerate (by rwa [abs_of_nonneg hy]))
    (δ := 2 ^ (-40 : ℤ)) (by norm_num) (by
      intro z hz
      simp only [List.cons_append, List.nil_append, List.mem_cons, List.not_mem_nil, or_false] at hz
      rcases hz with rfl | rfl
      · obtain ⟨h1, c, hc, h2⟩ := threeScores hx hx'
        exact ⟨fun c hc => ⟨threeErr (by rwa [abs_of_nonneg hx]) c hc, (h1 c hc).trans (by norm_num)⟩, c, hc, le_trans (by norm_num) h2⟩
      · obtain ⟨h1, c, hc, h2⟩ := threeScores hy hy'
        exact ⟨fun c hc => ⟨threeErr (by rwa [abs_of_nonneg hy]) c hc, (h1 c hc).trans (by norm_num)⟩, c, hc, le_trans (by norm_num) h2⟩)

example (trunc : XR FP.binary64 → Py Int) {x y : ℝ} (hx : 0 ≤ x) (hx' : x ≤ 2) (hy : 0 ≤ y) (hy' : y ≤ 2) :=
  C120_several_classes (lib := lib) (encode := encode) trunc version_022 (logisticOf_learned "ovr" [(.fin 1 : XR FP.binary64), .fin 2, .fin 4] [.fin 0, .fin 0, .fin 0] (strings_plain ["a", "b", "c"])) (.inl ⟨rfl, rfl⟩)
    (by norm_num) (threeReal _) (by norm_num) (by norm_num) rfl (oneDense x) (oneSparse y) (threeModerate (by rwa [abs_of_nonneg hx])) (threeModerate (by rwa [abs_of_nonneg hy]))
    (δ := 2 ^ (-40 : ℤ)) (by norm_num) (by
      intro z hz
      simp only [List.cons_append, List.nil_append, List.mem_cons, List.not_mem_nil, or_false] at hz
      rcases hz with rfl | rfl
      · obtain ⟨h1, c, hc, h2⟩ := threeScores hx hx'
        exact ⟨threeErr (by rwa [abs_of_nonneg hx]), c, hc, le_trans (by norm_num) h2⟩
      · obtain ⟨h1, c, hc, h2⟩ := threeScores hy hy'
        exact ⟨threeErr (by rwa [abs_of_nonneg hy]), c, hc, le_trans (by norm_num) h2⟩)

/-- Class "c" leads at 2 by 4, and at 1.9 no score is further than 0.4 from there. -/
example : ∀ j < 3, j ≠ 2 → linScore 1 [[1], [2], [4]] [0, 0, 0] [2] j + (scoreMove 1 [[1], [2], [4]] [2] [1.9] j + scoreErr64 1 [[1], [2], [4]] [0, 0, 0] [2] j + scoreErr64 1 [[1], [2], [4]] [0, 0, 0] [1.9] j) <
    linScore 1 [[1], [2], [4]] [0, 0, 0] [2] 2 - (scoreMove 1 [[1], [2], [4]] [2] [1.9] 2 + scoreErr64 1 [[1], [2], [4]] [0, 0, 0] [2] 2 + scoreErr64 1 [[1], [2], [4]] [0, 0, 0] [1.9] 2) := by
  intro j hj hne
  have h2 : |(2 : ℝ)| ≤ 2 := by norm_num
  have h1 : |(1.9 : ℝ)| ≤ 2 := by norm_num
  have a := threeErr h2 j hj
  have b := threeErr h1 j hj
  have c := threeErr h2 2 (by norm_num)
  have d := threeErr h1 2 (by norm_num)
  have e40 : (2 : ℝ) ^ (-40 : ℤ) ≤ 0.0001 := by norm_num
  generalize scoreErr64 1 [[1], [2], [4]] [0, 0, 0] [2] j = t1 at *
  generalize scoreErr64 1 [[1], [2], [4]] [0, 0, 0] [1.9] j = t2 at *
  generalize scoreErr64 1 [[1], [2], [4]] [0, 0, 0] [2] 2 = t3 at *
  generalize scoreErr64 1 [[1], [2], [4]] [0, 0, 0] [1.9] 2 = t4 at *
  generalize (2 : ℝ) ^ (-40 : ℤ) = p at *
  rcases (show j = 0 ∨ j = 1 by omega) with rfl | rfl <;> simp [linScore, scoreMove] <;> norm_num [abs_of_pos] at * <;> linarith

end PurePredict
