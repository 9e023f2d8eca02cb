import Verif.Props.C02
import Verif.Props.C05
/-
C75: converting a linear classifier whose fitted intercept is one number.
-/
namespace PurePredict
open Spec
variable {F C : Type} [Arith F]

/-- Every output of the two linear classifiers is the same on the request `X`. -/
def Linear.SameAs (m m' : Linear F C) (X : Arr F) : Prop :=
  m.decisionFunction X = m'.decisionFunction X ∧ m.predict X = m'.predict X ∧
  m.predictProbaLr X = m'.predictProbaLr X ∧
  m.predictProba X = m'.predictProba X ∧ m.predictLogProba X = m'.predictLogProba X ∧
  m.sgdPredictProba X = m'.sgdPredictProba X ∧ m.sgdPredictLogProba X = m'.sgdPredictLogProba X

theorem zipWith_replicate_of_le {α β γ : Type} (f : α → β → γ) (b : β) :
    ∀ {l : List α} {n : Nat}, l.length ≤ n → List.zipWith f l (List.replicate n b) =
      l.map fun x => f x b
  | [], _, _ => by simp
  | x :: l, 0, h => by simp at h
  | x :: l, n + 1, h => by
    simp [List.replicate_succ, zipWith_replicate_of_le f b (l := l) (n := n) (by simpa using h)]

/-- **C75**, the score vector: with a scalar intercept `b`, and at least as many classes as rows
of coefficients, the score of every row of coefficients is its inner product with the record plus
`b`; no score is dropped. -/
theorem C75_row_scores (coef : List (List F)) (classes : List C) (b : F)
    (mc sol loss : Option String) (hk : coef.length ≤ classes.length) (x : Row F) (s : List F)
    (hx : dot x coef = .ok s) :
    (Linear.ofFitted coef classes (some (.scalar b)) mc sol loss).rowScores x =
      .ok (s.map fun v => v +ₚ b) := by
  have hl : s.length ≤ classes.length := (dot_length hx).trans_le hk
  simp only [Linear.rowScores, Linear.ofFitted, hx, py_ok_bind, Option.map_some, attr, py_pure,
    zipWith_replicate_of_le Arith.add b hl]

/-- **C75**, all outputs: a scalar intercept gives, on every request whatever its form, exactly the
outputs (or the exception) of the same classifier fitted with that intercept once per row of
coefficients. -/
theorem C75_scalar_intercept (coef : List (List F)) (classes : List C) (b : F)
    (mc sol loss : Option String) (hk : coef.length ≤ classes.length) (X : Arr F) :
    (Linear.ofFitted coef classes (some (.scalar b)) mc sol loss).SameAs
      (Linear.ofFitted coef classes (some (.vector (List.replicate coef.length b))) mc sol loss)
      X := by
  have hrow : (Linear.ofFitted coef classes (some (.scalar b)) mc sol loss).rowScores =
      (Linear.ofFitted coef classes (some (.vector (List.replicate coef.length b))) mc sol
        loss).rowScores := by
    funext x
    cases hx : dot x coef with
    | error e => simp only [Linear.rowScores, Linear.ofFitted, hx, py_error_bind]
    | ok s =>
      rw [C75_row_scores coef classes b mc sol loss hk x s hx]
      simp only [Linear.rowScores, Linear.ofFitted, hx, py_ok_bind, Option.map_some, attr, py_pure,
        zipWith_replicate_of_le Arith.add b (dot_length hx).le]
  have hw : (Linear.ofFitted coef classes (some (.scalar b)) mc sol loss).checkWidth X =
      (Linear.ofFitted coef classes (some (.vector (List.replicate coef.length b))) mc sol
        loss).checkWidth X := rfl
  have hd : (Linear.ofFitted coef classes (some (.scalar b)) mc sol loss).decisionFunction X =
      (Linear.ofFitted coef classes (some (.vector (List.replicate coef.length b))) mc sol
        loss).decisionFunction X := by
    simp only [Linear.decisionFunction, hrow]
    rfl
  refine ⟨hd, ?_, ?_, ?_, ?_, ?_, ?_⟩ <;>
  simp only [Linear.predict, Linear.predictProba, Linear.predictProbaLr, Linear.predictLogProba,
    Linear.sgdPredictProba, Linear.sgdPredictProba_, Linear.sgdPredictLogProba, hd] <;> rfl

/-- The converted vector-intercept classifier in exact arithmetic. -/
theorem isExact_replicate {w k : Nat} {W : List (List ℝ)} (hW : W.length = k) (hk : 0 < k)
    (hr : Rect w W) (classes : List C) (b : ℝ) (mc sol loss : Option String) :
    (Linear.ofFitted (W.map fins) classes (some (.vector (List.replicate k (.fin b : Ex)))) mc sol
      loss).IsExact w k W (List.replicate k b) where
  coef := rfl
  rect := hr
  rows := hW
  intercept := by simp [Linear.ofFitted, fins]
  len := by simp
  pos := hk

/-- **C75**, values: on every non-empty batch of records, `decision_function` of a multiclass
classifier with a scalar intercept `b` returns for class `c` the inner product with row `c` of the
coefficients plus `b`. -/
theorem C75_decision_many (w k : Nat) (W : List (List ℝ)) (hW : W.length = k) (hk : 2 ≤ k)
    (hr : Rect w W) (classes : List C) (hc : k ≤ classes.length) (b : ℝ)
    (mc sol loss : Option String) (R : List (List ℝ)) (hR : R ≠ []) (hRw : Rect w R) :
    (Linear.ofFitted (W.map fins) classes (some (.scalar (.fin b : Ex))) mc sol
      loss).decisionFunction (.ofMat (R.map fins)) =
    .ok (.mat (R.map fun x => fins ((List.range k).map fun c =>
      ∑ i ∈ Finset.range w, x.getD i 0 * (W.getD c []).getD i 0 + b))) := by
  rw [(C75_scalar_intercept (W.map fins) classes _ mc sol loss (by simpa [hW] using hc) _).1,
    List.length_map, hW,
    (isExact_replicate hW (by omega) hr classes b mc sol loss).decision_many (by omega) hR hRw]
  congr 3
  funext x
  congr 1
  apply List.map_congr_left
  intro c hc
  have := List.mem_range.1 hc
  simp [linScore, List.getD_eq_getElem?_getD, this]

/-- **C75**, values, one row of coefficients (two classes). -/
theorem C75_decision_one (w : Nat) (r : List ℝ) (hr : r.length = w) (classes : List C)
    (hc : 1 ≤ classes.length) (b : ℝ) (mc sol loss : Option String) (R : List (List ℝ))
    (hR : R ≠ []) (hRw : Rect w R) :
    (Linear.ofFitted [fins r] classes (some (.scalar (.fin b : Ex))) mc sol
      loss).decisionFunction (.ofMat (R.map fins)) =
    .ok (.flat (fins (R.map fun x =>
      ∑ i ∈ Finset.range w, x.getD i 0 * r.getD i 0 + b))) := by
  have h := (isExact_replicate (W := [r]) (k := 1) rfl one_pos (by intro y hy; simp_all) classes b mc sol
    loss : Linear.IsExact _ w 1 _ _)
  have e := (C75_scalar_intercept [fins r] classes (.fin b : Ex) mc sol loss (by simpa using hc)
    (.ofMat (R.map fins))).1
  rw [e]
  have := h.decision_one hR hRw
  simp only [List.map_cons, List.map_nil] at this
  rw [List.length_singleton, this]
  simp [linScore]

/-- **C75**, no intercept attribute: once a record's inner products are computed, the missing
attribute is reported as AttributeError; no scores are returned without an intercept. -/
theorem C75_no_intercept (coef : List (List F)) (classes : List C) (mc sol loss : Option String)
    (X : Arr F) (s : Scores F) :
    (Linear.ofFitted coef classes none mc sol loss).decisionFunction X ≠ .ok s := by
  intro h
  have hrow : ∀ x t, (Linear.ofFitted coef classes none mc sol loss).rowScores x ≠ .ok t := by
    intro x t ht
    simp only [Linear.rowScores, Linear.ofFitted, Option.map_none, attr] at ht
    obtain ⟨d, _, hd⟩ := bind_ok_iff.1 ht
    cases hd
  simp only [Linear.decisionFunction] at h
  obtain ⟨X', _, h⟩ := bind_ok_iff.1 h
  obtain ⟨_, _, h⟩ := bind_ok_iff.1 h
  obtain ⟨rs, _, h⟩ := bind_ok_iff.1 h
  obtain ⟨ss, hss, h⟩ := bind_ok_iff.1 h
  cases rs with
  | cons x rs =>
    rw [mapM_cons'] at hss
    obtain ⟨y, hy, _⟩ := bind_ok_iff.1 hss
    exact hrow _ _ hy
  | nil =>
    rw [mapM_nil'] at hss
    cases hss
    obtain ⟨w, hw, _⟩ := bind_ok_iff.1 h
    cases hw

/-- **C75**, no intercept attribute, dense requests of the right width: the exception is an
AttributeError. -/
theorem C75_no_intercept_error (d : Nat) (coef : List (List F)) (hc : coef ≠ []) (hcd : Rect d coef)
    (classes : List C) (mc sol loss : Option String) (M : List (List F)) (hM : M ≠ []) (hMd : Rect d M) :
    (Linear.ofFitted coef classes none mc sol loss).decisionFunction (.ofMat M) =
      .error .attributeError := by
  have hacc := Linear.accepts_dense (m := Linear.ofFitted coef classes none mc sol loss) hc hcd hM hMd
  simp only [Linear.decisionFunction, hacc.array, py_ok_bind, hacc.width, hacc.rows]
  obtain ⟨x, M', rfl⟩ := List.exists_cons_of_ne_nil hM
  rw [List.map_cons, mapM_cons']
  have : (Linear.ofFitted coef classes none mc sol loss).rowScores (.list x) = .error .attributeError := by
    simp only [Linear.rowScores, dot_list, Linear.ofFitted, Option.map_none, attr]
    rfl
  rw [this]
  rfl

example : (Linear.ofFitted [fins [2, -1]] ["a", "b"] none none none none).decisionFunction
    (.ofMat ([[3, 4]].map fins)) = (.error .attributeError : Py (Scores Ex)) :=
  C75_no_intercept_error 2 _ (by simp) (by intro r hr; simp_all) _ _ _ _ _ (by simp)
    (by intro r hr; simp at hr; subst hr; rfl)

/-- Non-vacuity: two classes, coefficients (2, -1), intercept 1/2, record (3, 4). -/
example : (Linear.ofFitted [fins [2, -1]] ["a", "b"] (some (.scalar (.fin (1 / 2) : Ex))) none none
      none).decisionFunction (.ofMat ([[3, 4]].map fins)) = .ok (.flat (fins [5 / 2])) := by
  rw [C75_decision_one 2 [2, -1] rfl ["a", "b"] (by simp) (1 / 2) none none none [[3, 4]] (by simp)
    (by intro r hr; simp_all)]
  norm_num [Finset.sum_range_succ]

end PurePredict
