import Verif.Model.Linear
import Verif.Lemmas.RowWise
import Verif.Lemmas.Argmax
import Verif.Lemmas.Sparse
/-
Helper lemmas about linear models.
-/
namespace PurePredict
variable {F C : Type} [Arith F]

/-- `X` passes the guards of `decision_function` and its rows are `rs`. -/
structure Linear.Accepts (m : Linear F C) (X : Arr F) (rs : List (Row F)) : Prop where
  array : checkArray X .allow = .ok X
  width : m.checkWidth X = .ok ()
  rows : X.rows = .ok rs
  nonempty : rs ≠ []

theorem dot_length {x : Row F} {B : List (List F)} {d : List F} (h : dot x B = .ok d) :
    d.length = B.length := mapM_length h

theorem dot_list (x : List F) (B : List (List F)) :
    dot (.list x) B = .ok (B.map fun b => dotList x b) := by
  simp [dot]

namespace Linear

theorem rowScores_length {m : Linear F C} {x : Row F} {s : List F} {b : List F}
    (hb : m.intercept = some b) (h : m.rowScores x = .ok s) :
    s.length = min m.coef.length b.length := by
  simp only [rowScores, hb, attr] at h
  obtain ⟨d, hd, h⟩ := bind_ok_iff.1 h
  simp only [py_ok_bind, py_pure, Except.ok.injEq] at h
  rw [← h, List.length_zipWith, dot_length hd]

theorem ravel_ofMat_one {M : List (List F)} (hM : M ≠ []) (hw : Rect 1 M) :
    ravel (.ofMat M) = .ok (M.filterMap fun r => r[0]?) := by
  have h1 : (M.map Row.list).mapM Row.iter = .ok M := by
    rw [mapM_map']
    exact (mapM_ok_map (g := id) fun _ _ => rfl).trans (by simp)
  have h2 : zipStar M = [M.filterMap fun r => r[0]?] := by
    simp [zipStar, minLen_rect hM hw, List.range_succ]
  simp [ravel, transpose, h1, h2]

/-- `decision_function` on accepted input. -/
theorem decision_eq {m : Linear F C} {X : Arr F} {rs : List (Row F)} (h : m.Accepts X rs)
    {b : List F} (hb : m.intercept = some b) :
    m.decisionFunction X = (do
      let scores ← rs.mapM m.rowScores
      if min m.coef.length b.length = 1 then .ok (.flat (scores.filterMap fun r => r[0]?))
      else .ok (.mat scores)) := by
  simp only [decisionFunction, h.array, py_ok_bind, h.width, h.rows]
  cases hs : rs.mapM m.rowScores with
  | error e => rfl
  | ok scores =>
    simp only [py_ok_bind]
    have hne : scores ≠ [] := by
      intro hn
      have := mapM_length hs
      rw [hn] at this
      exact h.nonempty (List.length_eq_zero_iff.1 this.symm)
    have hrect : Rect (min m.coef.length b.length) scores := by
      intro s hs'
      obtain ⟨x, _, hx⟩ := mapM_mem hs hs'
      exact rowScores_length hb hx
    rw [width_ofMat hne hrect]
    simp only [py_ok_bind]
    by_cases h1 : min m.coef.length b.length = 1
    · rw [if_pos h1, h1]
      simp only
      rw [ravel_ofMat_one hne (h1 ▸ hrect)]
      rfl
    · rw [if_neg h1]
      split
      · rename_i heq
        simp only [Option.some.injEq] at heq
        exact absurd heq h1
      · rfl

/-- Without an intercept attribute nothing can be predicted. -/
theorem decision_no_intercept {m : Linear F C} {X : Arr F} {rs : List (Row F)}
    (h : m.Accepts X rs) (hb : m.intercept = none) :
    ∃ e, m.decisionFunction X = .error e := by
  simp only [decisionFunction, h.array, py_ok_bind, h.width, h.rows]
  obtain ⟨r, hr⟩ : ∃ r, r ∈ rs := by
    cases hrs : rs with
    | nil => exact absurd hrs h.nonempty
    | cons a l => exact ⟨a, by simp⟩
  have : ∃ e, m.rowScores r = .error e := by
    simp only [rowScores, hb, attr]
    cases dot r m.coef with
    | error e => exact ⟨e, rfl⟩
    | ok d => exact ⟨.attributeError, rfl⟩
  obtain ⟨e, he⟩ := this
  obtain ⟨e', he'⟩ := mapM_error hr he
  exact ⟨e', by rw [he']; rfl⟩

/-- The label predicted for one record from its row of scores. -/
def rowLabel (m : Linear F C) (s : List F) : Py C :=
  match s with
  | [x] => pyGet m.classes (if ofInt 0 <ₚ x then 1 else 0)
  | s => do pyGet m.classes (← argmax s)

/-- The one-vs-rest probabilities of one record from its row of scores. -/
def rowProbaLr (s : List F) : Py (List F) :=
  match s with
  | [x] => do let a ← expit x; return [ofInt 1 -ₚ a, a]
  | s => do normRow (← s.mapM expit)

/-- The softmax probabilities of one record from its row of scores. -/
def rowSoftmax (s : List F) : Py (List F) :=
  match s with
  | [x] => sfmax [Arith.neg x, x]
  | s => sfmax s

theorem flat_of_one {scores : List (List F)} (h : Rect 1 scores) :
    scores = (scores.filterMap fun r => r[0]?).map fun x => [x] := by
  induction scores with
  | nil => rfl
  | cons r rs ih =>
    have hr := h r (by simp)
    obtain ⟨x, rfl⟩ : ∃ x, r = [x] := List.length_eq_one_iff.1 hr
    simp only [List.filterMap_cons, List.getElem?_cons_zero, List.map_cons]
    rw [← ih fun x hx => h x (by simp [hx])]

/-- A function of the scores that maps each row on its own. -/
theorem decision_bind {β : Type} {m : Linear F C} {X : Arr F} {rs : List (Row F)}
    (h : m.Accepts X rs) {b : List F} (hb : m.intercept = some b) {k : Scores F → Py (List β)}
    {g : List F → Py β}
    (hflat : ∀ s : List F, OkEq (k (.flat s)) ((s.map fun x => [x]).mapM g))
    (hmat : ∀ s : List (List F), (∀ r ∈ s, r.length ≠ 1) → OkEq (k (.mat s)) (s.mapM g)) :
    OkEq (m.decisionFunction X >>= k) (rs.mapM fun x => m.rowScores x >>= g) := by
  rw [decision_eq h hb]
  refine OkEq.trans ?_ (OkEq.mapM_comp m.rowScores g rs)
  cases hs : rs.mapM m.rowScores with
  | error e => exact OkEq.refl _
  | ok scores =>
    simp only [py_ok_bind]
    have hrect : Rect (min m.coef.length b.length) scores := by
      intro s hs'
      obtain ⟨x, _, hx⟩ := mapM_mem hs hs'
      exact rowScores_length hb hx
    by_cases h1 : min m.coef.length b.length = 1
    · rw [if_pos h1]
      simp only [py_ok_bind]
      have := hflat (scores.filterMap fun r => r[0]?)
      rwa [← flat_of_one (h1 ▸ hrect)] at this
    · rw [if_neg h1]
      simp only [py_ok_bind]
      exact hmat scores fun r hr => by rw [hrect r hr]; exact h1

theorem predict_rowwise {m : Linear F C} {X : Arr F} {rs : List (Row F)}
    (h : m.Accepts X rs) {b : List F} (hb : m.intercept = some b) :
    OkEq (m.predict X) (rs.mapM fun x => m.rowScores x >>= m.rowLabel) := by
  refine decision_bind h hb (g := m.rowLabel) ?_ ?_
  · intro s
    rw [mapM_map']
    exact OkEq.refl _
  · intro s hs
    apply OkEq.mapM
    intro r hr
    have := hs r hr
    unfold rowLabel
    split
    · simp at this
    · exact OkEq.refl _

theorem predictProbaLr_rowwise {m : Linear F C} {X : Arr F} {rs : List (Row F)}
    (h : m.Accepts X rs) {b : List F} (hb : m.intercept = some b) :
    OkEq (m.predictProbaLr X) (rs.mapM fun x => m.rowScores x >>= rowProbaLr) := by
  refine decision_bind h hb (g := rowProbaLr) ?_ ?_
  · intro s
    rw [mapM_map']
    exact OkEq.refl _
  · intro s hs
    refine OkEq.trans (OkEq.mapM_comp _ _ s) ?_
    apply OkEq.mapM
    intro r hr
    have := hs r hr
    unfold rowProbaLr
    split
    · simp at this
    · exact OkEq.refl _

/-- The probabilities of one record from its row of scores (`LogisticRegressionPure`). -/
def rowProba (m : Linear F C) (s : List F) : Py (List F) := do
  if ← m.isOvr then rowProbaLr s else rowSoftmax s

theorem predictProba_rowwise {m : Linear F C} {X : Arr F} {rs : List (Row F)}
    (h : m.Accepts X rs) {b : List F} (hb : m.intercept = some b) :
    OkEq (m.predictProba X) (rs.mapM fun x => m.rowScores x >>= m.rowProba) := by
  unfold predictProba rowProba
  cases ho : m.isOvr with
  | error e =>
    intro c
    simp only [py_error_bind]
    constructor
    · intro hc; cases hc
    · intro hc
      obtain ⟨r, hr⟩ : ∃ r, r ∈ rs := List.exists_mem_of_ne_nil rs h.nonempty
      have : ∃ e', (m.rowScores r >>= fun _ => (Except.error e : Py (List F))) = .error e' := by
        cases m.rowScores r <;> exact ⟨_, rfl⟩
      obtain ⟨e', he'⟩ := this
      obtain ⟨e'', h''⟩ := mapM_error (f := fun x => m.rowScores x >>= fun _ => (Except.error e : Py (List F)))
        hr he'
      rw [h''] at hc; cases hc
  | ok ovr =>
    simp only [py_ok_bind]
    cases ovr with
    | true =>
      simp only [if_true]
      exact predictProbaLr_rowwise h hb
    | false =>
      simp only [Bool.false_eq_true, if_false]
      refine decision_bind h hb (g := rowSoftmax) ?_ ?_
      · intro s
        rw [mapM_map']
        exact OkEq.refl _
      · intro s hs
        apply OkEq.mapM
        intro r hr
        have := hs r hr
        unfold rowSoftmax
        split
        · simp at this
        · exact OkEq.refl _

theorem predictLogProba_rowwise {m : Linear F C} {X : Arr F} {rs : List (Row F)}
    (h : m.Accepts X rs) {b : List F} (hb : m.intercept = some b) :
    OkEq (m.predictLogProba X)
      (rs.mapM fun x => (m.rowScores x >>= m.rowProba) >>= fun a => a.mapM safeLog) := by
  unfold predictLogProba
  exact OkEq.trans (OkEq.bind (predictProba_rowwise h hb) fun _ _ => OkEq.refl _)
    (OkEq.mapM_comp _ _ _)

/-- A non-empty dense matrix of the fitted width is accepted. -/
theorem accepts_dense {m : Linear F C} {d : Nat} (hc : m.coef ≠ []) (hcd : Rect d m.coef)
    {M : List (List F)} (hM : M ≠ []) (hMd : Rect d M) :
    m.Accepts (.ofMat M) (M.map Row.list) where
  array := checkArray_ofMat hM _
  width := by simp [checkWidth, width_ofMat hc hcd, width_ofMat hM hMd]
  rows := rfl
  nonempty := by simpa using hM

/-- A non-empty `sparse_list` of the fitted size is accepted. -/
theorem accepts_sparse {m : Linear F C} {d : Nat} (hc : m.coef ≠ []) (hcd : Rect d m.coef)
    {ds : List (Dict Int F)} (hds : ds ≠ []) (dt : DType) :
    m.Accepts (.sparse ds (some d) dt) (ds.map Row.dict) where
  array := rfl
  width := by simp [checkWidth, width_ofMat hc hcd, width_sparse hds]
  rows := rfl
  nonempty := by simpa using hds

end Linear
end PurePredict
