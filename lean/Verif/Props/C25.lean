import Verif.Props.C22
/-
C25: do the scalers preserve the column count (or raise)?
-/
namespace PurePredict
open Spec

/-- The three scalers' `transform`, as one family. -/
inductive Scaler (F : Type)
  | std (s : StandardScaler F)
  | minMax (s : MinMaxScaler F)
  | maxAbs (s : MaxAbsScaler F)

section
variable {F : Type} [Arith F]

def Scaler.transform : Scaler F → Arr F → Py (Arr F)
  | .std s, X => s.transform X
  | .minMax s, X => s.transform X
  | .maxAbs s, X => s.transform X

/-- Fitted parameters a scaler uses have length `n`. -/
def Scaler.Fitted (n : Nat) : Scaler F → Prop
  | .std s => (s.withMean = true → ∃ m, s.mean = some m ∧ m.length = n) ∧
      (s.withStd = true → ∃ c, s.scale = some c ∧ c.length = n)
  | .minMax s => (∃ c, s.scale = some c ∧ c.length = n) ∧ (∃ m, s.min = some m ∧ m.length = n)
  | .maxAbs s => ∃ c, s.scale = some c ∧ c.length = n

/-- The claim of C25 on dense input. -/
def PreservesWidth (s : Scaler F) (w : Nat) : Prop :=
  ∀ M : List (List F), M ≠ [] → Rect w M → ∀ Y, s.transform (.ofMat M) = .ok Y →
    ∃ N, Y = .ofMat N ∧ N.length = M.length ∧ Rect w N

theorem mapM_forall {α β : Type} {f : α → Py β} {P : β → Prop} {l : List α} {r : List β}
    (h : l.mapM f = .ok r) (hf : ∀ a ∈ l, ∀ b, f a = .ok b → P b) : ∀ b ∈ r, P b := by
  intro b hb
  obtain ⟨a, ha, hab⟩ := mapM_mem h hb
  exact hf a ha b hab

theorem mapM_ok_of_mem {α β : Type} {f : α → Py β} {l : List α} {r : List β} {a : α}
    (h : l.mapM f = .ok r) (ha : a ∈ l) : ∃ b, f a = .ok b := by
  cases hfa : f a with
  | ok b => exact ⟨b, rfl⟩
  | error e =>
    obtain ⟨e', he⟩ := mapM_error ha hfa
    rw [he] at h; cases h

/-- A pass over `range n` that indexes a record of fewer than `n` values fails. -/
theorem range_pass_len {n : Nat} {l : List F} {f : Nat → F → Py F} {r : List F}
    (h : (List.range n).mapM (fun (i : Nat) => do f i (← (Row.list l).getItem (i : Int))) = .ok r) :
    n ≤ l.length := by
  by_contra hc
  have hlt : l.length < n := by omega
  obtain ⟨y, hy⟩ := mapM_ok_of_mem h (List.mem_range.2 hlt)
  simp only [Row.getItem, pyGet_ge (le_refl l.length), py_error_bind] at hy
  cases hy

theorem columnwise_width {p : List F} {f : F → F → Py F} {rs rs' : List (Row F)}
    (h : columnwise p f rs = .ok rs') :
    ∃ N, rs' = N.map Row.list ∧ N.length = rs.length ∧ Rect p.length N := by
  unfold columnwise at h
  have hb : ∀ b ∈ rs', ∃ l, b = Row.list l ∧ l.length = p.length := by
    refine mapM_forall h ?_
    intro x _ b hb
    cases hx : (List.range p.length).mapM (fun (i : Nat) => do
      f (← x.getItem (i : Int)) (← pyGet p (i : Int))) with
    | error e => rw [hx] at hb; cases hb
    | ok l =>
      rw [hx] at hb
      cases hb
      exact ⟨l, rfl, by rw [mapM_length hx, List.length_range]⟩
  have hlen := mapM_length h
  clear h
  induction rs' generalizing rs with
  | nil => exact ⟨[], rfl, by simpa using hlen, by intro r hr; cases hr⟩
  | cons b bs ih =>
    cases rs with
    | nil => simp at hlen
    | cons r rs =>
      obtain ⟨N, h1, h2, h3⟩ := ih (rs := rs) (fun b' h' => hb b' (by simp [h'])) (by simpa using hlen)
      obtain ⟨l, rfl, hl⟩ := hb b (by simp)
      refine ⟨l :: N, by rw [h1]; rfl, by simp [h2], ?_⟩
      intro x hx
      rcases List.mem_cons.1 hx with rfl | hx
      · exact hl
      · exact h3 x hx

theorem columnwise_le {p : List F} {f : F → F → Py F} {rs' : List (Row F)} {M : List (List F)}
    (h : columnwise p f (M.map Row.list) = .ok rs') : ∀ l ∈ M, p.length ≤ l.length := by
  intro l hl
  unfold columnwise at h
  rw [mapM_map'] at h
  obtain ⟨y, hy⟩ := mapM_ok_of_mem h hl
  obtain ⟨r, hr, -⟩ := bind_ok_iff.1 hy
  exact range_pass_len (f := fun i x => do f x (← pyGet p (i : Int))) hr

theorem columnwise_keeps {p : List F} {f : F → F → Py F} {rs' : List (Row F)} {M : List (List F)}
    {w : Nat} (hM : M ≠ []) (hw : Rect w M) (hp : w ≤ p.length)
    (h : columnwise p f (M.map Row.list) = .ok rs') :
    ∃ N, rs' = N.map Row.list ∧ N.length = M.length ∧ Rect w N ∧ N ≠ [] := by
  obtain ⟨N, h1, h2, h3⟩ := columnwise_width h
  obtain ⟨l, M', rfl⟩ := List.exists_cons_of_ne_nil hM
  have := columnwise_le h l (by simp)
  rw [hw l (by simp)] at this
  have : p.length = w := by omega
  refine ⟨N, h1, by simpa using h2, this ▸ h3, ?_⟩
  rintro rfl
  simp at h2

/-- **C25**, partial: on records with at most the fitted number of columns no column is lost (a
narrower record is an error, unless the scaler does nothing).
Missing: the statement for every width (it is false for wider records, see below). -/
theorem C25_preserves_width_partial (s : Scaler F) (n w : Nat) (hf : s.Fitted n) (hwn : w ≤ n) :
    PreservesWidth s w := by
  intro M hM hw Y hY
  have hck : ∀ h, checkArray (Arr.ofMat M) h = .ok (.list (M.map Row.list)) :=
    fun h => checkArray_ofMat hM h
  have hrows : (Arr.list (M.map Row.list) : Arr F).rows = .ok (M.map Row.list) := rfl
  cases s with
  | std s =>
    obtain ⟨wm, ws, sc, mn⟩ := s
    obtain ⟨f1, f2⟩ := hf
    simp only at f1 f2
    simp only [Scaler.transform, StandardScaler.transform, hck, py_ok_bind, hrows] at hY
    have key : ∀ M' : List (List F), M' ≠ [] → M'.length = M.length → Rect w M' →
        (do let rs ← if ws then columnwise (← notNone sc) Arith.div (M'.map Row.list)
              else pure (M'.map Row.list)
            return Arr.list rs : Py (Arr F)) = .ok Y →
        ∃ N, Y = .ofMat N ∧ N.length = M.length ∧ Rect w N := by
      intro M' e1 e2 e3 h
      cases ws with
      | false =>
        simp only [Bool.false_eq_true, if_false, py_pure, py_ok_bind] at h
        cases h
        exact ⟨M', rfl, e2, e3⟩
      | true =>
        obtain ⟨c, hc, hcl⟩ := f2 rfl
        simp only [if_true, hc, notNone, py_ok_bind] at h
        obtain ⟨rs', hcol, h⟩ := bind_ok_iff.1 h
        cases h
        obtain ⟨N', g1, g2, g3, -⟩ := columnwise_keeps e1 e3 (by omega) hcol
        exact ⟨N', by rw [g1]; rfl, by rw [g2, e2], g3⟩
    cases wm with
    | false =>
      simp only [Bool.false_eq_true, if_false, py_pure, py_ok_bind] at hY
      exact key M hM rfl hw hY
    | true =>
      obtain ⟨m, hm, hml⟩ := f1 rfl
      simp only [if_true, hm] at hY
      rw [show notNone (some m) = .ok m from rfl, py_ok_bind] at hY
      obtain ⟨rs', hcol, hY⟩ := bind_ok_iff.1 hY
      obtain ⟨N', g1, g2, g3, g4⟩ := columnwise_keeps hM hw (by omega) hcol
      subst g1
      exact key N' g4 g2 g3 hY
  | minMax s =>
    obtain ⟨⟨c, hc, hcl⟩, m, hm, hml⟩ := hf
    have hsp : (Arr.ofMat M : Arr F).issparse = false := rfl
    simp only [Scaler.transform, MinMaxScaler.transform, hsp, Bool.false_eq_true, if_false, hck,
      py_ok_bind, hrows, hc, hm, notNone] at hY
    obtain ⟨N, hN, h⟩ := bind_ok_iff.1 hY
    cases h
    rw [mapM_map'] at hN
    refine ⟨N, rfl, mapM_length hN, ?_⟩
    intro y hy
    obtain ⟨x, hx, hxy⟩ := mapM_mem hN hy
    have hle := range_pass_len (f := fun i x => do
      return (x *ₚ (← pyGet c (i : Int))) +ₚ (← pyGet m (i : Int))) hxy
    rw [hw x hx] at hle
    rw [mapM_length hxy, List.length_range]
    omega
  | maxAbs s =>
    obtain ⟨c, hc, hcl⟩ := hf
    simp only [Scaler.transform, MaxAbsScaler.transform, hck, py_ok_bind, hrows, hc, notNone] at hY
    obtain ⟨rs', hcol, h⟩ := bind_ok_iff.1 hY
    cases h
    obtain ⟨N', g1, g2, g3, -⟩ := columnwise_keeps hM hw (by omega) hcol
    exact ⟨N', by rw [g1]; rfl, g2, g3⟩

/-- **C25**, partial, narrower records: they raise (for a scaler that does something).
Missing: as above. -/
theorem C25_narrow_raises_partial (s : Scaler F) (n w : Nat) (hf : s.Fitted n) (hwn : w < n)
    (hid : ∀ t, s = .std t → t.withMean = true ∨ t.withStd = true)
    (M : List (List F)) (hM : M ≠ []) (hw : Rect w M) :
    ∃ e, s.transform (.ofMat M) = .error e := by
  have hck : ∀ h, checkArray (Arr.ofMat M) h = .ok (.list (M.map Row.list)) :=
    fun h => checkArray_ofMat hM h
  have hrows : (Arr.list (M.map Row.list) : Arr F).rows = .ok (M.map Row.list) := rfl
  obtain ⟨l, M', rfl⟩ := List.exists_cons_of_ne_nil hM
  have hl : l.length = w := hw l (by simp)
  have hcw : ∀ (p : List F) (f : F → F → Py F), p.length = n →
      ∃ e, columnwise p f ((l :: M').map Row.list) = .error e := by
    intro p f hp
    cases h : columnwise p f ((l :: M').map Row.list) with
    | error e => exact ⟨e, rfl⟩
    | ok r => have := columnwise_le h l (by simp); omega
  cases s with
  | std s =>
    obtain ⟨wm, ws, sc, mn⟩ := s
    obtain ⟨f1, f2⟩ := hf
    simp only at f1 f2
    have hid := hid _ rfl
    simp only at hid
    simp only [Scaler.transform, StandardScaler.transform, hck, py_ok_bind, hrows]
    cases wm with
    | true =>
      obtain ⟨m, hm, hml⟩ := f1 rfl
      obtain ⟨e, he⟩ := hcw m (fun a b => .ok (a -ₚ b)) hml
      simp only [if_true, hm]
      rw [show notNone (some m) = .ok m from rfl, py_ok_bind, he]
      exact ⟨e, rfl⟩
    | false =>
      have hws : ws = true := by simpa using hid
      subst hws
      obtain ⟨c, hc, hcl⟩ := f2 rfl
      obtain ⟨e, he⟩ := hcw c Arith.div hcl
      simp only [Bool.false_eq_true, if_false, py_pure, py_ok_bind, if_true, hc, notNone, he]
      exact ⟨e, rfl⟩
  | minMax s =>
    obtain ⟨⟨c, hc, hcl⟩, m, hm, hml⟩ := hf
    cases h : (Scaler.minMax s).transform (.ofMat (l :: M')) with
    | error e => exact ⟨e, rfl⟩
    | ok Y =>
      have hsp : (Arr.ofMat (l :: M') : Arr F).issparse = false := rfl
      simp only [Scaler.transform, MinMaxScaler.transform, hsp, Bool.false_eq_true, if_false, hck,
        py_ok_bind, hrows, hc, hm, notNone] at h
      obtain ⟨N, hN, h⟩ := bind_ok_iff.1 h
      rw [mapM_map'] at hN
      obtain ⟨y, hy⟩ := mapM_ok_of_mem hN (List.mem_cons_self)
      have hle := range_pass_len (f := fun i x => do
        return (x *ₚ (← pyGet c (i : Int))) +ₚ (← pyGet m (i : Int))) hy
      omega
  | maxAbs s =>
    obtain ⟨c, hc, hcl⟩ := hf
    obtain ⟨e, he⟩ := hcw c Arith.div hcl
    simp only [Scaler.transform, MaxAbsScaler.transform, hck, py_ok_bind, hrows, hc, notNone, he]
    exact ⟨e, rfl⟩

end

/-- **C25 is false**: a MaxAbsScaler fitted on one column silently drops the second column of a
two-column record; so do the other two scalers. -/
theorem C25_false :
    ¬ PreservesWidth (.maxAbs ⟨some (fins [1]), none⟩ : Scaler Ex) 2 ∧
    ¬ PreservesWidth (.minMax ⟨some (fins [1]), some (fins [0])⟩ : Scaler Ex) 2 ∧
    ¬ PreservesWidth (.std ⟨false, true, some (fins [1]), none⟩ : Scaler Ex) 2 := by
  have hdiv : ∀ x : ℝ, (XR.fin x : Ex) /ₚ XR.fin 1 = .ok (.fin x) := by
    intro x; rw [XR.div_quot _ one_ne_zero, XR.quot_exact, div_one]
  have hY : ∀ (s : Scaler Ex), s.transform (.ofMat [fins [5, 7]]) = .ok (.ofMat [fins [5]]) →
      ¬ PreservesWidth s 2 := by
    intro s h hP
    obtain ⟨N, h1, h2, h3⟩ := hP [fins [5, 7]] (by simp)
      (by intro r hr; simp at hr; subst hr; rfl) _ h
    have : N.map Row.list = [Row.list (fins [5])] := by
      have h1' : (Arr.list [Row.list (fins [5])] : Arr Ex) = .list (N.map Row.list) := h1
      injection h1' with h1'
      exact h1'.symm
    cases N with
    | nil => simp at this
    | cons r N =>
      simp only [List.map_cons, List.cons.injEq, Row.list.injEq] at this
      have h4 := h3 r (by simp)
      rw [this.1, fins_length] at h4
      simp at h4
  have hck : ∀ h, checkArray (Arr.ofMat [fins [5, 7]] : Arr Ex) h =
      .ok (.list [Row.list (fins [5, 7])]) := fun h => checkArray_ofMat (by simp) h
  have hrows : (Arr.list [Row.list (fins [5, 7])] : Arr Ex).rows = .ok [Row.list (fins [5, 7])] := rfl
  have hg : (Row.list (fins [5, 7]) : Row Ex).getItem 0 = .ok (.fin 5) := rfl
  have hp : ∀ a : ℝ, pyGet (fins [a] : List Ex) 0 = .ok (.fin a) := fun _ => rfl
  have hcol : columnwise (fins [1] : List Ex) Arith.div [Row.list (fins [5, 7])] =
      .ok [Row.list (fins [5])] := by
    have hl : (fins [1] : List Ex).length = 1 := rfl
    simp only [columnwise, hl, List.range_succ, List.range_zero, List.nil_append, mapM_cons',
      mapM_nil', Nat.cast_zero, hg, hp, hdiv, py_ok_bind, py_pure]
    rfl
  have hsp : (Arr.ofMat [fins [5, 7]] : Arr Ex).issparse = false := rfl
  refine ⟨hY _ ?_, hY _ ?_, hY _ ?_⟩
  · simp only [Scaler.transform, MaxAbsScaler.transform, hck, hrows, py_ok_bind, notNone, hcol]
    rfl
  · have hl : (fins [1] : List Ex).length = 1 := rfl
    simp only [Scaler.transform, MinMaxScaler.transform, hck, hrows, notNone, hsp, hl,
      Bool.false_eq_true, if_false, List.range_succ, List.range_zero, List.nil_append, mapM_cons',
      mapM_nil', Nat.cast_zero, hg, hp, py_ok_bind, py_pure, XR.mul_exact, XR.add_exact, mul_one,
      add_zero]
    rfl
  · simp only [Scaler.transform, StandardScaler.transform, hck, hrows, py_ok_bind, notNone,
      Bool.false_eq_true, if_false, if_true, py_pure, hcol]
    rfl

/-- **C25**, scalers without fitted scale: the use of the missing scale is a TypeError, never a silent
result. -/
theorem C25_unfitted {F : Type} [Arith F] (M : List (List F)) (hM : M ≠ []) (m : Option (List F)) :
    (⟨false, true, none, m⟩ : StandardScaler F).transform (.ofMat M) = .error .typeError ∧
    (⟨none, m⟩ : MinMaxScaler F).transform (.ofMat M) = .error .typeError ∧
    (⟨none, m⟩ : MaxAbsScaler F).transform (.ofMat M) = .error .typeError := by
  have hl : ∀ h, checkArray (Arr.ofMat M) h = .ok (.list (M.map Row.list)) := fun h => checkArray_ofMat hM h
  have hr : (Arr.list (M.map Row.list) : Arr F).rows = .ok (M.map Row.list) := rfl
  refine ⟨?_, ?_, ?_⟩
  · simp only [StandardScaler.transform, hl, py_ok_bind, hr, Bool.false_eq_true, if_false, if_true, py_pure]
    rfl
  · obtain ⟨x, M', rfl⟩ := List.exists_cons_of_ne_nil hM
    simp only [MinMaxScaler.transform, issparse_ofMat, hl, py_ok_bind, hr, Bool.false_eq_true, if_false,
      List.map_cons, mapM_cons', notNone]
    rfl
  · simp only [MaxAbsScaler.transform, hl, py_ok_bind]
    rfl

/-- Non-vacuity: a scaler fitted on two columns. -/
example : (.maxAbs ⟨some (fins [1, 2]), none⟩ : Scaler Ex).Fitted 2 := ⟨_, rfl, rfl⟩

end PurePredict
