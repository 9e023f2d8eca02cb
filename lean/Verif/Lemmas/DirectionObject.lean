import Verif.Lemmas.Direction
/-
Fitted objects for which only the direction of a record counts.
-/
namespace PurePredict.Dir
open Spec Gauge Trim

/-! ### Sizes -/

theorem shape_longer {M M' : List (List Ex)} (h : List.Forall₂ Longer M M') : (Arr.ofMat M).shape = (Arr.ofMat M').shape ∧ (Arr.ofMat M).len = (Arr.ofMat M').len := by
  cases h with
  | nil => exact ⟨rfl, rfl⟩
  | @cons r r' M M' h1 h2 =>
    obtain ⟨k, _, rfl⟩ := h1
    simp [Arr.shape, Arr.ndim, Arr.first, Arr.rows, Arr.ofMat, Arr.len, Row.len, timesAll, h2.length_eq]

theorem stretched_shape {X X' : Arr Ex} (h : StretchedArr X X') : X.shape = X'.shape ∧ X.len = X'.len := by
  cases h with
  | same X => exact ⟨rfl, rfl⟩
  | dense _ h => exact shape_longer h
  | sparse _ h =>
    cases h with
    | nil => exact ⟨rfl, rfl⟩
    | @cons r r' M M' h1 h2 => simp [Arr.shape, Arr.ndim, Arr.first, Arr.rows, Arr.len, h2.length_eq]

theorem stretched_width {X X' : Arr Ex} (h : StretchedArr X X') : X.width = X'.width := by
  unfold Arr.width
  rw [(stretched_shape h).1]

/-! ### Scalers and weights -/

theorem div_left {k : ℝ} (hk : 0 < k) (a c : Ex) : Alongside (fun u v => v = u *ₚ (.fin k : Ex)) (a /ₚ c) ((a *ₚ .fin k) /ₚ c) := by
  have im2 : ∀ (p : Bool) (r : ℝ), XR.mul (XR.infMul p r : Ex) (.fin k) = XR.infMul p r := by
    intro p r
    unfold XR.infMul
    split
    · rfl
    · split <;> simp [XR.mul, infMul_pos, hk]
  have ep : XR.mul (XR.pinf : Ex) (.fin k) = .pinf := by simp [XR.mul, infMul_pos, hk]
  have en : XR.mul (XR.ninf : Ex) (.fin k) = .ninf := by simp [XR.mul, infMul_pos, hk]
  have ef : ∀ r : ℝ, XR.mul (XR.fin r : Ex) (.fin k) = .fin (r * k) := fun r => by simp [XR.mul, round_exact]
  have ez : ∀ r : ℝ, (XR.fin 0 : Ex) = XR.mul (.fin 0) (.fin k) := fun r => by simp [XR.mul, round_exact]
  show Alongside (fun u v => v = XR.mul u _) (XR.div a c) (XR.div (XR.mul a _) c)
  cases a with
  | fin a =>
    rw [ef]
    cases c with
    | fin c =>
      simp only [XR.div]
      split
      · exact .fail
      · exact .done (by rw [round_exact, round_exact, ef, div_mul_eq_mul_div])
    | pinf => exact .done (ez 0)
    | ninf => exact .done (ez 0)
    | nan => exact .done rfl
  | pinf =>
    rw [ep]
    cases c with
    | fin c =>
      simp only [XR.div]
      split
      · exact .fail
      · exact .done (im2 _ _).symm
    | pinf => exact .done rfl
    | ninf => exact .done rfl
    | nan => exact .done rfl
  | ninf =>
    rw [en]
    cases c with
    | fin c =>
      simp only [XR.div]
      split
      · exact .fail
      · exact .done (im2 _ _).symm
    | pinf => exact .done rfl
    | ninf => exact .done rfl
    | nan => exact .done rfl
  | nan =>
    show Alongside _ (XR.div .nan c) (XR.div .nan c)
    cases c with
    | fin c =>
      simp only [XR.div]
      split
      · exact .fail
      · exact .done rfl
    | pinf => exact .done rfl
    | ninf => exact .done rfl
    | nan => exact .done rfl

/-- Rows of one length and the longer rows. -/
def RowsOf (w : Nat) (r r' : Row Ex) : Prop := ∃ l l', r = .list l ∧ r' = .list l' ∧ l.length = w ∧ Longer l l'

theorem pack_rows {w : Nat} {rs rs' : List (Row Ex)} (h : List.Forall₂ (RowsOf w) rs rs') : StretchedArr (.list rs) (.list rs') := by
  have : ∃ M M', rs = M.map Row.list ∧ rs' = M'.map Row.list ∧ (∀ r ∈ M, r.length = w) ∧ List.Forall₂ Longer M M' := by
    induction h with
    | nil => exact ⟨[], [], rfl, rfl, by simp, .nil⟩
    | cons h _ ih =>
      obtain ⟨l, l', rfl, rfl, h1, h2⟩ := h
      obtain ⟨M, M', rfl, rfl, h3, h4⟩ := ih
      refine ⟨l :: M, l' :: M', rfl, rfl, ?_, .cons h2 h4⟩
      intro r hr
      rcases List.mem_cons.1 hr with rfl | hr
      · exact h1
      · exact h3 r hr
  obtain ⟨M, M', rfl, rfl, h1, h2⟩ := this
  exact .dense h1 h2

theorem columnwise_longer {sc : List Ex} {M M' : List (List Ex)} (h : List.Forall₂ Longer M M') :
    Alongside (List.Forall₂ (RowsOf sc.length)) (columnwise sc Arith.div (M.map Row.list)) (columnwise sc Arith.div (M'.map Row.list)) := by
  unfold columnwise
  rw [mapM_map', mapM_map']
  refine Alongside.mapM h fun r r' hr => ?_
  obtain ⟨k, hk, rfl⟩ := hr
  refine Alongside.bind (R := fun a b => a.length = sc.length ∧ b = timesAll k a) ?_ fun a b e => .done ⟨a, b, rfl, rfl, e.1, k, hk, e.2⟩
  have key : Alongside (List.Forall₂ fun a b => b = a *ₚ (.fin k : Ex))
      ((List.range sc.length).mapM fun (i : Nat) => do Arith.div (← (Row.list r).getItem (i : Int)) (← pyGet sc (i : Int)))
      ((List.range sc.length).mapM fun (i : Nat) => do Arith.div (← (Row.list (timesAll k r)).getItem (i : Int)) (← pyGet sc (i : Int))) := by
    refine Alongside.mapM (forall₂_same (R := Eq) (fun _ => rfl) _) fun i _ e => ?_
    cases e
    refine (pyGet_along (times_forall₂ k r) (i : Int)).bind fun a b e => ?_
    refine .after _ fun c _ => ?_
    rw [e]
    exact div_left hk a c
  cases hm : (List.range sc.length).mapM fun (i : Nat) => (do Arith.div (← (Row.list r).getItem (i : Int)) (← pyGet sc (i : Int)) : Py Ex) with
  | error e =>
    rw [hm] at key
    generalize hq : ((List.range sc.length).mapM fun (i : Nat) => (do Arith.div (← (Row.list (timesAll k r)).getItem (i : Int)) (← pyGet sc (i : Int)) : Py Ex)) = q at key
    cases key
    exact .fail
  | ok u =>
    have hl := mapM_length hm
    rw [hm] at key
    generalize hq : ((List.range sc.length).mapM fun (i : Nat) => (do Arith.div (← (Row.list (timesAll k r)).getItem (i : Int)) (← pyGet sc (i : Int)) : Py Ex)) = q at key
    cases key with
    | done e => exact .done ⟨by simpa using hl, forall₂_times e⟩

theorem dict_mapM {k : ℝ} {d : Dict Int Ex} (G : Int × Ex → Py (Int × Ex)) (g : Int × Ex → Py Ex) (hG : ∀ p, G p = (do return (p.1, ← g p))) (h : ∀ p ∈ d, Alongside (fun a b => b = a *ₚ (.fin k : Ex)) (g p) (g (p.1, p.2 *ₚ .fin k))) :
    Alongside (fun u v => u.map Prod.fst = d.map Prod.fst ∧ v = timesDict k u) (d.mapM G) ((timesDict k d).mapM G) := by
  obtain rfl : G = fun p => (do return (p.1, ← g p) : Py (Int × Ex)) := funext hG
  unfold timesDict
  rw [mapM_map']
  induction d with
  | nil => exact .done ⟨rfl, rfl⟩
  | cons p d ih =>
    rw [mapM_cons', mapM_cons']
    refine Alongside.bind (R := fun a b => a.1 = p.1 ∧ b = (p.1, a.2 *ₚ .fin k)) ?_ fun a b hab => ?_
    · exact (h p (by simp)).bind fun a b e => .done ⟨rfl, by rw [e]⟩
    · refine (ih fun q hq => h q (by simp [hq])).bind fun u v e => ?_
      refine .done ⟨by simp [hab.1, e.1], ?_⟩
      rw [hab.2, e.2, ← hab.1]
      rfl

/-- Stored rows without repeated columns and the longer ones. -/
def DictsOf (d d' : Dict Int Ex) : Prop := (d.map Prod.fst).Nodup ∧ LongerDict d d'

theorem pack_dicts {A A' : List (Dict Int Ex)} (h : List.Forall₂ DictsOf A A') (size : Option Nat) (dt : DType) : StretchedArr (.sparse A size dt) (.sparse A' size dt) := by
  have : (∀ d ∈ A, (d.map Prod.fst).Nodup) ∧ List.Forall₂ LongerDict A A' := by
    induction h with
    | nil => exact ⟨by simp, .nil⟩
    | cons h _ ih =>
      refine ⟨?_, .cons h.2 ih.2⟩
      intro d hd
      rcases List.mem_cons.1 hd with rfl | hd
      · exact h.1
      · exact ih.1 d hd
  exact .sparse this.1 this.2

theorem sparseList_longer {A A' : List (Dict Int Ex)} (h : List.Forall₂ DictsOf A A') (size : Option Nat) (dt : DType) :
    Alongside StretchedArr (sparseList (.list (A.map Row.dict)) size (some dt)) (sparseList (.list (A'.map Row.dict)) size (some dt)) := by
  cases hA : A with
  | nil =>
    subst hA
    cases h
    exact .fail
  | cons d ds =>
    rw [← hA]
    have h1 : A ≠ [] := by simp [hA]
    have h2 : A' ≠ [] := by
      rintro rfl
      cases h
      exact h1 rfl
    rw [PurePredict.sparseList_dicts h1, PurePredict.sparseList_dicts h2]
    exact .done (pack_dicts h size dt)

theorem dictsOf {A A' : List (Dict Int Ex)} (hd : ∀ d ∈ A, (d.map Prod.fst).Nodup) (h : List.Forall₂ LongerDict A A') : List.Forall₂ DictsOf A A' := by
  induction h with
  | nil => exact .nil
  | cons h _ ih => exact .cons ⟨hd _ (by simp), h⟩ (ih fun d hm => hd d (by simp [hm]))

theorem scaleDicts_longer (sc : Option (List Ex)) {A A' : List (Dict Int Ex)} (h : List.Forall₂ DictsOf A A') :
    Alongside (List.Forall₂ DictsOf) (scaleDicts sc A) (scaleDicts sc A') := by
  unfold scaleDicts
  refine Alongside.mapM h fun d d' hdd => ?_
  obtain ⟨hn, k, hk, rfl⟩ := hdd
  refine (dict_mapM (k := k) (d := d) _ (fun kv => do kv.2 /ₚ (← pyGet (← notNone sc) kv.1)) (fun p => by simp only [bind_assoc]) fun p _ => ?_).mono fun u v e =>
    ⟨by rw [e.1]; exact hn, k, hk, e.2⟩
  refine .after _ fun s _ => .after _ fun c _ => ?_
  exact div_left hk _ _

theorem maxAbs_keeps (s : MaxAbsScaler Ex) {X X' : Arr Ex} (h : StretchedArr X X') : Alongside StretchedArr (s.transform X) (s.transform X') := by
  unfold MaxAbsScaler.transform
  cases h with
  | same X => exact (Alongside.same _).mono fun _ _ e => by rw [e]; exact .same _
  | @dense w M M' hw h =>
    cases h with
    | nil => exact (Alongside.same _).mono fun _ _ e => by rw [e]; exact .same _
    | @cons r r' M M' h1 h2 =>
      show Alongside _ (notNone s.scale >>= fun sc => _) (notNone s.scale >>= fun sc => _)
      refine .after _ fun sc _ => ?_
      refine (columnwise_longer (sc := sc) (.cons h1 h2)).bind fun u v e => ?_
      exact .done (pack_rows e)
  | @sparse A A' size dt hd h =>
    show Alongside _ (scaleDicts s.scale A >>= fun u => _) (scaleDicts s.scale A' >>= fun u => _)
    exact (scaleDicts_longer s.scale (dictsOf hd h)).bind fun u v e => sparseList_longer e size dt

theorem standard_keeps {s : StandardScaler Ex} (hs : s.withMean = false) {X X' : Arr Ex} (h : StretchedArr X X') : Alongside StretchedArr (s.transform X) (s.transform X') := by
  unfold StandardScaler.transform
  cases h with
  | same X => exact (Alongside.same _).mono fun _ _ e => by rw [e]; exact .same _
  | @dense w M M' hw h =>
    cases h with
    | nil => exact (Alongside.same _).mono fun _ _ e => by rw [e]; exact .same _
    | @cons r r' M M' h1 h2 =>
      have hc : ∀ (r : List Ex) (M : List (List Ex)), checkArray (.ofMat (r :: M) : Arr Ex) .allow = .ok (.list ((r :: M).map Row.list)) := fun r M => rfl
      rw [hc, hc]
      simp only [py_ok_bind, Arr.rows, hs, Bool.false_eq_true, if_false, py_pure]
      cases s.withStd with
      | false =>
        simp only [Bool.false_eq_true, if_false, py_ok_bind]
        exact .done (.dense hw (.cons h1 h2))
      | true =>
        simp only [if_true]
        refine .after _ fun sc _ => ?_
        exact (columnwise_longer (sc := sc) (.cons h1 h2)).bind fun u v e => .done (pack_rows e)
  | @sparse A A' size dt hd h =>
    simp only [checkArray, py_ok_bind, hs, Bool.false_eq_true, if_false]
    cases s.scale with
    | none => exact .done (.sparse hd h)
    | some sc => exact (scaleDicts_longer (some sc) (dictsOf hd h)).bind fun u v e => sparseList_longer e size dt

/-- The weighting of the stored counts. -/
theorem weigh_longer (t : Tfidf Ex) {X X' : Arr Ex} (h : StretchedArr X X') :
    Alongside StretchedArr (do X.withRows (← (← X.rows).mapM (tfidfRow t.idf))) (do X'.withRows (← (← X'.rows).mapM (tfidfRow t.idf))) := by
  cases h with
  | same X => exact (Alongside.same _).mono fun _ _ e => by rw [e]; exact .same _
  | @dense w M M' hw h =>
    cases h with
    | nil => exact .done (.same _)
    | cons h1 h2 => exact .fail
  | @sparse A A' size dt hd h =>
    simp only [Arr.rows, py_ok_bind]
    rw [mapM_map', mapM_map']
    refine Alongside.bind (R := fun u v => ∃ B B', u = B.map Row.dict ∧ v = B'.map Row.dict ∧ List.Forall₂ DictsOf B B') ?_ fun u v e => ?_
    · refine (Alongside.mapM (S := fun r r' => ∃ d d', r = Row.dict d ∧ r' = Row.dict d' ∧ DictsOf d d') (dictsOf hd h) fun d d' hdd => ?_).mono fun u v e => ?_
      · obtain ⟨hn, k, hk, rfl⟩ := hdd
        show Alongside _ ((d.mapM fun kv => _) >>= fun u => _) (((timesDict k d).mapM fun kv => _) >>= fun u => _)
        refine Alongside.bind (R := fun u v => u.map Prod.fst = d.map Prod.fst ∧ v = timesDict k u) ?_ fun u v e => .done ⟨u, v, rfl, rfl, by rw [e.1]; exact hn, k, hk, e.2⟩
        refine dict_mapM (k := k) _ (fun kv => do return kv.2 *ₚ (← pyGet t.idf kv.1)) (fun p => by simp only [bind_assoc, pure_bind]) fun p _ => ?_
        refine .after _ fun c _ => .done ?_
        show _ *ₚ _ = _
        rw [mul_comm_ex, times_inner hk, mul_comm_ex c]
      · induction e with
        | nil => exact ⟨[], [], rfl, rfl, .nil⟩
        | cons h _ ih =>
          obtain ⟨d, d', rfl, rfl, h1⟩ := h
          obtain ⟨B, B', rfl, rfl, h2⟩ := ih
          exact ⟨d :: B, d' :: B', rfl, rfl, .cons h1 h2⟩
    · obtain ⟨B, B', rfl, rfl, h1⟩ := e
      simp only [Arr.withRows, asDicts_map, py_ok_bind, py_pure]
      exact .done (pack_dicts h1 size dt)

theorem tfidf_both (t : Tfidf Ex) {X X' : Arr Ex} (h : StretchedArr X X') :
    Alongside (fun a b => (t.norm = none → StretchedArr a.1 b.1) ∧ ∀ n, t.norm = some n → n ≠ .max → a.1 = b.1) (t.transform X) (t.transform X') ∨ ∃ n, t.norm = some n ∧ n = .max := by
  by_cases hm : ∃ n, t.norm = some n ∧ n = .max
  · exact .inr hm
  left
  unfold Tfidf.transform
  refine (stretched_check h .allow).bind fun Y Y' hY => ?_
  rw [(stretched_shape hY).1]
  refine .after _ fun sh _ => ?_
  cases sh with
  | d1 n => exact .fail
  | d2 n nf =>
    simp only
    cases t.sublinearTf with
    | true => exact .fail
    | false =>
      simp only [Bool.false_eq_true, if_false]
      have fin : ∀ Z Z', StretchedArr Z Z' → Alongside (fun a b => (t.norm = none → StretchedArr a.1 b.1) ∧ ∀ n, t.norm = some n → n ≠ .max → a.1 = b.1)
          (match t.norm with
            | none => pure (Z, Z)
            | some n => (do return (← normalizePure Z n, Z) : Py (Arr Ex × Arr Ex)))
          (match t.norm with
            | none => pure (Z', Z')
            | some n => (do return (← normalizePure Z' n, Z') : Py (Arr Ex × Arr Ex))) := by
        intro Z Z' hZ
        cases hno : t.norm with
        | none => exact .done ⟨fun _ => hZ, fun n e => by cases e⟩
        | some n =>
          have : n ≠ .max := fun e => hm ⟨n, hno, e⟩
          exact (stretched_normalize this hZ).bind fun u v e => .done ⟨fun e => (by cases e), fun _ _ _ => e⟩
      cases t.useIdf with
      | false => exact fin _ _ hY
      | true =>
        simp only [if_true]
        by_cases hn : (nf != some t.expectedNFeatures) = true
        · rw [if_pos hn, if_pos hn]
          exact .fail
        · rw [if_neg hn, if_neg hn]
          have := (weigh_longer t hY).bind fin
          simp only [bind_assoc] at this
          exact this

/-! ### Linear classifiers -/

/-- the record times a number -/
noncomputable def timesRow (k : ℝ) : Row Ex → Row Ex
  | .list l => .list (timesAll k l)
  | .dict d => .dict (timesDict k d)
  | .scalar x => .scalar (x *ₚ .fin k)

theorem dot_row {k : ℝ} (hk : 0 < k) (x : Row Ex) (B : List (List Ex)) :
    Alongside (fun a b => b = timesAll k a) (dot x B) (dot (timesRow k x) B) := by
  have sw : ∀ x w : Ex, (x *ₚ (.fin k : Ex)) *ₚ w = (x *ₚ w) *ₚ .fin k := by
    intro x w
    rw [mul_comm_ex, times_inner hk, mul_comm_ex w]
  unfold dot
  refine (Alongside.mapM (S := fun a b => b = a *ₚ (.fin k : Ex)) (forall₂_same (R := Eq) (fun _ => rfl) B) fun r _ e => ?_).mono fun _ _ h => forall₂_times h
  cases e
  cases x with
  | scalar x => exact .fail
  | list l =>
    refine .done ?_
    unfold dotList
    rw [← sum_times hk]
    congr 1
    unfold timesAll
    rw [List.map_zipWith, List.zipWith_map_left]
    congr 1
    funext a b
    exact sw a b
  | dict d =>
    show Alongside _ (dotDict d r) (dotDict (timesDict k d) r)
    unfold dotDict timesDict
    rw [mapM_map']
    refine Alongside.bind (R := fun a b => b = timesAll k a) ?_ fun u v e => ?_
    · refine (Alongside.mapM (S := fun a b => b = a *ₚ (.fin k : Ex)) (forall₂_same (R := Eq) (fun _ => rfl) d) fun p _ e => ?_).mono fun _ _ h => forall₂_times h
      cases e
      refine .after _ fun c _ => .done ?_
      exact sw _ _
    · rw [e]
      exact .done (sum_times hk u)

theorem rowScores_row {m : Linear Ex (PVal Ex)} {b : List Ex} (hb : m.intercept = some b) (h0 : ∀ x ∈ b, x = .fin 0) {k : ℝ} (hk : 0 < k) (x : Row Ex) :
    Alongside Longer (m.rowScores x) (m.rowScores (timesRow k x)) := by
  unfold Linear.rowScores
  refine (dot_row hk x m.coef).bind fun u v e => ?_
  rw [e, hb]
  refine .done ⟨k, hk, ?_⟩
  clear hb e
  induction b generalizing u with
  | nil => simp [timesAll]
  | cons y b ih =>
    cases u with
    | nil => simp [timesAll]
    | cons z u =>
      have := ih (fun x hx => h0 x (by simp [hx])) u
      rw [h0 y (by simp)]
      simp only [timesAll, List.map_cons, List.zipWith_cons_cons, plus_zero] at this ⊢
      rw [this]

theorem minLen_longer {M M' : List (List Ex)} (h : List.Forall₂ Longer M M') : minLen M = minLen M' := by
  induction h with
  | nil => rfl
  | @cons r r' M M' h1 h2 ih =>
    obtain ⟨k, _, rfl⟩ := h1
    cases h2 with
    | nil => simp [minLen, timesAll]
    | cons h3 h4 => simp only [minLen, timesAll, List.length_map] at ih ⊢; rw [ih]

theorem column_longer (j : Nat) {M M' : List (List Ex)} (h : List.Forall₂ Longer M M') :
    List.Forall₂ (fun a b => ∃ k : ℝ, 0 < k ∧ b = a *ₚ (.fin k : Ex)) (M.filterMap fun r => r[j]?) (M'.filterMap fun r => r[j]?) := by
  induction h with
  | nil => exact .nil
  | @cons r r' M M' h1 _ ih =>
    obtain ⟨k, hk, rfl⟩ := h1
    cases hr : r[j]? with
    | none => simpa [timesAll, hr] using ih
    | some x =>
      simp only [List.filterMap_cons, timesAll, List.getElem?_map, hr, Option.map_some]
      exact .cons ⟨k, hk, rfl⟩ ih

theorem ravel_longer {M M' : List (List Ex)} (h : List.Forall₂ Longer M M') :
    Alongside (List.Forall₂ fun a b => ∃ k : ℝ, 0 < k ∧ b = a *ₚ (.fin k : Ex)) (ravel (.ofMat M)) (ravel (.ofMat M')) := by
  simp only [ravel, issparse_ofMat, Bool.false_eq_true, if_false, transpose_ofMat, py_ok_bind]
  refine pyGet_along ?_ 0
  unfold zipStar
  rw [minLen_longer h]
  generalize List.range (minLen M') = l
  induction l with
  | nil => exact .nil
  | cons j l ih => exact .cons (column_longer j h) ih

theorem rows_longer {X X' : Arr Ex} (h : StretchedArr X X') : Alongside (List.Forall₂ fun r r' => ∃ k : ℝ, 0 < k ∧ r' = timesRow k r) X.rows X'.rows ∨ X = X' := by
  cases h with
  | same X => exact .inr rfl
  | @dense w M M' hw h =>
    left
    refine .done ?_
    clear hw
    induction h with
    | nil => exact .nil
    | cons h _ ih =>
      obtain ⟨k, hk, rfl⟩ := h
      exact .cons ⟨k, hk, rfl⟩ ih
  | @sparse A A' size dt hd h =>
    left
    refine .done ?_
    clear hd
    induction h with
    | nil => exact .nil
    | cons h _ ih =>
      obtain ⟨k, hk, rfl⟩ := h
      exact .cons ⟨k, hk, rfl⟩ ih

theorem linear_direction {m : Linear Ex (PVal Ex)} {b : List Ex} (hb : m.intercept = some b) (h0 : ∀ x ∈ b, x = .fin 0) {X X' : Arr Ex} (h : StretchedArr X X') :
    Alongside Eq (m.predict X) (m.predict X') := by
  unfold Linear.predict Linear.decisionFunction
  simp only [bind_assoc]
  refine (stretched_check h .allow).bind fun Y Y' hY => ?_
  rcases rows_longer hY with hr | rfl
  swap
  · exact .same _
  have hc : m.checkWidth Y = m.checkWidth Y' := by
    unfold Linear.checkWidth
    rw [stretched_width hY]
  rw [hc]
  refine .after _ fun _ _ => ?_
  refine hr.bind fun rs rs' hrs => ?_
  refine (Alongside.mapM (S := Longer) hrs fun x x' hx => ?_).bind fun S S' hS => ?_
  · obtain ⟨k, hk, rfl⟩ := hx
    exact rowScores_row hb h0 hk x
  have hw : (Arr.ofMat S).width = (Arr.ofMat S').width := by
    unfold Arr.width
    rw [(shape_longer hS).1]
  rw [hw]
  refine .after _ fun w _ => ?_
  have mat : Alongside Eq (S.mapM fun a => (do pyGet m.classes (← argmax a) : Py (PVal Ex))) (S'.mapM fun a => (do pyGet m.classes (← argmax a) : Py (PVal Ex))) := by
    refine (Alongside.mapM (S := Eq) hS fun a a' ha => ?_).mono fun _ _ e => forall₂_eq e
    obtain ⟨k, hk, rfl⟩ := ha
    rw [argmax_times hk]
    exact .same _
  have flat : Alongside Eq (ravel (Arr.ofMat S) >>= fun s => s.mapM fun x => pyGet m.classes (if ofInt 0 <ₚ x then 1 else 0))
      (ravel (Arr.ofMat S') >>= fun s => s.mapM fun x => pyGet m.classes (if ofInt 0 <ₚ x then 1 else 0)) := by
    refine (ravel_longer hS).bind fun s s' hs => ?_
    refine (Alongside.mapM (S := Eq) hs fun a a' ha => ?_).mono fun _ _ e => forall₂_eq e
    obtain ⟨k, hk, rfl⟩ := ha
    have := lt_times hk (ofInt 0) a
    rw [times_zero] at this
    rw [this]
    exact .same _
  split
  · simpa only [bind_assoc, pure_bind] using flat
  · simpa only [pure_bind] using mat

/-! ### Fitted objects -/

variable {lib : String → TextLib} {encode : Str → List Nat}

/-- The transformer keeps the factors. -/
def Keeping (f : Methods Ex) : Prop := ∀ t, f.transform = some t → ∀ X X', Stretched X X' → Alongside Stretched (t X) (t X')
/-- The answers do not depend on the factors. -/
def Direct (f : Methods Ex) : Prop := ∀ X X', Stretched X X' → AnswersBoth f X X'

theorem onArr_both {β : Type} {f : Arr Ex → Py β} (h : ∀ X X', StretchedArr X X' → Alongside Eq (f X) (f X')) {X X' : Data Ex} (hX : Stretched X X') :
    Alongside Eq (Data.onArr f X) (Data.onArr f X') := by
  cases hX with
  | same X => exact .same _
  | arr hX => exact h _ _ hX

theorem keeps_single {s : Single Ex} (h : Keeps s) : Keeping (s.est lib encode) := by
  have go : ∀ f : Arr Ex → Py (Arr Ex), (∀ X X', StretchedArr X X' → Alongside StretchedArr (f X) (f X')) → Keeping (transformer (Data.onArr f)) := by
    intro f hf t ht X X' hX
    cases ht
    cases hX with
    | same X => exact (Alongside.same _).mono fun _ _ e => by rw [e]; exact .same _
    | arr hX => exact (hf _ _ hX).bind fun u v e => .done (.arr e)
  cases h with
  | maxAbs => exact go _ fun X X' hX => maxAbs_keeps _ hX
  | standard hs => exact go _ fun X X' hX => standard_keeps hs hX
  | @tfidf t hn =>
    refine go _ fun X X' hX => ?_
    rcases tfidf_both t hX with h | ⟨n, h1, _⟩
    · exact h.bind fun u v e => .done (e.1 hn)
    · rw [hn] at h1
      cases h1

theorem direct_single {s : Single Ex} (h : Directional s) : Direct (s.est lib encode) := by
  have go : ∀ f : Arr Ex → Py (Arr Ex), (∀ X X', StretchedArr X X' → Alongside Eq (f X) (f X')) → Direct (transformer (Data.onArr f)) := by
    intro f hf X X' hX
    refine ⟨fun t ht => ?_, fun t ht => (by cases ht), fun t ht => (by cases ht), fun t ht => (by cases ht)⟩
    cases ht
    exact (onArr_both hf hX).next _
  cases h with
  | normalizer hn => exact go _ fun X X' hX => stretched_normalizer hn hX
  | @tfidf t n h1 h2 =>
    refine go _ fun X X' hX => ?_
    rcases tfidf_both t hX with h | ⟨n', h3, h4⟩
    · exact h.bind fun u v e => .done (e.2 n h1 h2)
    · rw [h1] at h3
      cases h3
      exact absurd h4 h2
  | @dummy d =>
    intro X X' hX
    have hp : ∀ X X' : Arr Ex, StretchedArr X X' → d.predictProba X = d.predictProba X' := by
      intro X X' h
      unfold Dummy.predictProba
      rw [(stretched_shape h).2]
    refine ⟨fun t ht => (by cases ht), fun t ht => ?_, fun t ht => ?_, fun t ht => ?_⟩ <;> cases ht <;> refine onArr_both (fun X X' h => ?_) hX
    · unfold Dummy.predict
      rw [(stretched_shape h).2]
      exact .same _
    · rw [hp X X' h]
      exact .same _
    · unfold Dummy.predictLogProba
      rw [hp X X' h]
      exact .same _
  | @linear kind m b hl hb h0 =>
    have e := (labelsOnly_est (m' := m) hl rfl).1
    show Direct (kind.est m)
    rw [e]
    intro X X' hX
    refine ⟨fun t ht => (by cases ht), fun t ht => ?_, fun t ht => (by cases ht), fun t ht => (by cases ht)⟩
    cases ht
    exact onArr_both (fun X X' h => linear_direction hb h0 h) hX

theorem applyAll_keeps {l : List (String × Methods Ex)} (h : ∀ p ∈ l, Keeping p.2) {X X' : Data Ex} (hX : Stretched X X') :
    Alongside Stretched (Pipeline.applyAll (asSteps l) X) (Pipeline.applyAll (asSteps l) X') := by
  induction l generalizing X X' with
  | nil => exact .done hX
  | cons p l ih =>
    show Alongside Stretched (Pipeline.applyAll ((p.1, some p.2) :: asSteps l) X) (Pipeline.applyAll ((p.1, some p.2) :: asSteps l) X')
    unfold Pipeline.applyAll
    cases ht : p.2.transform with
    | none => exact .fail
    | some t => exact (h p (by simp) t ht X X' hX).bind fun Y Y' hY => ih (fun q hq => h q (by simp [hq])) hY

theorem pipeline_direct {pre post : List (String × Methods Ex)} {n : String} {e : Methods Ex} (h1 : ∀ p ∈ pre, Keeping p.2) (h2 : Direct e) :
    Direct (pipelineEst (pre ++ (n, e) :: post)) := by
  intro X X' hX
  rcases List.eq_nil_or_concat post with rfl | ⟨post, ⟨m, e'⟩, rfl⟩
  · rw [pipe_methods]
    have hk := applyAll_keeps h1 hX
    refine ⟨fun t ht => ?_, fun t ht => ?_, fun t ht => ?_, fun t ht => ?_⟩ <;>
      obtain ⟨u, hu, rfl⟩ := Option.map_eq_some_iff.1 ht <;> refine hk.bind fun Y Y' hY => ?_
    · exact (h2 Y Y' hY).1 u hu
    · exact (h2 Y Y' hY).2.1 u hu
    · exact (h2 Y Y' hY).2.2.1 u hu
    · exact (h2 Y Y' hY).2.2.2 u hu
  · have es : pre ++ (n, e) :: (post ++ [(m, e')]) = (pre ++ (n, e) :: post) ++ [(m, e')] := by simp
    have hk : Alongside Eq (Pipeline.applyAll (asSteps (pre ++ (n, e) :: post)) X) (Pipeline.applyAll (asSteps (pre ++ (n, e) :: post)) X') := by
      rw [asSteps_append, applyAll_append, applyAll_append]
      refine (applyAll_keeps h1 hX).bind fun Y Y' hY => ?_
      show Alongside Eq (Pipeline.applyAll ((n, some e) :: asSteps post) Y) (Pipeline.applyAll ((n, some e) :: asSteps post) Y')
      unfold Pipeline.applyAll
      cases ht : e.transform with
      | none => exact .fail
      | some t => exact ((h2 Y Y' hY).1 t ht).next _
    rw [List.concat_eq_append, es, pipe_methods]
    refine ⟨fun t ht => ?_, fun t ht => ?_, fun t ht => ?_, fun t ht => ?_⟩ <;>
      obtain ⟨u, hu, rfl⟩ := Option.map_eq_some_iff.1 ht <;> exact hk.next _

theorem pipeline_keeping {l : List (String × Methods Ex)} (h : ∀ p ∈ l, Keeping p.2) : Keeping (pipelineEst l) := by
  intro t ht X X' hX
  rcases List.eq_nil_or_concat l with rfl | ⟨l, ⟨n, e⟩, rfl⟩
  · cases ht
  · rw [List.concat_eq_append] at ht h
    rw [pipe_methods] at ht
    obtain ⟨u, hu, rfl⟩ := Option.map_eq_some_iff.1 ht
    exact (applyAll_keeps (fun p hp => h p (by simp [hp])) hX).bind fun Y Y' hY => h (n, e) (by simp) u hu Y Y' hY

theorem stretched_check_data {X X' : Data Ex} (h : Stretched X X') : Alongside Stretched X.check X'.check := by
  cases h with
  | same X => exact (Alongside.same _).mono fun _ _ e => by rw [e]; exact .same _
  | arr h => exact (stretched_check h .allow).bind fun u v e => .done (.arr e)

theorem union_direct {l : List (String × Methods Ex)} (ws : Option (List (String × Ex))) (h : ∀ p ∈ l, Direct p.2) : Direct (unionEst l ws) := by
  intro X X' hX
  refine ⟨fun t ht => ?_, fun t ht => (by cases ht), fun t ht => (by cases ht), fun t ht => (by cases ht)⟩
  cases ht
  refine Alongside.next ?_ _
  refine (stretched_check_data hX).bind fun Y Y' hY => ?_
  have hs : Y.shape = Y'.shape ∧ Y.len = Y'.len := by
    cases hY with
    | same => exact ⟨rfl, rfl⟩
    | arr h => exact stretched_shape h
  rw [hs.1, hs.2]
  refine Alongside.next ?_ _
  have := Alongside.mapM (R := fun p q => p = q ∧ p ∈ l) (S := Eq) (l := l) (l' := l) (f := fun s => transformOne (Est.runTransform s.2) Y (weightOf ws s.1))
    (g := fun s => transformOne (Est.runTransform s.2) Y' (weightOf ws s.1)) ?_ fun p q hp => ?_
  · exact this.mono fun _ _ e => forall₂_eq e
  · exact List.forall₂_same.2 fun p hp => ⟨rfl, hp⟩
  · obtain ⟨rfl, hp⟩ := hp
    unfold transformOne Est.runTransform
    cases ht : p.2.transform with
    | none => exact .fail
    | some t => exact (((h p hp Y Y' hY).1 t ht).next _).next _

theorem featSlice_stretched {X X' : Arr Ex} (h : StretchedArr X X') (fs : Option (List Int)) : Alongside StretchedArr (featSlice X fs) (featSlice X' fs) := by
  cases fs with
  | none => exact .done h
  | some fs =>
    rcases rows_longer h with hr | rfl
    swap
    · exact (Alongside.same _).mono fun _ _ e => by rw [e]; exact .same _
    unfold featSlice
    refine hr.bind fun rs rs' hrs => ?_
    refine (Alongside.mapM (S := fun a b => a.length = fs.length ∧ Longer a b) hrs fun x x' hx => ?_).bind fun A A' hA => .done ?_
    · obtain ⟨k, hk, rfl⟩ := hx
      have key : Alongside (List.Forall₂ fun a b => b = a *ₚ (.fin k : Ex)) (fs.mapM fun i => x.getItem i) (fs.mapM fun i => (timesRow k x).getItem i) := by
        refine Alongside.mapM (forall₂_same (R := Eq) (fun _ => rfl) _) fun i _ e => ?_
        cases e
        cases x with
        | list l => exact pyGet_along (times_forall₂ k l) i
        | scalar x => exact .fail
        | dict d =>
          show Alongside _ (Dict.getItem d i) (Dict.getItem (timesDict k d) i)
          have : Dict.get? (timesDict k d) i = (Dict.get? d i).map fun x => x *ₚ (.fin k : Ex)  :=
            Dict.get?_mapVals (fun x => x *ₚ (.fin k : Ex)) d i
          unfold Dict.getItem
          rw [this]
          cases Dict.get? d i with
          | none => exact .fail
          | some x => exact .done rfl
      generalize hq : (fs.mapM fun i => (timesRow k x).getItem i) = q at key ⊢
      cases hm : fs.mapM fun i => x.getItem i with
      | error e =>
        rw [hm] at key
        cases key
        exact .fail
      | ok u =>
        have hl := mapM_length hm
        rw [hm] at key
        cases key with
        | done e => exact .done ⟨hl, k, hk, forall₂_times e⟩
    · refine .dense (w := fs.length) ?_ (hA.imp fun _ _ h => h.2)
      clear hrs hr
      induction hA with
      | nil => simp
      | cons h _ ih =>
        intro r hr
        rcases List.mem_cons.1 hr with rfl | hr
        · exact h.1
        · exact ih r hr

theorem ensemble_direct (fs : Option (List (List Int))) (cs : List (PVal Ex)) {ms : List (Methods Ex)} (h : ∀ m ∈ ms, Direct m) : Direct (ensembleEst fs cs ms) := by
  have mem : ∀ (X X' : Arr Ex), StretchedArr X X' → ∀ idx, Alongside Eq (Bagging.memberProba ⟨fs, cs, ms.map fun m => ⟨Est.runProba m⟩⟩ X idx)
      (Bagging.memberProba ⟨fs, cs, ms.map fun m => ⟨Est.runProba m⟩⟩ X' idx) := by
    intro X X' hX idx
    unfold Bagging.memberProba
    refine .after _ fun e he => .after _ fun feats _ => ?_
    obtain ⟨m, hm, rfl⟩ := List.mem_map.1 (pyGet_ok_mem he)
    refine (featSlice_stretched hX feats).bind fun Y Y' hY => ?_
    show Alongside Eq (Est.runProba m Y) (Est.runProba m Y')
    unfold Est.runProba
    cases ht : m.predictProba with
    | none => exact .fail
    | some t => exact (h m hm _ _ (.arr hY)).2.2.1 t ht
  have acc : ∀ (X X' : Arr Ex), StretchedArr X X' → ∀ (is : List Nat) (p : List (List Ex)), Alongside Eq (Bagging.accumulate ⟨fs, cs, ms.map fun m => ⟨Est.runProba m⟩⟩ X is p)
      (Bagging.accumulate ⟨fs, cs, ms.map fun m => ⟨Est.runProba m⟩⟩ X' is p) := by
    intro X X' hX is
    induction is with
    | nil => exact fun p => .done rfl
    | cons i is ih =>
      intro p
      unfold Bagging.accumulate
      refine (mem X X' hX i).bind fun q q' e => ?_
      cases e
      exact .after _ fun s _ => ih s
  have pp : ∀ (X X' : Arr Ex), StretchedArr X X' → Alongside Eq (Bagging.predictProba ⟨fs, cs, ms.map fun m => ⟨Est.runProba m⟩⟩ X)
      (Bagging.predictProba ⟨fs, cs, ms.map fun m => ⟨Est.runProba m⟩⟩ X') := by
    intro X X' hX
    unfold Bagging.predictProba
    refine (mem X X' hX 0).bind fun q q' e => ?_
    cases e
    exact (acc X X' hX _ _).next _
  intro X X' hX
  refine ⟨fun t ht => (by cases ht), fun t ht => ?_, fun t ht => ?_, fun t ht => ?_⟩ <;> cases ht <;> refine onArr_both (fun X X' h => ?_) hX
  · exact (pp X X' h).next _
  · exact pp X X' h
  · exact (pp X X' h).next _

theorem parts {P : Methods Ex → Prop} {steps : List (String × SkObj (Attrs Ex) (PVal Ex) Ex)} {es : List (Methods Ex)} (he : List.Forall₂ (Behaves lib encode) (steps.map Prod.snd) es)
    (h : ∀ p ∈ steps, ∀ f, Behaves lib encode p.2 f → P f) : ∀ p ∈ (steps.map Prod.fst).zip es, P p.2 := by
  induction steps generalizing es with
  | nil => simp
  | cons s steps ih =>
    cases he with
    | cons h1 h2 =>
      intro p hp
      rcases List.mem_cons.1 hp with rfl | hp
      · exact h s (by simp) _ h1
      · exact ih h2 (fun p hp => h p (by simp [hp])) p hp

theorem behaves_keeps {o : SkObj (Attrs Ex) (PVal Ex) Ex} (h : KeepsAll o) {f : Methods Ex} (hb : Behaves lib encode o f) : Keeping f := by
  induction h generalizing f with
  | single hl hs =>
    obtain ⟨rfl, _⟩ := leaf_behaves hl hb
    exact keeps_single hs
  | pipeline _ ih =>
    cases hb with
    | pipeline hv he => exact pipeline_keeping (parts he fun p hp f hf => ih p hp hf)

theorem behaves_direct {o : SkObj (Attrs Ex) (PVal Ex) Ex} (h : Directed o) {f : Methods Ex} (hb : Behaves lib encode o f) : Direct f := by
  induction h generalizing f with
  | single hl hs =>
    obtain ⟨rfl, _⟩ := leaf_behaves hl hb
    exact direct_single hs
  | @pipeline v pre n o post hp _ ih =>
    cases hb with
    | @pipeline _ _ es hv he =>
      rw [List.map_append, List.map_cons] at he
      obtain ⟨xs, ys, rfl, h1, h2⟩ := split_behaves he
      cases h2 with
      | @cons _ e _ zs hs h2 =>
        have hlen := h1.length_eq
        rw [List.length_map] at hlen
        rw [List.map_append, List.map_cons, List.zip_append (by simpa using hlen), List.zip_cons_cons]
        exact pipeline_direct (parts h1 fun p hm f hf => behaves_keeps (hp p hm) hf) (ih hs)
  | union _ ih =>
    cases hb with
    | union hv he => exact union_direct _ (parts he fun p hp f hf => ih p hp hf)
  | @ensemble k v fs cs ms _ ih =>
    cases hb with
    | ensemble hv hp he =>
      refine ensemble_direct _ _ fun m hm => ?_
      obtain ⟨o, ho, hb⟩ := forall₂_mem_right he hm
      exact ih o ho hb

end PurePredict.Dir
