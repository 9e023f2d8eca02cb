import Verif.Props.C29
import Verif.Lemmas.Dot
/-
C28: one-hot encoding.
-/
namespace PurePredict
open Spec
variable {F C : Type} [DecidableEq C]

/-- The stored entries of a correct one-hot row whose first block starts at column `o`. -/
def hotItems (one : F) : Nat → List (List C) → List C → Dict Int F
  | o, k :: ks, v :: vs =>
    (if v ∈ k then [(((o + k.idxOf v : Nat) : Int), one)] else []) ++ hotItems one (o + k.length) ks vs
  | _, _, _ => []

/-- Total number of categories. -/
def totalCats (cats : List (List C)) : Nat := (cats.map List.length).sum

theorem hotItems_keys (one : F) (o : Nat) (cats : List (List C)) (x : List C) :
    (∀ p ∈ hotItems one o cats x, (o : Int) ≤ p.1 ∧ p.1 < ((o + totalCats cats : Nat) : Int)) ∧
      ((hotItems one o cats x).map Prod.fst).Pairwise (· < ·) := by
  induction cats generalizing o x with
  | nil => simp [hotItems]
  | cons k ks ih =>
    cases x with
    | nil => simp [hotItems]
    | cons v vs =>
      obtain ⟨h1, h2⟩ := ih (o + k.length) vs
      have ht : totalCats (k :: ks) = k.length + totalCats ks := by simp [totalCats]
      have hi : v ∈ k → k.idxOf v < k.length := fun h => List.idxOf_lt_length_iff.2 h
      simp only [hotItems]
      constructor
      · intro p hp
        rcases List.mem_append.1 hp with hp | hp
        · split at hp
          · rename_i hv
            have := hi hv
            simp at hp; subst hp
            constructor <;> simp only <;> push_cast <;> omega
          · simp at hp
        · obtain ⟨a, b⟩ := h1 p hp
          push_cast at a b ⊢
          rw [ht]
          push_cast
          omega
      · rw [List.map_append, List.pairwise_append]
        refine ⟨by split <;> simp, h2, ?_⟩
        intro a ha b hb
        obtain ⟨q, hq, rfl⟩ := List.mem_map.1 hb
        have := (h1 q hq).1
        split at ha
        · rename_i hv
          have h3 := hi hv
          simp at ha; subst ha
          push_cast at this ⊢
          omega
        · simp at ha

theorem entry_append_right {z : F} {d d' : Dict Int F} {i : Nat} (h : ∀ p ∈ d, p.1 ≠ (i : Int)) :
    entry z (d ++ d') i = entry z d' i := by
  induction d with
  | nil => rfl
  | cons p d ih =>
    rw [List.cons_append, entry_cons_of_ne (h p (by simp)), ih fun q hq => h q (by simp [hq])]

/-- A correct one-hot row denotes the concatenation of the indicator vectors. -/
theorem hotItems_dense (zero one : F) (o : Nat) (cats : List (List C)) (x : List C)
    (hl : cats.length = x.length) (hn : ∀ k ∈ cats, k.Nodup) :
    (List.range' o (totalCats cats)).map (entry zero (hotItems one o cats x)) =
      oneHot zero one cats x := by
  induction cats generalizing o x with
  | nil => cases x <;> simp_all [totalCats, oneHot]
  | cons k ks ih =>
    cases x with
    | nil => simp at hl
    | cons v vs =>
      have hih := ih (o + k.length) vs (by simpa using hl) fun q hq => hn q (by simp [hq])
      obtain ⟨hk1, -⟩ := hotItems_keys one (o + k.length) ks vs
      have hi : v ∈ k → k.idxOf v < k.length := fun h => List.idxOf_lt_length_iff.2 h
      have ht : totalCats (k :: ks) = k.length + totalCats ks := by simp [totalCats]
      rw [ht, ← List.range'_append_1, List.map_append]
      have e2 : oneHot zero one (k :: ks) (v :: vs) = indicator zero one k v ++ oneHot zero one ks vs := by
        simp [oneHot]
      rw [e2, ← hih]
      congr 1
      · apply List.ext_getElem
        · simp [indicator]
        · intro j h1 h2
          have hj : j < k.length := by simpa [indicator] using h2
          simp only [List.getElem_map, List.getElem_range', indicator, Nat.one_mul, hotItems]
          by_cases hv : v ∈ k
          · rw [if_pos hv]
            by_cases hji : j = k.idxOf v
            · subst hji
              rw [List.singleton_append, entry_cons_self rfl, if_pos (by simp)]
            · rw [List.singleton_append, entry_cons_of_ne (by push_cast; omega), entry_not_mem, if_neg]
              · intro e
                apply hji
                have := List.Nodup.idxOf_getElem (hn k (by simp)) j hj
                rw [e] at this; exact this.symm
              · intro p hp e
                have := (hk1 p hp).1
                push_cast at this e
                omega
          · rw [if_neg hv, List.nil_append, entry_not_mem, if_neg]
            · intro e; exact hv (e ▸ List.getElem_mem hj)
            · intro p hp e
              have := (hk1 p hp).1
              push_cast at this e
              omega
      · apply List.map_congr_left
        intro i hi'
        obtain ⟨h1, h2⟩ := List.mem_range'_1.1 hi'
        simp only [hotItems]
        apply entry_append_right
        intro p hp
        split at hp
        · rename_i hv
          have := hi hv
          simp at hp; subst hp
          simp only; push_cast; omega
        · simp at hp

/-- The column the code uses for the code of feature `i`: `n_values[i]` is the size of the previous
feature, not the total of all previous ones. -/
def codeOffset (cats : List (List C)) (i : Nat) : Nat := (0 :: cats.map List.length).getD i 0

/-- The entries the code stores for a record. -/
def codeItems [Inhabited C] (one : F) (cats : List (List C)) (x : List C) : List (Int × F) :=
  (List.range x.length).filterMap fun (i : Nat) =>
    if x.getD i default ∈ cats.getD i [] then
      some (((codeOffset cats i + codeOf (cats.getD i []) (x.getD i default) : Nat) : Int), one)
    else none

theorem oneHotRow_ok [Arith F] [Inhabited C] (one : F) (cats : List (List C)) (x : List C)
    (hl : cats.length = x.length) :
    oneHotRow (0 :: cats.map List.length) one x.length
      ((List.range x.length).map fun i => codeOf (cats.getD i []) (x.getD i default))
      ((List.range x.length).map fun i => decide (x.getD i default ∈ cats.getD i [])) =
    .ok (Dict.ofList (codeItems one cats x)) := by
  unfold oneHotRow
  rw [range_mapM (g := fun i => if x.getD i default ∈ cats.getD i [] then
    some (codeOffset cats i + codeOf (cats.getD i []) (x.getD i default), one) else none)]
  · simp only [py_ok_bind, py_pure]
    congr 2
    unfold codeItems
    rw [List.filterMap_map, List.map_filterMap]
    apply List.filterMap_congr
    intro i _
    simp only [Function.comp, id]
    split <;> simp
  · intro i hi
    have h1 : pyGet ((List.range x.length).map fun i => decide (x.getD i default ∈ cats.getD i []))
        (i : Int) = .ok (decide (x.getD i default ∈ cats.getD i [])) := by
      rw [pyGet_lt (by simpa using hi)]; simp
    have h2 : pyGet ((List.range x.length).map fun i => codeOf (cats.getD i []) (x.getD i default))
        (i : Int) = .ok (codeOf (cats.getD i []) (x.getD i default)) := by
      rw [pyGet_lt (by simpa using hi)]; simp
    have h3 : pyGet (0 :: cats.map List.length) (i : Int) = .ok (codeOffset cats i) := by
      have hlt : i < (0 :: cats.map List.length).length := by simp [hl]; omega
      rw [pyGet_lt hlt]
      simp [codeOffset, List.getD_eq_getElem?_getD, List.getElem?_eq_getElem hlt]
    rw [h1, py_ok_bind]
    by_cases h : x.getD i default ∈ cats.getD i []
    · simp only [h, decide_true, if_true, h2, h3, py_ok_bind, py_pure]
    · simp only [h, decide_false, Bool.false_eq_true, if_false, py_pure]

theorem accumuFrom_last (t : Nat) (l : List Nat) (d : Nat) (h : l ≠ []) :
    (accumuFrom t l).getLastD d = t + l.sum := by
  induction l generalizing t d with
  | nil => exact absurd rfl h
  | cons a l ih =>
    rw [accumuFrom, List.getLastD_cons]
    cases l with
    | nil => simp [accumuFrom]
    | cons b l => rw [ih _ _ (by simp)]; simp; omega

/-- What the code computes: one dict per record with the entries `codeItems`. -/
theorem oneHot_code [Arith F] [Inhabited C] (e : Encoder C) (w : Nat) (he : e.Fitted w)
    (R : List (List C)) (hR : R ≠ []) (hw : Rect w R)
    (hk : e.handleUnknownError = true → ∀ x ∈ R, Known e.categories x) (one : F)
    (h1 : castTo e.dtype (ofInt 1 : F) = .ok one) :
    e.oneHot (.ofMat R) = (do
      let out := Arr.sparse (R.map fun x => Dict.ofList (codeItems one e.categories x))
        (some (totalCats e.categories)) e.dtype
      if !e.sparse then todense out else return out) := by
  obtain ⟨g1, g2, g3⟩ := he.fn
  have hpos : 0 < R.length := List.length_pos_of_ne_nil hR
  have hR' := rect_eq_mat hw (default : C)
  have hmem : ∀ j < R.length, R.getD j [] ∈ R := by
    intro j hj
    rw [List.getD_eq_getElem?_getD, List.getElem?_eq_getElem hj]; exact List.getElem_mem hj
  have ht := transform_ok e e.handleUnknownError hpos (fun j i => (R.getD j []).getD i default)
    (fun i => e.categories.getD i []) g1 g2 g3 (fun hu j hj i hi =>
      (known_iff he.1 (hw _ (hmem j hj)) default).1 (hk hu _ (hmem j hj)) i hi)
  rw [← hR'] at ht
  have hhead : (mat R.length w (fun j i => codeOf (e.categories.getD i [])
      ((R.getD j []).getD i default))).headD [] = (List.range w).map fun i =>
        codeOf (e.categories.getD i []) ((R.getD 0 []).getD i default) := by
    obtain ⟨m, hm⟩ : ∃ m, R.length = m + 1 := ⟨R.length - 1, by omega⟩
    rw [mat, hm, List.range_succ_eq_map]
    rfl
  simp only [Encoder.oneHot, ht, py_ok_bind, mat_length, hhead, List.length_map, List.length_range, h1]
  rw [range_mapM (g := fun j => Dict.ofList (codeItems one e.categories (R.getD j [])))]
  · have hdata : (List.range R.length).map (fun j => Dict.ofList (codeItems one e.categories (R.getD j []))) =
        R.map fun x => Dict.ofList (codeItems one e.categories x) := by
      conv_rhs => rw [eq_range_map R []]
      rw [List.map_map]; rfl
    have hlast : (accumu (0 :: e.categories.map List.length)).getLastD 0 = totalCats e.categories := by
      rw [accumu, accumuFrom_last _ _ _ (by simp)]
      simp [totalCats]
    rw [py_ok_bind, hdata, hlast, sparseList_dicts (by simpa using hR), py_ok_bind]
  · intro j hj
    rw [pyGet_lt (by simpa using hj), pyGet_lt (by simpa using hj), mat_getElem hj, mat_getElem hj,
      py_ok_bind, py_ok_bind]
    have hlen := hw _ (hmem j hj)
    have := oneHotRow_ok one e.categories (R.getD j []) (by rw [he.1, hlen])
    rw [hlen] at this
    exact this

/-- With at most two features the code's offsets are right. -/
theorem codeItems_two [Inhabited C] (one : F) (cats : List (List C)) (x : List C)
    (hl : cats.length = x.length) (h2 : x.length ≤ 2) :
    codeItems one cats x = hotItems one 0 cats x := by
  match cats, x, hl with
  | [], [], _ => rfl
  | [k], [v], _ =>
    simp [codeItems, hotItems, codeOffset, List.range_succ, codeOf]
    by_cases h : v ∈ k <;> simp [h]
  | [k, k'], [v, v'], _ =>
    simp [codeItems, hotItems, codeOffset, List.range_succ, codeOf]
    by_cases h : v ∈ k <;> by_cases h' : v' ∈ k' <;> simp [h, h']
  | _ :: _ :: _ :: _, _ :: _ :: _ :: _, _ => simp at h2

/-- The claim of C28 for a batch: the result denotes the one-hot vectors of the records. -/
def OneHotOk (zero one : F) (cats : List (List C)) (R : List (List C)) (out : Py (Arr F)) : Prop :=
  out = .ok (.ofMat (R.map (oneHot zero one cats))) ∨
    ∃ ds dt, out = .ok (.sparse ds (some (totalCats cats)) dt) ∧
      ds.map (dense zero (totalCats cats)) = R.map (oneHot zero one cats)

/-- **C28**, partial: one or two features.  Missing: three or more features, where the claim is
false (`C28_false`). -/
theorem C28_two_features_partial [Arith F] [Inhabited C] (e : Encoder C) (w : Nat) (he : e.Fitted w)
    (hw2 : w ≤ 2) (R : List (List C)) (hR : R ≠ []) (hw : Rect w R)
    (hk : e.handleUnknownError = true → ∀ x ∈ R, Known e.categories x) (zero one : F)
    (h1 : castTo e.dtype (ofInt 1 : F) = .ok one) (h0 : castTo e.dtype (ofInt 0 : F) = .ok zero) :
    OneHotOk zero one e.categories R (e.oneHot (.ofMat R)) := by
  have hrow : ∀ x ∈ R, dense zero (totalCats e.categories) (Dict.ofList (codeItems one e.categories x)) =
      oneHot zero one e.categories x := by
    intro x hx
    have hl : e.categories.length = x.length := by rw [he.1, hw x hx]
    rw [codeItems_two one _ x hl (by rw [hw x hx]; exact hw2), Dict.ofList_eq_self]
    · rw [dense, List.range_eq_range']
      exact hotItems_dense zero one 0 _ x hl fun k hk => (he.2 k hk).1
    · exact List.Pairwise.imp (fun h => ne_of_lt h) (hotItems_keys one 0 e.categories x).2
  have hmap : (R.map fun x => Dict.ofList (codeItems one e.categories x)).map
      (dense zero (totalCats e.categories)) = R.map (oneHot zero one e.categories) := by
    rw [List.map_map]
    exact List.map_congr_left hrow
  rw [oneHot_code e w he R hR hw hk one h1]
  cases hs : e.sparse
  · left
    simp only [Bool.not_false, if_true]
    rw [todense_sparse h0, hmap]
  · right
    exact ⟨_, _, rfl, hmap⟩

/-- **C28**, unknown categories: ValueError when `handle_unknown='error'`, any number of features. -/
theorem C28_unknown_error [Arith F] (e : Encoder C) (w : Nat) (he : e.Fitted w)
    (hu : e.handleUnknownError = true) (R : List (List C)) (hw : Rect w R)
    (hk : ∃ x ∈ R, ¬ Known e.categories x) :
    e.oneHot (F := F) (.ofMat R) = .error .valueError := by
  obtain ⟨x, hx, hnk⟩ := hk
  have hR : R ≠ [] := List.ne_nil_of_mem hx
  obtain ⟨h1, h2, h3⟩ := he.fn
  have hpos : 0 < R.length := List.length_pos_of_ne_nil hR
  obtain ⟨d⟩ : Nonempty C := by
    unfold Known at hnk
    push Not at hnk
    obtain ⟨i, v, _⟩ := hnk
    exact ⟨v⟩
  have hR' := rect_eq_mat hw d
  rw [known_iff he.1 (hw x hx) d] at hnk
  push Not at hnk
  obtain ⟨i, hi, hni⟩ := hnk
  obtain ⟨j, hj, hjx⟩ := List.getElem_of_mem hx
  have ht := transform_error e hpos (fun j i => (R.getD j []).getD i d)
    (fun i => e.categories.getD i []) h1 h2 ⟨j, hj, i, hi, by
      have : R.getD j [] = x := by simp [List.getD_eq_getElem?_getD, hj, hjx]
      rw [this]; exact hni⟩
  rw [← hR'] at ht
  simp only [Encoder.oneHot, hu, ht, py_error_bind]

/-- An unknown value has an all-zero indicator (so `handle_unknown='ignore'` gives a zero block). -/
theorem C28_unknown_block (zero one : F) (cats : List C) (v : C) (h : v ∉ cats) :
    indicator zero one cats v = List.replicate cats.length zero := by
  unfold indicator
  rw [List.eq_replicate_iff]
  refine ⟨by simp, ?_⟩
  intro b hb
  obtain ⟨c, hc, rfl⟩ := List.mem_map.1 hb
  rw [if_neg]
  rintro rfl
  exact h hc

/-- **C28 is false for three features**: no three-feature encoder ever encodes a known record
correctly. -/
theorem C28_three_features_wrong [Inhabited C] (zero one : F) (h01 : zero ≠ one) (k0 k1 k2 : List C)
    (hne : k0 ≠ []) (v0 v1 v2 : C) (m0 : v0 ∈ k0) (m1 : v1 ∈ k1) (m2 : v2 ∈ k2)
    (hn : ∀ k ∈ [k0, k1, k2], k.Nodup) :
    dense zero (totalCats [k0, k1, k2]) (Dict.ofList (codeItems one [k0, k1, k2] [v0, v1, v2])) ≠
      oneHot zero one [k0, k1, k2] [v0, v1, v2] := by
  intro h
  have hc := hotItems_dense zero one 0 [k0, k1, k2] [v0, v1, v2] rfl hn
  rw [← h, ← List.range_eq_range'] at hc
  have l0 : 0 < k0.length := List.length_pos_of_ne_nil hne
  have i0 : k0.idxOf v0 < k0.length := List.idxOf_lt_length_iff.2 m0
  have i1 : k1.idxOf v1 < k1.length := List.idxOf_lt_length_iff.2 m1
  have i2 : k2.idxOf v2 < k2.length := List.idxOf_lt_length_iff.2 m2
  have htot : totalCats [k0, k1, k2] = k0.length + (k1.length + k2.length) := by
    simp [totalCats]
  set i := k0.length + k1.length + k2.idxOf v2 with hi
  have hlt : i < totalCats [k0, k1, k2] := by rw [htot]; omega
  have he : entry zero (hotItems one 0 [k0, k1, k2] [v0, v1, v2]) i =
      entry zero (Dict.ofList (codeItems one [k0, k1, k2] [v0, v1, v2])) i := by
    have := congrArg (fun l => l[i]?) hc
    simpa [dense, hlt] using this
  have e1 : entry zero (hotItems one 0 [k0, k1, k2] [v0, v1, v2]) i = one := by
    simp only [hotItems, m0, m1, m2, if_true, Nat.zero_add, List.singleton_append]
    rw [entry_cons_of_ne (by simp only; omega), entry_cons_of_ne (by simp only; omega),
      entry_cons_self (by simp only; omega)]
  have e2 : entry zero (Dict.ofList (codeItems one [k0, k1, k2] [v0, v1, v2])) i = zero := by
    apply entry_not_mem
    intro p hp e
    have hk : p.1 ∈ Dict.keys (Dict.ofList (codeItems one [k0, k1, k2] [v0, v1, v2])) :=
      List.mem_map.2 ⟨p, hp, rfl⟩
    rw [Dict.mem_keys_ofList] at hk
    simp [codeItems, codeOffset, List.range_succ, codeOf, m0, m1, m2] at hk
    omega
  rw [e1, e2] at he
  exact h01 he.symm

/-- **C28 is false**: three features with one category each, the record `[0, 0, 0]`: the code
returns [1, 1, 0] instead of [1, 1, 1]. -/
theorem C28_false :
    ¬ OneHotOk (.fin 0) (.fin 1) [[0], [0], [0]] [[0, 0, 0]]
      ((⟨[[0], [0], [0]], .float, false, true⟩ : Encoder Nat).oneHot (F := Ex) (.ofMat [[0, 0, 0]])) := by
  have he : (⟨[[0], [0], [0]], .float, false, true⟩ : Encoder Nat).Fitted 3 := ⟨rfl, by simp⟩
  have hk : Known [[0], [0], [0]] [0, 0, 0] := by
    rw [known_iff (w := 3) rfl rfl 0]
    intro i hi
    match i, hi with
    | 0, _ => simp
    | 1, _ => simp
    | 2, _ => simp
  have h1 : castTo .float (ofInt 1 : Ex) = .ok (.fin 1) := by simp [castTo]
  have h0 : castTo .float (ofInt 0 : Ex) = .ok (.fin 0) := castTo_zero_exact _
  have hcode := oneHot_code (F := Ex) _ 3 he [[0, 0, 0]] (by simp)
    (by intro r hr; simp at hr; subst hr; rfl) (by intro _ x hx; simp at hx; subst hx; exact hk)
    (.fin 1) h1
  rw [hcode]
  simp only [Bool.not_false, if_true, List.map_cons, List.map_nil]
  rw [todense_sparse h0]
  have hwrong := C28_three_features_wrong (F := Ex) (.fin 0) (.fin 1) (by simp) [0] [0] [0]
    (by simp) 0 0 0 (by simp) (by simp) (by simp) (by simp)
  rintro (h | ⟨ds, dt, h, -⟩)
  · injection h with h
    have h' : (Arr.list _ : Arr Ex) = Arr.list _ := h
    injection h' with h'
    simp only [List.map_cons, List.map_nil, List.cons.injEq, and_true, Row.list.injEq] at h'
    exact hwrong h'
  · injection h with h
    cases h

/-- Non-vacuity: two features. -/
example : OneHotOk (.fin 0) (.fin 1) [[10, 20], [5]] [[20, 7]]
    ((⟨[[10, 20], [5]], .float, true, false⟩ : Encoder Nat).oneHot (F := Ex) (.ofMat [[20, 7]])) := by
  apply C28_two_features_partial _ 2 _ (by omega) _ (by simp)
  · intro r hr; simp at hr; subst hr; rfl
  · intro h; cases h
  · simp [castTo]
  · exact castTo_zero_exact _
  · exact ⟨rfl, by simp⟩
example : oneHot 0 1 [[10, 20], [5]] [20, 7] = [0, 1, 0] := by decide

end PurePredict
