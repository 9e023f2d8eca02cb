import Verif.Py.Arr
import Mathlib.Data.List.Forall2
import Mathlib.Data.List.Basic
import Mathlib.Data.List.Nodup
import Mathlib.Algebra.Order.Ring.Int
import Mathlib.Tactic.Linarith
/-
Helper lemmas about the Python substrate: `mapM` in `Except`, indexing, dicts.
-/
namespace PurePredict

section except
variable {α β γ : Type}

@[simp] theorem py_pure (a : α) : (pure a : Py α) = .ok a := rfl
@[simp] theorem py_ok_bind (a : α) (f : α → Py β) : ((Except.ok a : Py α) >>= f) = f a := rfl
@[simp] theorem py_error_bind (e : PyErr) (f : α → Py β) :
    ((Except.error e : Py α) >>= f) = .error e := rfl
@[simp] theorem py_ok_map (a : α) (f : α → β) : (f <$> (Except.ok a : Py α)) = .ok (f a) := rfl
@[simp] theorem py_error_map (e : PyErr) (f : α → β) :
    (f <$> (Except.error e : Py α)) = .error e := rfl

theorem bind_ok_iff {x : Py α} {f : α → Py β} {b : β} :
    (x >>= f) = .ok b ↔ ∃ a, x = .ok a ∧ f a = .ok b := by
  cases x with
  | error e => simp
  | ok a => simp

theorem map_ok_iff {x : Py α} {f : α → β} {b : β} :
    (f <$> x) = .ok b ↔ ∃ a, x = .ok a ∧ f a = b := by
  cases x with
  | error e => simp
  | ok a => simp

theorem bind_error_iff {x : Py α} {f : α → Py β} {e : PyErr} :
    (x >>= f) = .error e ↔ x = .error e ∨ ∃ a, x = .ok a ∧ f a = .error e := by
  cases x with
  | error e => simp
  | ok a => simp

@[simp] theorem mapM_nil' (f : α → Py β) : ([] : List α).mapM f = .ok [] := by
  simp [List.mapM_nil]

@[simp] theorem mapM_cons' (f : α → Py β) (x : α) (l : List α) :
    (x :: l).mapM f = (do let b ← f x; let bs ← l.mapM f; return b :: bs) := by
  simp only [List.mapM_cons]

theorem mapM_cons_ok {f : α → Py β} {x : α} {l : List α} {ys : List β} :
    (x :: l).mapM f = .ok ys ↔ ∃ y ys', f x = .ok y ∧ l.mapM f = .ok ys' ∧ ys = y :: ys' := by
  rw [mapM_cons', bind_ok_iff]
  constructor
  · rintro ⟨b, hb, h⟩
    rw [bind_ok_iff] at h
    obtain ⟨bs, hbs, h⟩ := h
    exact ⟨b, bs, hb, hbs, by simpa using h.symm⟩
  · rintro ⟨y, ys', hy, hys, rfl⟩
    exact ⟨y, hy, by simp [hys]⟩

/-- `mapM` succeeds iff it succeeds elementwise. -/
theorem mapM_ok_iff {f : α → Py β} {l : List α} {ys : List β} :
    l.mapM f = .ok ys ↔ List.Forall₂ (fun x y => f x = .ok y) l ys := by
  induction l generalizing ys with
  | nil => cases ys <;> simp
  | cons x l ih =>
    rw [mapM_cons_ok]
    constructor
    · rintro ⟨y, ys', hy, hys, rfl⟩
      exact .cons hy (ih.1 hys)
    · intro h
      cases h with
      | cons hy hys => exact ⟨_, _, hy, ih.2 hys, rfl⟩

theorem mapM_length {f : α → Py β} {l : List α} {ys : List β} (h : l.mapM f = .ok ys) :
    ys.length = l.length := (mapM_ok_iff.1 h).length_eq.symm

theorem mapM_ok_map {f : α → Py β} {g : α → β} {l : List α} (h : ∀ x ∈ l, f x = .ok (g x)) :
    l.mapM f = .ok (l.map g) := by
  induction l with
  | nil => simp
  | cons x l ih =>
    rw [mapM_cons', h x (by simp), ih (fun y hy => h y (by simp [hy]))]
    simp

@[simp] theorem mapM_ok_fun {g : α → β} {l : List α} :
    l.mapM (fun x => (Except.ok (g x) : Py β)) = .ok (l.map g) := mapM_ok_map fun _ _ => rfl

@[simp] theorem mapM_pure_fun {g : α → β} {l : List α} :
    l.mapM (fun x => (pure (g x) : Py β)) = .ok (l.map g) := mapM_ok_map fun _ _ => rfl

theorem mapM_congr {f g : α → Py β} {l : List α} (h : ∀ x ∈ l, f x = g x) :
    l.mapM f = l.mapM g := by
  induction l with
  | nil => simp
  | cons x l ih =>
    rw [mapM_cons', mapM_cons', h x (by simp), ih (fun y hy => h y (by simp [hy]))]

theorem mapM_append' (f : α → Py β) (l₁ l₂ : List α) :
    (l₁ ++ l₂).mapM f = (do let a ← l₁.mapM f; let b ← l₂.mapM f; return a ++ b) := by
  simp [List.mapM_append]

theorem mapM_map' (f : β → Py γ) (g : α → β) (l : List α) :
    (l.map g).mapM f = l.mapM fun x => f (g x) := by
  induction l with
  | nil => simp
  | cons x l ih => rw [List.map_cons, mapM_cons', mapM_cons', ih]

/-- If some element raises, so does `mapM`. -/
theorem mapM_error {f : α → Py β} {l : List α} {x : α} (hx : x ∈ l) {e : PyErr}
    (h : f x = .error e) : ∃ e', l.mapM f = .error e' := by
  induction l with
  | nil => simp at hx
  | cons y l ih =>
    rw [mapM_cons']
    cases hy : f y with
    | error e => exact ⟨e, rfl⟩
    | ok b =>
      rcases List.mem_cons.1 hx with rfl | hx
      · rw [h] at hy; cases hy
      · obtain ⟨e', he'⟩ := ih hx
        exact ⟨e', by simp [he']⟩

/-- If every element raises `e` or succeeds and one raises, `mapM` raises `e`. -/
theorem mapM_error_same {f : α → Py β} {l : List α} {x : α} (hx : x ∈ l) {e : PyErr}
    (h : f x = .error e) (hall : ∀ y ∈ l, ∀ e', f y = .error e' → e' = e) :
    l.mapM f = .error e := by
  induction l with
  | nil => simp at hx
  | cons y l ih =>
    rw [mapM_cons']
    cases hy : f y with
    | error e' => rw [hall y (by simp) e' hy]; rfl
    | ok b =>
      rcases List.mem_cons.1 hx with rfl | hx
      · rw [h] at hy; cases hy
      · rw [ih hx (fun z hz => hall z (by simp [hz]))]; rfl

theorem mapM_eq_error {f : α → Py β} {l : List α} {e : PyErr} (h : l.mapM f = .error e) :
    ∃ x ∈ l, f x = .error e := by
  induction l with
  | nil => simp at h
  | cons y l ih =>
    rw [mapM_cons', bind_error_iff] at h
    rcases h with h | ⟨a, _, h⟩
    · exact ⟨y, by simp, h⟩
    · rw [bind_error_iff] at h
      rcases h with h | ⟨b, _, h⟩
      · obtain ⟨x, hx, hf⟩ := ih h
        exact ⟨x, by simp [hx], hf⟩
      · simp at h

theorem mapM_total {f : α → Py β} {l : List α} (h : ∀ x ∈ l, ∃ y, f x = .ok y) :
    ∃ ys, l.mapM f = .ok ys := by
  cases hm : l.mapM f with
  | ok ys => exact ⟨ys, rfl⟩
  | error e =>
    obtain ⟨x, hx, hf⟩ := mapM_eq_error hm
    obtain ⟨y, hy⟩ := h x hx
    rw [hf] at hy; cases hy

theorem mapM_getElem {f : α → Py β} {l : List α} {ys : List β} (h : l.mapM f = .ok ys)
    (i : Nat) (hi : i < l.length) (hi' : i < ys.length) : f l[i] = .ok ys[i] := by
  have := mapM_ok_iff.1 h
  exact List.Forall₂.get this hi hi'

theorem mapM_mem {f : α → Py β} {l : List α} {ys : List β} (h : l.mapM f = .ok ys)
    {y : β} (hy : y ∈ ys) : ∃ x ∈ l, f x = .ok y := by
  induction l generalizing ys with
  | nil => simp at h; subst h; simp at hy
  | cons x l ih =>
    obtain ⟨y', ys', hy', hys, rfl⟩ := mapM_cons_ok.1 h
    rcases List.mem_cons.1 hy with rfl | hy
    · exact ⟨x, by simp, hy'⟩
    · obtain ⟨z, hz, hf⟩ := ih hys hy
      exact ⟨z, by simp [hz], hf⟩

theorem mapM_bind_mapM {f : α → Py β} {g : β → Py γ} {l : List α} {ys : List β}
    (h : l.mapM f = .ok ys) {zs : List γ} (h' : ys.mapM g = .ok zs) :
    l.mapM (fun x => do g (← f x)) = .ok zs := by
  induction l generalizing ys zs with
  | nil => simp at h; subst h; simpa using h'
  | cons x l ih =>
    obtain ⟨y, ys', hy, hys, rfl⟩ := mapM_cons_ok.1 h
    obtain ⟨z, zs', hz, hzs, rfl⟩ := mapM_cons_ok.1 h'
    rw [mapM_cons_ok]
    exact ⟨z, zs', by simp [hy, hz], ih hys hzs, rfl⟩

end except

section pyget
variable {α : Type}

theorem pyGet_nat (l : List α) (i : Nat) :
    pyGet l (i : Int) = match l[i]? with
      | some a => .ok a
      | none => .error .indexError := by
  have h1 : ¬ ((i : Int) < 0) := by omega
  simp only [pyGet, if_neg h1, Int.toNat_natCast]
  cases l[i]? <;> rfl

theorem pyGet_lt {l : List α} {i : Nat} (h : i < l.length) : pyGet l (i : Int) = .ok l[i] := by
  rw [pyGet_nat, List.getElem?_eq_getElem h]

theorem pyGet_ge {l : List α} {i : Nat} (h : l.length ≤ i) :
    pyGet l (i : Int) = .error .indexError := by
  rw [pyGet_nat, List.getElem?_eq_none h]

theorem pyGet_ok_nat {l : List α} {i : Nat} {a : α} :
    pyGet l (i : Int) = .ok a ↔ l[i]? = some a := by
  rw [pyGet_nat]
  cases l[i]? <;> simp

@[simp] theorem pyGet_zero_cons (a : α) (l : List α) : pyGet (a :: l) 0 = .ok a := by
  exact pyGet_lt (l := a :: l) (i := 0) (by simp)

@[simp] theorem pyGet_one_cons (a b : α) (l : List α) : pyGet (a :: b :: l) 1 = .ok b := by
  exact pyGet_lt (l := a :: b :: l) (i := 1) (by simp)

theorem pyGet_ok_mem {l : List α} {i : Int} {a : α} (h : pyGet l i = .ok a) : a ∈ l := by
  simp only [pyGet] at h
  generalize (if i < 0 then i + (l.length : Int) else i) = j at h
  split at h
  · cases h
  · cases hb : l[j.toNat]? with
    | some b =>
      rw [hb] at h
      cases h
      exact List.mem_of_getElem? hb
    | none => rw [hb] at h; cases h

/-- The comprehension `[l[i] for i in range(len(l))]` is `l`. -/
theorem range_mapM_pyGet (l : List α) :
    (List.range l.length).mapM (fun (i : Nat) => pyGet l (i : Int)) = .ok l := by
  rw [mapM_ok_iff]
  rw [List.forall₂_iff_get]
  refine ⟨by simp, fun i h1 h2 => ?_⟩
  simp only [List.get_eq_getElem, List.getElem_range]
  exact pyGet_lt (by simpa using h1)

theorem range_mapM {β : Type} {f : Nat → Py β} {n : Nat} {g : Nat → β}
    (h : ∀ i < n, f i = .ok (g i)) : (List.range n).mapM f = .ok ((List.range n).map g) :=
  mapM_ok_map fun i hi => h i (by simpa using hi)

end pyget

namespace Dict
variable {κ α β : Type} [BEq κ] [LawfulBEq κ] [DecidableEq κ]

@[simp] theorem get?_nil (k : κ) : get? ([] : Dict κ α) k = none := rfl

@[simp] theorem get?_cons (p : κ × α) (d : Dict κ α) (k : κ) :
    get? (p :: d) k = if p.1 = k then some p.2 else get? d k := by
  obtain ⟨k', v⟩ := p
  unfold get?
  rw [List.lookup_cons]
  by_cases h : k = k'
  · simp [h]
  · have h' : ¬ k' = k := fun h' => h h'.symm
    have h2 : (k == k') = false := by simpa using h
    simp [h2, h']

theorem get?_set (d : Dict κ α) (k k' : κ) (v : α) :
    get? (set d k v) k' = if k = k' then some v else get? d k' := by
  induction d with
  | nil => simp [set]
  | cons p d ih =>
    obtain ⟨q, w⟩ := p
    simp only [set, beq_iff_eq]
    by_cases h : q = k
    · subst h
      by_cases h2 : q = k' <;> simp [h2]
    · simp only [h, if_false, get?_cons, ih]
      by_cases h2 : k = k'
      · subst h2; simp [h]
      · simp [h2]

theorem keys_set (d : Dict κ α) (k : κ) (v : α) :
    keys (set d k v) = if k ∈ keys d then keys d else keys d ++ [k] := by
  induction d with
  | nil => simp [set, keys]
  | cons p d ih =>
    obtain ⟨q, w⟩ := p
    simp only [set, beq_iff_eq]
    by_cases h : q = k
    · subst h; simp [keys]
    · have hne : ¬ k = q := fun h' => h h'.symm
      simp only [h, if_false]
      simp only [keys, List.map_cons, List.mem_cons, hne, false_or] at ih ⊢
      rw [ih]
      split <;> simp [*]

theorem mem_keys_set {d : Dict κ α} {k k' : κ} {v : α} :
    k' ∈ keys (set d k v) ↔ k' ∈ keys d ∨ k' = k := by
  rw [keys_set]
  split
  · constructor
    · exact Or.inl
    · rintro (h | rfl) <;> assumption
  · simp

theorem nodup_keys_set {d : Dict κ α} {k : κ} {v : α} (h : (keys d).Nodup) :
    (keys (set d k v)).Nodup := by
  rw [keys_set]
  split
  · exact h
  · rename_i hk
    rw [List.nodup_append]
    refine ⟨h, by simp, ?_⟩
    intro a ha b hb
    rw [List.mem_singleton] at hb
    subst hb
    exact fun e => hk (e ▸ ha)

theorem set_of_not_mem {d : Dict κ α} {k : κ} {v : α} (h : k ∉ keys d) :
    set d k v = d ++ [(k, v)] := by
  induction d with
  | nil => rfl
  | cons p d ih =>
    obtain ⟨q, w⟩ := p
    simp only [keys, List.map_cons, List.mem_cons, not_or] at h
    have hne : ¬ q = k := fun h' => h.1 h'.symm
    simp only [set, beq_iff_eq, hne, if_false, List.cons_append, ih h.2]

theorem get?_eq_some_of_mem {d : Dict κ α} (hd : (keys d).Nodup) {k : κ} {v : α}
    (h : (k, v) ∈ d) : get? d k = some v := by
  induction d with
  | nil => simp at h
  | cons p d ih =>
    obtain ⟨q, w⟩ := p
    simp only [keys, List.map_cons, List.nodup_cons] at hd
    rcases List.mem_cons.1 h with h | h
    · cases h; simp
    · have : q ≠ k := fun e => hd.1 (e ▸ List.mem_map.2 ⟨_, h, rfl⟩)
      simp [this, ih hd.2 h]

theorem mem_of_get? {d : Dict κ α} {k : κ} {v : α} (h : get? d k = some v) : (k, v) ∈ d := by
  induction d with
  | nil => simp at h
  | cons p d ih =>
    obtain ⟨q, w⟩ := p
    rw [get?_cons] at h
    split at h
    · rename_i hq; simp at hq h; subst hq; subst h; simp
    · exact List.mem_cons_of_mem _ (ih h)

theorem get?_eq_none_iff {d : Dict κ α} {k : κ} : get? d k = none ↔ k ∉ keys d := by
  induction d with
  | nil => simp [keys]
  | cons p d ih =>
    obtain ⟨q, w⟩ := p
    rw [get?_cons]
    simp only [keys, List.map_cons, List.mem_cons, not_or] at ih ⊢
    by_cases h : q = k
    · simp [h]
    · have : ¬ k = q := fun e => h e.symm
      simp [h, this, ih]

theorem ofList_foldl_append {l : List (κ × α)} {d : Dict κ α}
    (h : (keys d ++ l.map (·.1)).Nodup) :
    l.foldl (fun d p => set d p.1 p.2) d = d ++ l := by
  induction l generalizing d with
  | nil => simp
  | cons p l ih =>
    simp only [List.foldl_cons]
    have hp : p.1 ∉ keys d := by
      intro hm
      rw [List.nodup_append] at h
      exact h.2.2 p.1 hm p.1 (by simp) rfl
    rw [set_of_not_mem hp, ih]
    · simp
    · simp only [keys, List.map_append, List.map_cons, List.map_nil, List.append_assoc] at h ⊢
      simpa using h

/-- `dict(pairs)` with distinct keys is the list of pairs. -/
theorem ofList_eq_self {l : List (κ × α)} (h : (l.map (·.1)).Nodup) :
    (ofList l : Dict κ α) = l := by
  unfold ofList
  rw [ofList_foldl_append (by simpa [keys] using h)]
  simp

theorem nodup_keys_foldl {l : List (κ × α)} {d : Dict κ α} (h : (keys d).Nodup) :
    (keys (l.foldl (fun d p => set d p.1 p.2) d)).Nodup := by
  induction l generalizing d with
  | nil => exact h
  | cons p l ih => exact ih (nodup_keys_set h)

theorem nodup_keys_ofList (l : List (κ × α)) : (keys (ofList l)).Nodup :=
  nodup_keys_foldl (by simp [keys])

theorem mem_keys_foldl {l : List (κ × α)} {d : Dict κ α} {k : κ} :
    k ∈ keys (l.foldl (fun d p => set d p.1 p.2) d) ↔ k ∈ keys d ∨ k ∈ l.map (·.1) := by
  induction l generalizing d with
  | nil => simp
  | cons p l ih =>
    simp only [List.foldl_cons, ih, mem_keys_set, List.map_cons, List.mem_cons, or_assoc]

theorem mem_keys_ofList {l : List (κ × α)} {k : κ} :
    k ∈ keys (ofList l) ↔ k ∈ l.map (·.1) := by
  unfold ofList; rw [mem_keys_foldl]; simp [keys]

theorem keys_mapVals (f : α → β) (d : Dict κ α) : keys (mapVals f d) = keys d := by
  simp [keys, mapVals]

theorem get?_mapVals (f : α → β) (d : Dict κ α) (k : κ) :
    get? (mapVals f d) k = (get? d k).map f := by
  induction d with
  | nil => simp [mapVals]
  | cons p d ih =>
    simp only [mapVals, List.map_cons] at ih ⊢
    rw [get?_cons, get?_cons, ih]
    split <;> simp

end Dict

/-- A rectangular matrix. -/
def Rect {α : Type} (w : Nat) (M : List (List α)) : Prop := ∀ r ∈ M, r.length = w

section arr
variable {F : Type}

@[simp] theorem rows_ofMat (M : List (List F)) :
    (Arr.ofMat M).rows = .ok (M.map Row.list) := rfl

@[simp] theorem rows_sparse (ds : List (Dict Int F)) (n : Option Nat) (dt : DType) :
    (Arr.sparse ds n dt).rows = .ok (ds.map Row.dict) := rfl

@[simp] theorem issparse_ofMat (M : List (List F)) : (Arr.ofMat M).issparse = false := rfl

@[simp] theorem len_ofMat (M : List (List F)) : (Arr.ofMat M).len = .ok M.length := by
  simp [Arr.len]

theorem shape_ofMat_cons (r : List F) (M : List (List F)) :
    (Arr.ofMat (r :: M)).shape = .ok (.d2 (M.length + 1) (some r.length)) := by
  simp [Arr.shape, Arr.ndim, Arr.first, Arr.ofMat, Arr.rows, Arr.len, Row.len]

theorem width_ofMat_cons (r : List F) (M : List (List F)) :
    (Arr.ofMat (r :: M)).width = .ok (some r.length) := by
  simp [Arr.width, shape_ofMat_cons]

theorem checkArray_ofMat_cons (r : List F) (M : List (List F)) (h : HandleSparse) :
    checkArray (Arr.ofMat (r :: M)) h = .ok (Arr.ofMat (r :: M)) := by
  simp [checkArray, Arr.ofMat]

theorem checkArray_ofMat {M : List (List F)} (hM : M ≠ []) (h : HandleSparse) :
    checkArray (Arr.ofMat M) h = .ok (Arr.ofMat M) := by
  cases M with
  | nil => exact absurd rfl hM
  | cons r M => exact checkArray_ofMat_cons r M h

theorem width_ofMat {M : List (List F)} (hM : M ≠ []) {w : Nat} (hw : Rect w M) :
    (Arr.ofMat M).width = .ok (some w) := by
  cases M with
  | nil => exact absurd rfl hM
  | cons r M => rw [width_ofMat_cons, hw r (by simp)]

theorem shape_ofMat {M : List (List F)} (hM : M ≠ []) {w : Nat} (hw : Rect w M) :
    (Arr.ofMat M).shape = .ok (.d2 M.length (some w)) := by
  cases M with
  | nil => exact absurd rfl hM
  | cons r M => rw [shape_ofMat_cons, hw r (by simp)]; rfl

theorem shape_sparse_cons (d : Dict Int F) (ds : List (Dict Int F)) (n : Option Nat) (dt : DType) :
    (Arr.sparse (d :: ds) n dt).shape = .ok (.d2 (ds.length + 1) n) := by
  simp [Arr.shape, Arr.ndim, Arr.first, Arr.rows]

theorem width_sparse_cons (d : Dict Int F) (ds : List (Dict Int F)) (n : Option Nat) (dt : DType) :
    (Arr.sparse (d :: ds) n dt).width = .ok n := by
  simp [Arr.width, shape_sparse_cons]

theorem width_sparse {ds : List (Dict Int F)} (h : ds ≠ []) (n : Option Nat) (dt : DType) :
    (Arr.sparse ds n dt).width = .ok n := by
  cases ds with
  | nil => exact absurd rfl h
  | cons d ds => exact width_sparse_cons d ds n dt

theorem asDicts_map (ds : List (Dict Int F)) : asDicts (ds.map Row.dict) = .ok ds := by
  rw [asDicts, mapM_map', mapM_ok_fun]; simp

theorem sparseList_dicts [Arith F] {ds : List (Dict Int F)} (h : ds ≠ []) (n : Option Nat)
    (dt : DType) :
    sparseList (.list (ds.map Row.dict)) n (some dt) = .ok (.sparse ds n dt) := by
  cases ds with
  | nil => exact absurd rfl h
  | cons d ds =>
    have := asDicts_map (d :: ds)
    simp only [List.map_cons] at this
    simp [sparseList, Arr.first, Arr.rows, this]

theorem sparseList_dicts_nil [Arith F] (n : Option Nat) (dt : Option DType) :
    sparseList (.list ([] : List (Row F))) n dt = .error .indexError := by
  simp [sparseList, Arr.first, Arr.rows]

end arr

section zipstar
variable {α : Type}

theorem minLen_cons₂ (a b : List α) (M : List (List α)) :
    minLen (a :: b :: M) = min a.length (minLen (b :: M)) := rfl

theorem minLen_rect {w : Nat} {M : List (List α)} (hM : M ≠ []) (hw : Rect w M) :
    minLen M = w := by
  induction M with
  | nil => exact absurd rfl hM
  | cons r M ih =>
    cases M with
    | nil => simpa [minLen] using hw r (by simp)
    | cons r' M =>
      rw [minLen, ih (by simp) (fun x hx => hw x (by simp [hx])), hw r (by simp)]
      · simp
      · simp

theorem minLen_le {M : List (List α)} {r : List α} (h : r ∈ M) : minLen M ≤ r.length := by
  induction M with
  | nil => simp at h
  | cons a M ih =>
    cases M with
    | nil => simp at h; subst h; simp [minLen]
    | cons b M =>
      rw [minLen_cons₂]
      rcases List.mem_cons.1 h with rfl | h
      · exact Nat.min_le_left _ _
      · exact Nat.le_trans (Nat.min_le_right _ _) (ih h)

theorem zipStar_length {w : Nat} {M : List (List α)} (hM : M ≠ []) (hw : Rect w M) :
    (zipStar M).length = w := by simp [zipStar, minLen_rect hM hw]

theorem filterMap_getElem_length {M : List (List α)} {j : Nat} (h : ∀ r ∈ M, j < r.length) :
    (M.filterMap fun r => r[j]?).length = M.length := by
  induction M with
  | nil => rfl
  | cons r M ih =>
    have hr : r[j]? = some (r[j]'(h r (by simp))) := List.getElem?_eq_getElem _
    simp [hr, ih (fun x hx => h x (by simp [hx]))]

theorem filterMap_getElem_getElem? {M : List (List α)} {j : Nat} (h : ∀ r ∈ M, j < r.length)
    (i : Nat) : (M.filterMap fun r => r[j]?)[i]? = (M[i]?).bind fun r => r[j]? := by
  induction M generalizing i with
  | nil => simp
  | cons r M ih =>
    have hr : r[j]? = some (r[j]'(h r (by simp))) := List.getElem?_eq_getElem _
    cases i with
    | zero => simp [hr]
    | succ i =>
      simp only [List.filterMap_cons, hr, List.getElem?_cons_succ]
      exact ih (fun x hx => h x (by simp [hx])) i

theorem zipStar_rect (M : List (List α)) : Rect M.length (zipStar M) := by
  intro c hc
  simp only [zipStar, List.mem_map, List.mem_range] at hc
  obtain ⟨j, hj, rfl⟩ := hc
  exact filterMap_getElem_length fun r hr => Nat.lt_of_lt_of_le hj (minLen_le hr)

/-- Entry `(j, i)` of `zip(*M)` is entry `(i, j)` of `M`. -/
theorem zipStar_entry (M : List (List α)) (j i : Nat) (hj : j < minLen M) :
    ((zipStar M)[j]?).bind (fun c => c[i]?) = (M[i]?).bind fun r => r[j]? := by
  simp only [zipStar, List.getElem?_map, List.getElem?_range hj, Option.map_some,
    Option.bind_some]
  exact filterMap_getElem_getElem? (fun r hr => Nat.lt_of_lt_of_le hj (minLen_le hr)) i

end zipstar

end PurePredict
