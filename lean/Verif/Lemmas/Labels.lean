import Verif.Spec.Labels
import Verif.Lemmas.Encode
/-
Encoding of labels.
-/
namespace PurePredict
open Spec
variable {S N : Type} [LinearOrder S] [LinearOrder N]

/-- the key, where there is one -/
def Lab.keyOr : Lab S N → LabKey S N
  | .str s => .str s
  | .num n _ => .num n
  | _ => .none

theorem Lab.key_ok {v : Lab S N} (h : v ≠ .unhashable) : v.key = .ok v.keyOr := by
  cases v <;> first | rfl | exact absurd rfl h

theorem Lab.keys_ok {l : List (Lab S N)} (h : .unhashable ∉ l) : l.mapM Lab.key = .ok (l.map Lab.keyOr) :=
  mapM_ok_map fun v hv => Lab.key_ok fun e => h (e ▸ hv)

theorem Lab.keys_error {l : List (Lab S N)} (h : .unhashable ∈ l) : l.mapM Lab.key = .error .typeError :=
  mapM_error_same h rfl fun y _ e he => by cases y <;> cases he; rfl

theorem equal_iff {a b : Lab S N} (ha : a ≠ .unhashable) (hb : b ≠ .unhashable) : Equal a b ↔ a.keyOr = b.keyOr := by
  constructor
  · rintro (_ | _ | _) <;> rfl
  · intro h
    cases a <;> cases b <;> simp [Lab.keyOr] at h ha hb
    · subst h; exact .str
    · subst h; exact .num
    · exact .none

theorem Spec.Equal.hashable {a b : Lab S N} (h : Equal a b) : a ≠ .unhashable ∧ b ≠ .unhashable := by cases h <;> simp

/-! ### Sets -/

/-- The fold that builds a set. -/
theorem set_fold (l : List (Lab S N)) (hl : .unhashable ∉ l) :
    ∃ r : List (Lab S N), pySet l = .ok r ∧ (r.map Lab.keyOr).Nodup ∧ (∀ v ∈ l, v.keyOr ∈ r.map Lab.keyOr) ∧
      ∀ x ∈ r, ∃ i : Nat, l[i]? = some x ∧ ∀ j < i, ∀ y, l[j]? = some y → x.keyOr ≠ y.keyOr := by
  have e : ∀ l : List (Lab S N), ∃ r : List (Lab S N), ((l.map Lab.keyOr).zip l).foldl
      (fun (acc : Dict (LabKey S N) (Lab S N)) p => if (acc.get? p.1).isSome then acc else acc ++ [p]) [] = r.map (fun v => (v.keyOr, v)) ∧
      (r.map Lab.keyOr).Nodup ∧ (∀ v ∈ l, v.keyOr ∈ r.map Lab.keyOr) ∧
      ∀ x ∈ r, ∃ i : Nat, l[i]? = some x ∧ ∀ j < i, ∀ y, l[j]? = some y → x.keyOr ≠ y.keyOr := by
    intro l
    induction l using List.reverseRecOn with
    | nil => exact ⟨[], rfl, by simp, by simp, by simp⟩
    | append_singleton l a ih =>
      obtain ⟨r, h1, h2, h3, h4⟩ := ih
      have hz : ((l ++ [a]).map Lab.keyOr).zip (l ++ [a]) = (l.map Lab.keyOr).zip l ++ [(a.keyOr, a)] := by
        rw [List.map_append, List.zip_append (by simp)]; rfl
      rw [hz, List.foldl_append, h1]
      have old : ∀ x ∈ r, ∃ i : Nat, (l ++ [a])[i]? = some x ∧ ∀ j < i, ∀ y, (l ++ [a])[j]? = some y → x.keyOr ≠ y.keyOr := by
        intro x hx
        obtain ⟨i, hi, hj⟩ := h4 x hx
        have hlt := (List.getElem?_eq_some_iff.1 hi).1
        refine ⟨i, by rw [List.getElem?_append_left hlt, hi], fun j hji y hy => hj j hji y ?_⟩
        rwa [List.getElem?_append_left (hji.trans hlt)] at hy
      have hk : (Dict.get? (r.map fun v => (v.keyOr, v)) a.keyOr).isSome ↔ a.keyOr ∈ r.map Lab.keyOr := by
        rw [Option.isSome_iff_ne_none, ne_eq, Dict.get?_eq_none_iff, not_not]
        simp [Dict.keys]
      by_cases hm : a.keyOr ∈ r.map Lab.keyOr
      · refine ⟨r, by simp only [List.foldl_cons, List.foldl_nil, hk.2 hm, if_true], h2, fun v hv => ?_, old⟩
        rcases List.mem_append.1 hv with hv | hv
        · exact h3 v hv
        · rw [List.mem_singleton.1 hv]; exact hm
      · refine ⟨r ++ [a], ?_, ?_, fun v hv => ?_, fun x hx => ?_⟩
        · simp only [List.foldl_cons, List.foldl_nil]
          rw [if_neg (fun h => hm (hk.1 h))]
          simp
        · rw [List.map_append, List.nodup_append]
          refine ⟨h2, by simp, fun x hx y hy => ?_⟩
          simp only [List.map_cons, List.map_nil, List.mem_singleton] at hy
          rintro rfl
          exact hm (hy ▸ hx)
        · rw [List.map_append, List.mem_append]
          rcases List.mem_append.1 hv with hv | hv
          · exact .inl (h3 v hv)
          · rw [List.mem_singleton.1 hv]; simp
        · rcases List.mem_append.1 hx with hx | hx
          · exact old x hx
          · rw [List.mem_singleton.1 hx]
            refine ⟨l.length, by simp, fun j hj y hy e => hm ?_⟩
            rw [List.getElem?_append_left hj] at hy
            rw [e]
            exact h3 y (List.mem_of_getElem? hy)
  obtain ⟨r, h1, h2, h3, h4⟩ := e l
  refine ⟨r, ?_, h2, h3, h4⟩
  simp only [pySet, Lab.keys_ok hl, py_ok_bind, h1, py_pure, List.map_map]
  exact congrArg Except.ok ((List.map_congr_left fun _ _ => rfl).trans (List.map_id _))

theorem set_error {l : List (Lab S N)} (hl : .unhashable ∈ l) : pySet l = .error .typeError := by
  simp only [pySet, Lab.keys_error hl]; rfl

/-! ### Sorting -/

theorem Spec.SameKind.symm {a b : Lab S N} (h : SameKind a b) : SameKind b a := by cases h <;> constructor
theorem Spec.SameKind.trans {a b c : Lab S N} (h : SameKind a b) (h' : SameKind b c) : SameKind a c := by cases h <;> cases h' <;> constructor

theorem less_error {a b : Lab S N} (h : ¬ SameKind a b) : a.less b = .error .typeError := by
  cases a <;> cases b <;> first | rfl | exact absurd (by constructor) h

/-- Different values of one kind compare. -/
theorem less_ok {a b : Lab S N} (h : SameKind a b) (hne : a.keyOr ≠ b.keyOr) :
    (a.less b = .ok true ∧ LessThan a b) ∨ (a.less b = .ok false ∧ LessThan b a) := by
  cases h with
  | @str s t =>
    rcases lt_trichotomy s t with h | h | h
    · exact .inl ⟨by simp [Lab.less, h], .str h⟩
    · exact absurd (by rw [h]) hne
    · exact .inr ⟨by simp [Lab.less, h.le], .str h⟩
  | @num m n k k' =>
    rcases lt_trichotomy m n with h | h | h
    · exact .inl ⟨by simp [Lab.less, h], .num h⟩
    · exact absurd (by rw [h]; rfl) hne
    · exact .inr ⟨by simp [Lab.less, h.le], .num h⟩
  | none => exact absurd rfl hne

theorem Spec.LessThan.trans {a b c : Lab S N} (h : LessThan a b) (h' : LessThan b c) : LessThan a c := by
  cases h with
  | str h => cases h' with | str h' => exact .str (h.trans h')
  | num h => cases h' with | num h' => exact .num (h.trans h')

theorem Spec.LessThan.kind {a b : Lab S N} (h : LessThan a b) : SameKind a b := by cases h <;> constructor

theorem Spec.LessThan.irrefl {a b : Lab S N} (h : LessThan a b) : a.keyOr ≠ b.keyOr := by
  cases h with
  | str h => simpa [Lab.keyOr] using h.ne
  | num h => simpa [Lab.keyOr] using h.ne

theorem Spec.LessThan.asymm {a b : Lab S N} (h : LessThan a b) : ¬ LessThan b a := fun h' => (h.trans h').irrefl rfl

theorem insert_ok (x : Lab S N) {l : List (Lab S N)} (hl : l.Pairwise LessThan) (hk : ∀ y ∈ l, SameKind x y) (hd : ∀ y ∈ l, x.keyOr ≠ y.keyOr) :
    ∃ r, pyInsert x l = .ok r ∧ r.Perm (x :: l) ∧ r.Pairwise LessThan := by
  induction l with
  | nil => exact ⟨[x], rfl, .refl _, by simp⟩
  | cons y ys ih =>
    rw [List.pairwise_cons] at hl
    rcases less_ok (hk y (by simp)) (hd y (by simp)) with ⟨h, hb⟩ | ⟨h, hb⟩
    · refine ⟨x :: y :: ys, by simp only [pyInsert, h, py_ok_bind, if_true]; rfl, .refl _, ?_⟩
      refine List.pairwise_cons.2 ⟨fun z hz => ?_, List.pairwise_cons.2 hl⟩
      rcases List.mem_cons.1 hz with rfl | hz
      · exact hb
      · exact hb.trans (hl.1 z hz)
    · obtain ⟨r, hr, hp, hs⟩ := ih hl.2 (fun z hz => hk z (by simp [hz])) (fun z hz => hd z (by simp [hz]))
      refine ⟨y :: r, by simp only [pyInsert, h, py_ok_bind, hr]; rfl, ((hp.cons y).trans (.swap x y ys)), ?_⟩
      refine List.pairwise_cons.2 ⟨fun z hz => ?_, hs⟩
      rcases List.mem_cons.1 (hp.subset hz) with rfl | hz
      · exact hb
      · exact hl.1 z hz

theorem sorted_ok {l : List (Lab S N)} (hk : Sortable l) (hd : (l.map Lab.keyOr).Nodup) :
    ∃ r, pySorted l = .ok r ∧ r.Perm l ∧ r.Pairwise LessThan := by
  induction l with
  | nil => exact ⟨[], rfl, .refl _, .nil⟩
  | cons x xs ih =>
    rw [List.map_cons, List.nodup_cons] at hd
    obtain ⟨r, hr, hp, hs⟩ := ih (fun a ha b hb => hk a (by simp [ha]) b (by simp [hb])) hd.2
    obtain ⟨q, hq, hqp, hqs⟩ := insert_ok x hs (fun y hy => hk x (by simp) y (by simp [hp.subset hy]))
      (fun y hy e => hd.1 (e ▸ List.mem_map_of_mem (hp.subset hy)))
    exact ⟨q, by simp only [pySorted, hr, py_ok_bind, hq], hqp.trans (hp.cons x), hqs⟩

theorem sorted_error {l : List (Lab S N)} (hd : (l.map Lab.keyOr).Nodup) (hn : ¬ Sortable l) (hu : .unhashable ∉ l) : pySorted l = .error .typeError := by
  induction l with
  | nil => exact absurd (fun a ha => by simp at ha) hn
  | cons x xs ih =>
    rw [List.map_cons, List.nodup_cons] at hd
    by_cases h : Sortable xs
    · obtain ⟨r, hr, hp, hs⟩ := sorted_ok h hd.2
      simp only [pySorted, hr, py_ok_bind]
      have : ∃ y ∈ xs, ¬ SameKind x y := by
        by_contra hc
        push Not at hc
        refine hn fun a ha b hb => ?_
        have hx : SameKind x x := by
          cases x with
          | unhashable => exact absurd (by simp) hu
          | _ => constructor
        rcases List.mem_cons.1 ha with h1 | h1 <;> rcases List.mem_cons.1 hb with h2 | h2
        · rw [h1, h2]; exact hx
        · rw [h1]; exact hc b h2
        · rw [h2]; exact (hc a h1).symm
        · exact h a h1 b h2
      obtain ⟨y, hy, hxy⟩ := this
      cases r with
      | nil => exact absurd hp.symm.subset (by intro h; exact absurd (h hy) (by simp))
      | cons z zs =>
        have hz : ¬ SameKind x z := fun e => hxy (e.trans (h z (hp.subset (by simp)) y hy))
        simp only [pyInsert, less_error hz]
        rfl
    · simp only [pySorted, ih hd.2 h (fun e => hu (by simp [e]))]
      rfl

theorem sorted_unique {l l' r r' : List (Lab S N)} (hp : l.Perm l') (h : r.Perm l) (h' : r'.Perm l') (hs : r.Pairwise LessThan) (hs' : r'.Pairwise LessThan) : r = r' :=
  (h.trans (hp.trans h'.symm)).eq_of_pairwise (fun _ _ _ _ h1 h2 => absurd h2 h1.asymm) hs hs'

/-! ### The table -/

theorem table_snoc {C : Type} [DecidableEq C] (l : List C) (a : C) : encodeTable (l ++ [a]) = (encodeTable l).set a l.length := by
  unfold encodeTable Dict.ofList
  rw [List.zipIdx_append, List.foldl_append]
  simp

theorem table_get {C : Type} [DecidableEq C] (l : List C) (k : C) :
    (∀ c, (encodeTable l).get? k = some c ↔ l[c]? = some k ∧ ∀ d > c, l[d]? ≠ some k) ∧ ((encodeTable l).get? k = none ↔ k ∉ l) := by
  induction l using List.reverseRecOn with
  | nil => simp [encodeTable, Dict.ofList]
  | append_singleton l a ih =>
    rw [table_snoc, Dict.get?_set]
    by_cases h : a = k
    · subst h
      rw [if_pos rfl]
      refine ⟨fun c => ⟨fun e => ?_, fun ⟨h1, h2⟩ => ?_⟩, by simp⟩
      · cases e
        refine ⟨by simp, fun d hd => ?_⟩
        rw [List.getElem?_eq_none (by simp; omega)]
        simp
      · have hc := (List.getElem?_eq_some_iff.1 h1).1
        simp only [List.length_append, List.length_cons, List.length_nil] at hc
        by_cases hcl : c = l.length
        · rw [hcl]
        · exact absurd (by simp) (h2 l.length (by omega))
    · rw [if_neg h]
      refine ⟨fun c => ?_, by rw [ih.2]; simp [Ne.symm h]⟩
      rw [ih.1]
      have key : ∀ d : Nat, (l ++ [a])[d]? = some k ↔ l[d]? = some k := by
        intro d
        rcases lt_trichotomy d l.length with hd | hd | hd
        · rw [List.getElem?_append_left hd]
        · subst hd; simp [h]
        · rw [List.getElem?_eq_none (by simp; omega), List.getElem?_eq_none (by omega)]
      simp only [ne_eq, key]

end PurePredict
