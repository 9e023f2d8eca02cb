import Verif.Lemmas.Labels
/-
C105: the label helpers `_encode` and `_encode_check_unknown`: sorted distinct values, codes in the order of the values,
refusals, and values that are not known.
-/
namespace PurePredict
open Spec
variable {S N : Type} [LinearOrder S] [LinearOrder N] {order : List (Lab S N) → List (Lab S N)}

theorem Spec.Sortable.hashable {values : List (Lab S N)} (h : Sortable values) : .unhashable ∉ values := fun hm => by
  have := h _ hm _ hm
  cases this

theorem Spec.SomeOrder.sortable {values : List (Lab S N)} (ho : SomeOrder order) (h : Sortable values) :
    ∃ r u, pySet values = .ok r ∧ pySorted (order r) = .ok u ∧ u.Perm r ∧ SortedDistinct values u := by
  have hu := h.hashable
  obtain ⟨r, h1, h2, h3, h4⟩ := set_fold values hu
  have hmem : ∀ x ∈ r, x ∈ values := fun x hx => by
    obtain ⟨i, hi, -⟩ := h4 x hx
    exact List.mem_of_getElem? hi
  have hp := ho r
  obtain ⟨u, h5, h6, h7⟩ := sorted_ok (l := order r) (fun a ha b hb => h a (hmem a (hp.subset ha)) b (hmem b (hp.subset hb)))
    (((hp.map Lab.keyOr).nodup_iff).2 h2)
  have hur := h6.trans hp
  refine ⟨r, u, h1, h5, hur, h7, fun v hv => ?_, fun x hx => ?_⟩
  · obtain ⟨x, hx, e⟩ := List.mem_map.1 (h3 v hv)
    exact ⟨x, hur.symm.subset hx, (equal_iff (fun e => hu (e ▸ hv)) (fun e => hu (e ▸ hmem x hx))).2 e.symm⟩
  · obtain ⟨i, hi, hj⟩ := h4 x (hur.subset hx)
    exact ⟨i, hi, fun j hji y hy e => hj j hji y hy ((equal_iff e.hashable.1 e.hashable.2).1 e)⟩

theorem Spec.Equal.sym {a b : Lab S N} (h : Equal a b) : Equal b a := by cases h <;> constructor

theorem codes_iff {values u : List (Lab S N)} (hu : .unhashable ∉ u) (codes : List Nat) :
    labCodes values u = .ok codes ↔ List.Forall₂ (LastAt u) values codes := by
  rw [labCodes, Lab.keys_ok hu, py_ok_bind, mapM_ok_iff]
  refine ⟨fun h => h.imp fun v c hvc => ?_, fun h => h.imp fun v c hvc => ?_⟩
  · have hv : v ≠ .unhashable := by rintro rfl; cases hvc
    rw [Lab.key_ok hv, py_ok_bind] at hvc
    cases hg : (encodeTable (u.map Lab.keyOr)).get? v.keyOr with
    | none => rw [hg] at hvc; cases hvc
    | some i =>
      rw [hg] at hvc
      cases hvc
      obtain ⟨h1, h2⟩ := ((table_get _ _).1 _).1 hg
      rw [List.getElem?_map] at h1
      obtain ⟨x, hx, e⟩ := Option.map_eq_some_iff.1 h1
      refine ⟨⟨x, hx, (equal_iff hv (fun e => hu (e ▸ List.mem_of_getElem? hx))).2 e.symm⟩, fun d hd y hy he => ?_⟩
      refine h2 d hd ?_
      rw [List.getElem?_map, hy, Option.map_some, (equal_iff he.hashable.1 he.hashable.2).1 he]
  · obtain ⟨⟨x, hx, e⟩, h2⟩ := hvc
    have hv := e.hashable.1
    rw [Lab.key_ok hv, py_ok_bind]
    have : (encodeTable (u.map Lab.keyOr)).get? v.keyOr = some c := by
      refine ((table_get _ _).1 _).2 ⟨?_, fun d hd hy => ?_⟩
      · rw [List.getElem?_map, hx, Option.map_some, (equal_iff e.hashable.1 e.hashable.2).1 e]
      · rw [List.getElem?_map] at hy
        obtain ⟨y, hy, e'⟩ := Option.map_eq_some_iff.1 hy
        exact h2 d hd y hy ((equal_iff hv (fun e => hu (e ▸ List.mem_of_getElem? hy))).2 e'.symm)
    rw [this]

theorem encodeLab_eq (values : List (Lab S N)) (uniques : Option (List (Lab S N))) (encode cu : Bool) :
    encodeLab order values uniques encode cu = encodePython order values uniques encode := by
  unfold encodeLab
  split
  · rename_i h; rw [h]
  · rfl

theorem codes_exist {α β : Type} {R : α → β → Prop} {l : List α} (h : ∀ a ∈ l, ∃ b, R a b) : ∃ r, List.Forall₂ R l r := by
  induction l with
  | nil => exact ⟨[], .nil⟩
  | cons a l ih =>
    obtain ⟨b, hb⟩ := h a (by simp)
    obtain ⟨r, hr⟩ := ih fun x hx => h x (by simp [hx])
    exact ⟨b :: r, .cons hb hr⟩

/-- **C105**: without given uniques, strings, numbers or `None`s are encoded: the uniques are the different values in increasing
order, each in its first spelling, and each value's code is its position among them. -/
theorem C105_encoded (ho : SomeOrder order) {values : List (Lab S N)} (h : Sortable values) :
    ∃ u codes, SortedDistinct values u ∧ (∀ cu, encodeLab order values .none false cu = .ok (.uniques u)) ∧
      (∀ cu, encodeLab order values .none true cu = .ok (.both u codes)) ∧
      List.Forall₂ (fun v c => ∃ x, u[c]? = some x ∧ Equal v x) values codes := by
  obtain ⟨r, u, h1, h2, h3, h4⟩ := ho.sortable h
  have hm : ∀ x ∈ u, x ∈ values := fun x hx => by
    obtain ⟨i, hi, -⟩ := h4.first x hx
    exact List.mem_of_getElem? hi
  have hu : .unhashable ∉ u := fun e => h.hashable (hm _ e)
  have last : ∀ v ∈ values, ∃ c, LastAt u v c := fun v hv => by
    obtain ⟨x, hx, e⟩ := h4.complete v hv
    obtain ⟨c, hc, rfl⟩ := List.mem_iff_getElem.1 hx
    refine ⟨c, ⟨u[c], List.getElem?_eq_getElem hc, e⟩, fun d hd y hy he => ?_⟩
    obtain ⟨hd', rfl⟩ := List.getElem?_eq_some_iff.1 hy
    have hb := List.pairwise_iff_getElem.1 h4.increasing c d hc hd' hd
    exact hb.irrefl (((equal_iff e.hashable.1 e.hashable.2).1 e).symm.trans ((equal_iff he.hashable.1 he.hashable.2).1 he))
  obtain ⟨codes, hc⟩ := codes_exist last
  have hmatch : labUniques order values .none = .ok u := by rw [labUniques, h1, py_ok_bind, h2]
  refine ⟨u, codes, h4, fun cu => ?_, fun cu => ?_, hc.imp fun v c h => h.1⟩
  · rw [encodeLab_eq]
    simp only [encodePython, hmatch, py_ok_bind]
    rfl
  · rw [encodeLab_eq]
    simp only [encodePython, hmatch, py_ok_bind, if_true, (codes_iff hu codes).2 hc]
    rfl

/-- **C105**: such codes are ordered as the values are. -/
theorem C105_order {values u : List (Lab S N)} {codes : List Nat} (hs : SortedDistinct values u)
    (hc : List.Forall₂ (fun v c => ∃ x, u[c]? = some x ∧ Equal v x) values codes) {i j c d : Nat} {v w : Lab S N}
    (hi : values[i]? = some v) (hj : values[j]? = some w) (hci : codes[i]? = some c) (hdj : codes[j]? = some d) :
    (c < d ↔ LessThan v w) ∧ (c = d ↔ Equal v w) := by
  have get : ∀ {i c : Nat} {v : Lab S N}, values[i]? = some v → codes[i]? = some c → ∃ x, u[c]? = some x ∧ Equal v x := by
    intro i c v hi hc'
    obtain ⟨a, b⟩ := List.getElem?_eq_some_iff.1 hi
    obtain ⟨a', b'⟩ := List.getElem?_eq_some_iff.1 hc'
    rw [← b, ← b']
    exact (List.forall₂_iff_get.1 hc).2 i a a'
  obtain ⟨x, hx, ex⟩ := get hi hci
  obtain ⟨y, hy, ey⟩ := get hj hdj
  obtain ⟨hc', rfl⟩ := List.getElem?_eq_some_iff.1 hx
  obtain ⟨hd', rfl⟩ := List.getElem?_eq_some_iff.1 hy
  have kx := (equal_iff ex.hashable.1 ex.hashable.2).1 ex
  have ky := (equal_iff ey.hashable.1 ey.hashable.2).1 ey
  have lift : LessThan u[c] u[d] ↔ LessThan v w := by
    generalize u[c] = a at *
    generalize u[d] = b at *
    cases ex <;> cases ey <;> constructor <;> intro h <;> cases h <;> constructor <;> assumption
  have pw := List.pairwise_iff_getElem.1 hs.increasing
  refine ⟨⟨fun h => lift.1 (pw c d hc' hd' h), fun h => ?_⟩, ⟨fun h => ?_, fun h => ?_⟩⟩
  · rcases lt_trichotomy c d with h' | h' | h'
    · exact h'
    · subst h'
      exact absurd rfl (lift.2 h).irrefl
    · exact absurd (lift.2 h) (pw d c hd' hc' h').asymm
  · subst h
    exact (equal_iff ex.hashable.1 ey.hashable.1).2 (kx.trans ky.symm)
  · have e := (equal_iff h.hashable.1 h.hashable.2).1 h
    rcases lt_trichotomy c d with h' | h' | h'
    · exact absurd (kx.symm.trans (e.trans ky)) (pw c d hc' hd' h').irrefl
    · exact h'
    · exact absurd (ky.symm.trans (e.symm.trans kx)) (pw d c hd' hc' h').irrefl

/-- **C105**: the order in which Python iterates over sets has no influence, errors included. -/
theorem C105_set_order {order' : List (Lab S N) → List (Lab S N)} (ho : SomeOrder order) (ho' : SomeOrder order') (values : List (Lab S N)) (e cu : Bool) :
    encodeLab order values .none e cu = encodeLab order' values .none e cu := by
  have : labUniques order values .none = labUniques order' values .none := by
    unfold labUniques
    by_cases hu : .unhashable ∈ values
    · rw [set_error hu]; rfl
    · obtain ⟨r, h1, h2, -, h4⟩ := set_fold values hu
      have hmem : ∀ x ∈ r, x ∈ values := fun x hx => by
        obtain ⟨i, hi, -⟩ := h4 x hx
        exact List.mem_of_getElem? hi
      rw [h1, py_ok_bind, py_ok_bind]
      have n1 := ((ho r).map Lab.keyOr).nodup_iff.2 h2
      have n2 := ((ho' r).map Lab.keyOr).nodup_iff.2 h2
      by_cases hs : Sortable r
      · obtain ⟨u, a1, a2, a3⟩ := sorted_ok (l := order r) (fun a ha b hb => hs a ((ho r).subset ha) b ((ho r).subset hb)) n1
        obtain ⟨u', b1, b2, b3⟩ := sorted_ok (l := order' r) (fun a ha b hb => hs a ((ho' r).subset ha) b ((ho' r).subset hb)) n2
        rw [a1, b1, sorted_unique ((ho r).trans (ho' r).symm) a2 b2 a3 b3]
      · rw [sorted_error n1 (fun h => hs fun a ha b hb => h a ((ho r).symm.subset ha) b ((ho r).symm.subset hb)) (fun h => hu (hmem _ ((ho r).subset h))),
          sorted_error n2 (fun h => hs fun a ha b hb => h a ((ho' r).symm.subset ha) b ((ho' r).symm.subset hb)) (fun h => hu (hmem _ ((ho' r).subset h)))]
  rw [encodeLab_eq, encodeLab_eq]
  simp only [encodePython, this]

/-- **C105**: without given uniques, encoding raises exactly when some value cannot be hashed or two values are of different
kinds; the exception is TypeError. -/
theorem C105_refused (ho : SomeOrder order) (values : List (Lab S N)) (e cu : Bool) (x : PyErr) :
    encodeLab order values .none e cu = .error x ↔ x = .typeError ∧ ¬ Sortable values := by
  by_cases h : Sortable values
  · obtain ⟨u, codes, -, h1, h2, -⟩ := C105_encoded ho h
    cases e
    · simp [h1, h]
    · simp [h2, h]
  · have : labUniques order values .none = .error .typeError := by
      unfold labUniques
      by_cases hu : .unhashable ∈ values
      · rw [set_error hu]; rfl
      · obtain ⟨r, h1, h2, h3, h4⟩ := set_fold values hu
        have hmem : ∀ x ∈ r, x ∈ values := fun x hx => by
          obtain ⟨i, hi, -⟩ := h4 x hx
          exact List.mem_of_getElem? hi
        rw [h1, py_ok_bind]
        refine sorted_error (((ho r).map Lab.keyOr).nodup_iff.2 h2) (fun hs => h fun a ha b hb => ?_) (fun h => hu (hmem _ ((ho r).subset h)))
        obtain ⟨y, hy, ey⟩ := List.mem_map.1 (h3 a ha)
        obtain ⟨z, hz, ez⟩ := List.mem_map.1 (h3 b hb)
        have k1 := (equal_iff (fun e => hu (e ▸ hmem y hy)) (fun e => hu (e ▸ ha))).2 ey
        have k2 := (equal_iff (fun e => hu (e ▸ hmem z hz)) (fun e => hu (e ▸ hb))).2 ez
        have k := hs y ((ho r).symm.subset hy) z ((ho r).symm.subset hz)
        cases k1 <;> cases k2 <;> cases k <;> constructor
    rw [encodeLab_eq]
    simp only [encodePython, this]
    constructor
    · intro h'; cases h'; exact ⟨rfl, h⟩
    · rintro ⟨rfl, -⟩; rfl

/-- **C105**: given uniques are returned as they are, unchecked; values then get the position of the last entry equal to
them, and `check_unknown` makes no difference. -/
theorem C105_given (values u : List (Lab S N)) (cu : Bool) :
    encodeLab order values (some u) false cu = .ok (.uniques u) ∧
    ∀ r, encodeLab order values (some u) true cu = .ok r ↔ .unhashable ∉ u ∧ ∃ codes, r = .both u codes ∧ List.Forall₂ (LastAt u) values codes := by
  rw [encodeLab_eq, encodeLab_eq]
  refine ⟨rfl, fun r => ?_⟩
  simp only [encodePython, labUniques, py_ok_bind, if_true]
  by_cases hu : .unhashable ∈ u
  · have : labCodes values u = .error .typeError := by simp only [labCodes, Lab.keys_error hu]; rfl
    rw [this]
    simp [hu]
  · constructor
    · intro h
      cases hc : labCodes values u with
      | error x => rw [hc] at h; cases h
      | ok codes =>
        rw [hc] at h
        cases h
        exact ⟨hu, codes, rfl, (codes_iff hu codes).1 hc⟩
    · rintro ⟨-, codes, rfl, h⟩
      rw [(codes_iff hu codes).2 h]
      rfl

/-- **C105**: the first value without a code decides the exception: ValueError if it is not among the given uniques,
TypeError if it cannot be hashed; TypeError in any case if one of the uniques cannot. -/
theorem C105_given_refused (pre post u : List (Lab S N)) (v : Lab S N) (cu : Bool) :
    (.unhashable ∈ u → encodeLab order (pre ++ v :: post) (some u) true cu = .error .typeError) ∧
    (.unhashable ∉ u → (∀ a ∈ pre, ∃ c, LastAt u a c) →
      (v = .unhashable → encodeLab order (pre ++ v :: post) (some u) true cu = .error .typeError) ∧
      (v ≠ .unhashable → (∀ x ∈ u, ¬ Equal v x) → encodeLab order (pre ++ v :: post) (some u) true cu = .error .valueError)) := by
  rw [encodeLab_eq]
  simp only [encodePython, labUniques, py_ok_bind, if_true]
  refine ⟨fun hu => by simp only [labCodes, Lab.keys_error hu]; rfl, fun hu hp => ?_⟩
  obtain ⟨cs, hcs⟩ := codes_exist hp
  have e := (codes_iff hu cs).2 hcs
  simp only [labCodes, Lab.keys_ok hu, py_ok_bind] at e ⊢
  rw [mapM_append', e, py_ok_bind, mapM_cons']
  refine ⟨?_, fun hv hn => ?_⟩
  · rintro rfl; rfl
  · have : (encodeTable (u.map Lab.keyOr)).get? v.keyOr = none := by
      rw [(table_get _ _).2]
      intro hm
      obtain ⟨x, hx, ex⟩ := List.mem_map.1 hm
      exact hn x hx ((equal_iff hv (fun e => hu (e ▸ hx))).2 ex.symm)
    rw [Lab.key_ok hv, py_ok_bind, this]
    rfl

/-! ### Values that are not known -/

/-- **C105**: `_encode_check_unknown` lists every value that equals none of the uniques once, in some order; the mask marks the
values that do equal one. -/
theorem C105_unknown (ho : SomeOrder order) {values uniques : List (Lab S N)} (hv : .unhashable ∉ values) (hu : .unhashable ∉ uniques) :
    ∃ diff mask, encodeCheckUnknown order values uniques = .ok (diff, .none) ∧
      encodeCheckUnknown order values uniques true = .ok (diff, some mask) ∧
      diff.Pairwise (fun a b => ¬ Equal a b) ∧ (∀ a ∈ diff, a ∈ values ∧ ∀ x ∈ uniques, ¬ Equal a x) ∧
      (∀ v ∈ values, (∀ x ∈ uniques, ¬ Equal v x) → ∃ a ∈ diff, Equal v a) ∧
      List.Forall₂ (fun v b => b = true ↔ ∃ x ∈ uniques, Equal v x) values mask ∧ (diff = [] ↔ ∀ b ∈ mask, b = true) := by
  obtain ⟨r, h1, h2, h3, h4⟩ := set_fold values hv
  have hmem : ∀ x ∈ r, x ∈ values := fun x hx => by
    obtain ⟨i, hi, -⟩ := h4 x hx
    exact List.mem_of_getElem? hi
  have hr : .unhashable ∉ r := fun h => hv (hmem _ h)
  have known : ∀ v ∈ values, v.keyOr ∈ uniques.map Lab.keyOr ↔ ∃ x ∈ uniques, Equal v x := fun v hvm => by
    rw [List.mem_map]
    refine ⟨fun ⟨x, hx, e⟩ => ⟨x, hx, ?_⟩, fun ⟨x, hx, e⟩ => ⟨x, hx, ?_⟩⟩
    · exact (equal_iff (fun e => hv (e ▸ hvm)) (fun e => hu (e ▸ hx))).2 e.symm
    · exact ((equal_iff e.hashable.1 e.hashable.2).1 e).symm
  have hd : ((((r.map Lab.keyOr).zip r).filter fun p => !(uniques.map Lab.keyOr).contains p.1).map Prod.snd) =
      r.filter fun v => !(uniques.map Lab.keyOr).contains v.keyOr := by
    clear h1 h2 h3 h4 hmem hr
    induction r with
    | nil => rfl
    | cons a r ih =>
      simp only [List.map_cons, List.zip_cons_cons, List.filter_cons]
      split
      · rw [List.map_cons, ih]
      · exact ih
  set d0 := r.filter fun v => !(uniques.map Lab.keyOr).contains v.keyOr with hd0
  have hp := ho d0
  have memd : ∀ a, a ∈ order d0 ↔ a ∈ r ∧ ∀ x ∈ uniques, ¬ Equal a x := fun a => by
    rw [hp.mem_iff, hd0, List.mem_filter]
    refine and_congr_right fun har => ?_
    have := known a (hmem a har)
    simp only [Bool.not_eq_eq_eq_not, Bool.not_true, List.contains_eq_mem, decide_eq_false_iff_not]
    rw [this]
    push Not
    rfl
  have cover : ∀ v ∈ values, (∀ x ∈ uniques, ¬ Equal v x) → ∃ a ∈ order d0, Equal v a := fun v hvm hn => by
    obtain ⟨a, ha, e⟩ := List.mem_map.1 (h3 v hvm)
    have hva : Equal v a := (equal_iff (fun e => hv (e ▸ hvm)) (fun e => hr (e ▸ ha))).2 e.symm
    refine ⟨a, (memd a).2 ⟨ha, fun x hx hax => hn x hx ?_⟩, hva⟩
    exact (equal_iff hva.hashable.1 hax.hashable.2).2 (((equal_iff hva.hashable.1 hva.hashable.2).1 hva).trans ((equal_iff hax.hashable.1 hax.hashable.2).1 hax))
  have pairs : (order d0).Pairwise (fun a b => ¬ Equal a b) := by
    have n : ((order d0).map Lab.keyOr).Nodup := (hp.map Lab.keyOr).nodup_iff.2 ((List.filter_sublist.map Lab.keyOr).nodup h2)
    rw [List.Nodup, List.pairwise_map] at n
    exact n.imp fun h e => h ((equal_iff e.hashable.1 e.hashable.2).1 e)
  have mask1 : values.mapM (fun v => do return (uniques.map Lab.keyOr).contains (← v.key)) = .ok (values.map fun v => (uniques.map Lab.keyOr).contains v.keyOr) :=
    mapM_ok_map fun v hvm => by rw [Lab.key_ok (fun e => hv (e ▸ hvm))]; rfl
  have maskSpec : ∀ v ∈ values, (uniques.map Lab.keyOr).contains v.keyOr = true ↔ ∃ x ∈ uniques, Equal v x := fun v hvm => by
    rw [List.contains_iff_mem, known v hvm]
  by_cases hempty : order d0 = []
  · have all : ∀ v ∈ values, ∃ x ∈ uniques, Equal v x := fun v hvm => by
      by_contra hc
      push Not at hc
      obtain ⟨a, ha, -⟩ := cover v hvm hc
      rw [hempty] at ha
      simp at ha
    refine ⟨order d0, values.map fun _ => true, ?_, ?_, pairs, fun a ha => ⟨hmem a ((memd a).1 ha).1, ((memd a).1 ha).2⟩, cover, ?_, ?_⟩
    · simp only [encodeCheckUnknown, Lab.keys_ok hu, h1, Lab.keys_ok hr, py_ok_bind, hd]; rfl
    · simp only [encodeCheckUnknown, Lab.keys_ok hu, h1, Lab.keys_ok hr, py_ok_bind, hd, if_true, hempty]; rfl
    · rw [List.forall₂_map_right_iff, List.forall₂_same]
      exact fun v hvm => ⟨fun _ => all v hvm, fun _ => rfl⟩
    · simp [hempty]
  · refine ⟨order d0, values.map fun v => (uniques.map Lab.keyOr).contains v.keyOr, ?_, ?_, pairs, fun a ha => ⟨hmem a ((memd a).1 ha).1, ((memd a).1 ha).2⟩, cover, ?_, ?_⟩
    · simp only [encodeCheckUnknown, Lab.keys_ok hu, h1, Lab.keys_ok hr, py_ok_bind, hd]; rfl
    · have : (order d0).isEmpty = false := by
        rw [Bool.eq_false_iff, ne_eq, List.isEmpty_iff]; exact hempty
      simp only [encodeCheckUnknown, Lab.keys_ok hu, h1, Lab.keys_ok hr, py_ok_bind, hd, if_true, this, Bool.false_eq_true, if_false, mask1]
      rfl
    · rw [List.forall₂_map_right_iff, List.forall₂_same]
      exact maskSpec
    · refine ⟨fun h => absurd h hempty, fun h => ?_⟩
      obtain ⟨a, ha⟩ := List.exists_mem_of_ne_nil _ hempty
      obtain ⟨h5, h6⟩ := (memd a).1 ha
      obtain ⟨x, hx, e⟩ := (maskSpec a (hmem a h5)).1 (h _ (List.mem_map_of_mem (hmem a h5)))
      exact absurd e (h6 x hx)

/-- **C105**: it raises TypeError if a value or one of the uniques cannot be hashed. -/
theorem C105_unknown_refused {values uniques : List (Lab S N)} (h : .unhashable ∈ values ∨ .unhashable ∈ uniques) (m : Bool) :
    encodeCheckUnknown order values uniques m = .error .typeError := by
  unfold encodeCheckUnknown
  by_cases hu : .unhashable ∈ uniques
  · rw [Lab.keys_error hu]; rfl
  · rw [Lab.keys_ok hu, py_ok_bind, set_error (h.resolve_right hu)]; rfl

/-! ### How the encoders use them -/

/-- **C105**: on strings these are the helpers of the encoder model (C28, C29). -/
theorem C105_encoders (ho : SomeOrder order) (values cats : List S) :
    (∃ diff, encodeCheckUnknown order (values.map (Lab.str (N := N))) (cats.map .str) true = .ok (diff, some (checkUnknownMask values cats))) ∧
    encodeLab order (values.map (Lab.str (N := N))) (some (cats.map .str)) true false =
      (encodeValues values cats).map fun codes => .both (cats.map .str) codes := by
  have hn : ∀ l : List S, (Lab.unhashable : Lab S N) ∉ l.map .str := fun l h => by simp at h
  constructor
  · obtain ⟨diff, mask, -, h1, -, -, -, h2, -⟩ := C105_unknown ho (hn values) (hn cats)
    refine ⟨diff, h1.trans ?_⟩
    rw [List.forall₂_map_left_iff] at h2
    have : mask = checkUnknownMask values cats := by
      rw [mask_eq]
      clear h1
      induction h2 with
      | nil => rfl
      | @cons v b _ _ h _ ih =>
        rw [List.map_cons, ih]
        congr 1
        rw [Bool.eq_iff_iff, h]
        simp only [decide_eq_true_eq, List.mem_map]
        constructor
        · rintro ⟨x, ⟨c, hc, rfl⟩, e⟩
          cases e
          exact hc
        · exact fun hc => ⟨_, ⟨v, hc, rfl⟩, .str⟩
    rw [this]
  · rw [encodeLab_eq]
    simp only [encodePython, labUniques, py_ok_bind, if_true]
    have : labCodes (values.map (Lab.str (N := N))) (cats.map .str) = encodeValues values cats := by
      unfold labCodes encodeValues
      rw [Lab.keys_ok (hn cats), py_ok_bind, mapM_map']
      refine mapM_congr fun v _ => ?_
      show (match (encodeTable _).get? (LabKey.str v) with
        | some i => (.ok i : Py Nat)
        | none => .error .valueError) = _
      have hg : (encodeTable ((cats.map (Lab.str (N := N))).map Lab.keyOr)).get? (LabKey.str v) = (encodeTable cats).get? v := by
        have inj : ∀ (d : Nat), ((cats.map (Lab.str (N := N))).map Lab.keyOr)[d]? = some (LabKey.str v) ↔ cats[d]? = some v := by
          intro d
          rw [List.map_map, List.getElem?_map]
          cases cats[d]? with
          | none => simp
          | some c => simp [Lab.keyOr]
        ext c
        rw [(table_get _ _).1, (table_get _ _).1]
        simp only [ne_eq, inj]
      rw [hg]
      cases (encodeTable cats).get? v <;> rfl
    rw [this]
    cases encodeValues values cats <;> rfl

/-! ### Cases that meet the hypotheses -/

/-- 3, 1.0, 1, 3 are sorted as 1.0, 3; the codes are 1, 0, 0, 1. -/
example : Sortable ([.num 3 0, .num 1 1, .num 1 0, .num 3 0] : List (Lab Nat Nat)) ∧
    encodeLab List.reverse ([.num 3 0, .num 1 1, .num 1 0, .num 3 0] : List (Lab Nat Nat)) .none true =
      .ok (.both [.num 1 1, .num 3 0] [1, 0, 0, 1]) := by
  refine ⟨fun a ha b hb => ?_, rfl⟩
  simp only [List.mem_cons, List.not_mem_nil, or_false] at ha hb
  rcases ha with rfl | rfl | rfl | rfl <;> rcases hb with rfl | rfl | rfl | rfl <;> constructor

/-- a string among numbers; a value that is not known, behind and before one that cannot be hashed -/
example : ¬ Sortable ([.num 3 0, .str 1] : List (Lab Nat Nat)) ∧
    encodeLab id ([.num 3 0, .str 1] : List (Lab Nat Nat)) = .error .typeError ∧
    encodeLab id ([.str 1, .str 2, .unhashable] : List (Lab Nat Nat)) (some [.str 1]) true = .error .valueError ∧
    encodeLab id ([.str 1, .unhashable, .str 2] : List (Lab Nat Nat)) (some [.str 1]) true = .error .typeError := by
  refine ⟨fun h => ?_, rfl, rfl, rfl⟩
  have := h (.num 3 0) (by simp) (.str 1) (by simp)
  cases this

example : encodeCheckUnknown List.reverse ([.str 5, .str 1, .str 7, .str 5] : List (Lab Nat Nat)) [.str 1, .str 2] true =
    .ok ([.str 7, .str 5], some [false, true, false, false]) := rfl

end PurePredict
