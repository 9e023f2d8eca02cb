import Verif.Spec.Construct
import Verif.Lemmas.Convert
/-
Lemmas about the constructors of single estimators: each is a sequence of steps followed by
`check_types`, and each step does what the corresponding field of the specification says.
-/
namespace PurePredict
open Spec
variable {F : Type}

/-! ### `check_types` accepts exactly plain data -/

theorem views_eq (l : List (PVal F)) : PVal.views l = l.map PVal.view := by
  induction l with
  | nil => rfl
  | cons v l ih => rw [PVal.views, ih, List.map_cons]

theorem checkTypesAll_views (l : List (PVal F)) :
    checkTypesAll (PVal.views l) = .ok () ↔ ∀ v ∈ l, checkTypes v.view = .ok () := by
  rw [views_eq, checkTypesAll_ok_iff]; simp

theorem plain_check {v : PVal F} (h : Plain v) : checkTypes v.view = .ok () := by
  induction h with
  | none => rfl
  | bool | int | float | str | npFloat | npStr => rw [PVal.view]; decide
  | cls d h => cases d with
    | uncallable => exact absurd rfl h
    | plain | numpy => rw [PVal.view]; decide; simp
  | list l _ ih => rw [PVal.view, checkTypes, checkTypesAll_views]; exact ih
  | tuple l _ ih => rw [PVal.view, checkTypes, checkTypesAll_views]; exact ih
  | dict ks vs _ _ ih1 ih2 =>
    rw [PVal.view, checkTypes, (checkTypesAll_views ks).2 ih1, (checkTypesAll_views vs).2 ih2]; rfl
  | pure c ns vs _ ih => rw [PVal.view, checkTypes_pureCls, checkTypesAll_views]; exact ih

mutual
theorem check_plain : (v : PVal F) → checkTypes v.view = .ok () → Plain v
  | .none, _ => .none
  | .bool _, _ => .bool _
  | .int _, _ => .int _
  | .float _, _ => .float _
  | .str _, _ => .str _
  | .npFloat _, _ => .npFloat _
  | .npStr _, _ => .npStr _
  | .cls (.plain _), _ => .cls _ (by simp)
  | .cls (.numpy _ _), _ => .cls _ (by simp)
  | .cls .uncallable, h => absurd h (by rw [PVal.view]; decide)
  | .list l, h => .list l (checks_plain l (by simpa only [PVal.view, checkTypes] using h))
  | .tuple l, h => .tuple l (checks_plain l (by simpa only [PVal.view, checkTypes] using h))
  | .dict ks vs, h => by
    rw [PVal.view, checkTypes] at h
    obtain ⟨_, h1, h2⟩ := bind_ok_iff.1 h
    exact .dict ks vs (checks_plain ks h1) (checks_plain vs h2)
  | .npScalar _, h => absurd h (by rw [PVal.view]; decide)
  | .ndarray _, h => absurd h (by rw [PVal.view]; decide)
  | .spmatrix _, h => absurd h (by rw [PVal.view]; decide)
  | .set _, h => absurd h (by rw [PVal.view]; decide)
  | .func, h => absurd h (by rw [PVal.view]; decide)
  | .obj .., h => absurd h (by rw [PVal.view]; decide)
  | .pure c ns vs, h => .pure c ns vs (checks_plain vs (by rwa [PVal.view, checkTypes_pureCls] at h))
theorem checks_plain : (l : List (PVal F)) → checkTypesAll (PVal.views l) = .ok () → ∀ v ∈ l, Plain v
  | [], _ => by simp
  | v :: l, h => by
    rw [PVal.views, checkTypesAll] at h
    obtain ⟨_, h1, h2⟩ := bind_ok_iff.1 h
    have hv := check_plain v h1
    have hl := checks_plain l h2
    intro w hw
    rcases List.mem_cons.1 hw with e | hw
    · rw [e]; exact hv
    · exact hl w hw
end

theorem check_iff (v : PVal F) : checkTypes v.view = .ok () ↔ Plain v := ⟨check_plain v, plain_check⟩

theorem finish_ok_iff (d : String) (l : Attrs F) (r : PVal F) :
    finish d l = .ok r ↔ (∀ p ∈ l, Plain p.2) ∧ r = .pure d (l.map (·.1)) (l.map (·.2)) := by
  unfold finish
  constructor
  · intro h
    obtain ⟨_, h1, h2⟩ := bind_ok_iff.1 h
    cases h2
    rw [PVal.view, checkTypes_pureCls] at h1
    refine ⟨fun p hp => checks_plain _ h1 _ (List.mem_map_of_mem hp), rfl⟩
  · rintro ⟨h, rfl⟩
    have : checkTypes (PVal.pure d (l.map (·.1)) (l.map (·.2))).view = .ok () :=
      plain_check (.pure _ _ _ (by
        intro v hv
        obtain ⟨p, hp, rfl⟩ := List.mem_map.1 hv
        exact h p hp))
    dsimp only
    rw [this]; rfl

theorem finish_not_plain (d : String) (l : Attrs F) (h : ∃ p ∈ l, ¬ Plain p.2) :
    finish d l = .error .valueError := by
  cases hf : finish d l with
  | ok r =>
    obtain ⟨p, hp, hn⟩ := h
    exact absurd (((finish_ok_iff d l r).1 hf).1 p hp) hn
  | error x =>
    unfold finish at hf
    rcases bind_error_iff.1 hf with h | ⟨_, _, h⟩
    · exact congrArg _ (checkTypes_error _ _ h)
    · cases h

/-! ### Constructors as sequences of steps -/

/-- One step of a constructor: the attributes it sets. -/
abbrev Step (F : Type) := SkFitted F → Py (Attrs F)

/-- The steps in order. -/
def runSteps : List (Step F) → Step F
  | [], _ => .ok []
  | f :: fs, e => do
    let a ← f e
    let b ← runSteps fs e
    return a ++ b

/-- Step and field agree. -/
def Does (f : Step F) (R : FieldSpec F) : Prop := ∀ e l, f e = .ok l ↔ R e.state l

theorem runSteps_iff {fs : List (Step F)} {Rs : List (FieldSpec F)} (h : List.Forall₂ Does fs Rs) :
    Does (runSteps fs) (Rows Rs) := by
  induction h with
  | nil =>
    intro e l
    simp only [runSteps, Rows, Except.ok.injEq]
    exact eq_comm
  | cons h1 _ ih =>
    intro e l
    rw [runSteps, Rows]
    constructor
    · intro h
      obtain ⟨a, ha, h⟩ := bind_ok_iff.1 h
      obtain ⟨b, hb, h⟩ := bind_ok_iff.1 h
      cases h
      exact ⟨a, b, (h1 e a).1 ha, (ih e b).1 hb, rfl⟩
    · rintro ⟨a, b, ha, hb, rfl⟩
      rw [(h1 e a).2 ha, (ih e b).2 hb]; rfl

/-- A constructor made of steps. -/
def byStep (d : String) (fs : List (Step F)) (e : SkFitted F) : Py (PVal F) := do
  let _ ← checkVersion e.version none
  let l ← runSteps fs e
  finish d l

theorem byStep_iff {fs : List (Step F)} {Rs : List (FieldSpec F)} (h : List.Forall₂ Does fs Rs) (d : String)
    (e : SkFitted F) (r : PVal F) : byStep d fs e = .ok r ↔ Built d Rs e.version e.state r := by
  unfold byStep Built ReadableVersion
  constructor
  · intro hh
    obtain ⟨w, hw, hh⟩ := bind_ok_iff.1 hh
    obtain ⟨l, hl, hh⟩ := bind_ok_iff.1 hh
    obtain ⟨h1, h2⟩ := (finish_ok_iff d l r).1 hh
    exact ⟨⟨w, hw⟩, l, (runSteps_iff h e l).1 hl, h1, h2⟩
  · rintro ⟨⟨w, hw⟩, l, hl, h1, h2⟩
    rw [hw, py_ok_bind, (runSteps_iff h e l).2 hl, py_ok_bind]
    exact (finish_ok_iff d l r).2 ⟨h1, h2⟩

/-- A constructor that consists of steps for the given fields. -/
def ByFields (ctor : SkFitted F → Py (PVal F)) (d : String) (Rs : List (FieldSpec F)) : Prop :=
  ∃ fs, ctor = byStep d fs ∧ List.Forall₂ Does fs Rs

/-! ### The steps -/

def copyStep (n : String) : Step F := fun e => do return [(n, ← e.get n)]
def listStep (n : String) : Step F := fun e => do return [(n, ← e.array n)]
def listNoneStep (n : String) : Step F := fun e => do return [(n, ← e.arrayOrNone n)]
def numberStep (n : String) : Step F := fun e => do return [(n, ← e.number n)]
def dtypeStep : Step F := fun e => do return [("dtype", ← (← e.get "dtype").convertDType)]

theorem get_ok_iff (e : SkFitted F) (n : String) (v : PVal F) : e.get n = .ok v ↔ HasAttr e.state n v := by
  unfold Fitted.get HasAttr Dict.get?
  cases List.lookup n e.state <;> simp

theorem get_none (e : SkFitted F) (n : String) (h : NoAttr e.state n) : e.get n = .error .attributeError := by
  unfold Fitted.get Dict.get?
  rw [h]

theorem has_true {e : SkFitted F} {n : String} {v : PVal F} (h : HasAttr e.state n v) : e.has n = true := by
  unfold Fitted.has Dict.contains Dict.get?
  rw [h]; rfl

theorem has_false {e : SkFitted F} {n : String} (h : NoAttr e.state n) : e.has n = false := by
  unfold Fitted.has Dict.contains Dict.get?
  rw [h]; rfl

theorem attr_cases (e : SkFitted F) (n : String) : NoAttr e.state n ∨ ∃ v, HasAttr e.state n v := by
  unfold NoAttr HasAttr
  cases List.lookup n e.state <;> simp

theorem Spec.HasAttr.unique {e : Attrs F} {n : String} {v w : PVal F} (h1 : HasAttr e n v) (h2 : HasAttr e n w) :
    v = w := Option.some.inj (h1.symm.trans h2)

theorem Spec.HasAttr.not_no {e : Attrs F} {n : String} {v : PVal F} (h1 : HasAttr e n v) (h2 : NoAttr e n) : False := by
  unfold HasAttr at h1; unfold NoAttr at h2; rw [h2] at h1; cases h1

theorem tolist_ok_iff (v d : PVal F) : v.tolist = .ok d ↔ Holds v d := by
  constructor
  · intro h
    cases v <;> simp only [PVal.tolist, Except.ok.injEq, reduceCtorEq] at h <;> subst h <;> constructor
  · intro h
    cases h <;> rfl

theorem array_ok_iff (e : SkFitted F) (n : String) (d : PVal F) :
    e.array n = .ok d ↔ ∃ v, HasAttr e.state n v ∧ Holds v d := by
  unfold Fitted.array
  rw [bind_ok_iff]
  simp only [get_ok_iff, tolist_ok_iff]

theorem iter_ok_iff (v : PVal F) (l : List (PVal F)) : v.iter = .ok l ↔ Elements v l := by
  constructor
  · intro h
    unfold PVal.iter at h
    split at h <;> cases h <;> constructor
  · intro h
    cases h <;> rfl

theorem does_copy (n : String) : Does (copyStep (F := F) n) (Copied n) := by
  intro e l
  unfold copyStep Copied
  rw [bind_ok_iff]
  simp only [get_ok_iff, py_pure, Except.ok.injEq]
  constructor <;> rintro ⟨v, h, rfl⟩ <;> exact ⟨v, h, rfl⟩

theorem does_list (n : String) : Does (listStep (F := F) n) (Listed n) := by
  intro e l
  unfold listStep Listed
  rw [bind_ok_iff]
  simp only [array_ok_iff, py_pure, Except.ok.injEq]
  constructor
  · rintro ⟨d, ⟨v, h1, h2⟩, rfl⟩; exact ⟨v, d, h1, h2, rfl⟩
  · rintro ⟨v, d, h1, h2, rfl⟩; exact ⟨d, ⟨v, h1, h2⟩, rfl⟩

theorem does_listNone (n : String) : Does (listNoneStep (F := F) n) (ListedOrNone n) := by
  intro e l
  unfold listNoneStep ListedOrNone Fitted.arrayOrNone Listed
  constructor
  · intro h
    obtain ⟨d, hd, h⟩ := bind_ok_iff.1 h
    cases h
    obtain ⟨v, hv, hd⟩ := bind_ok_iff.1 hd
    rw [get_ok_iff] at hv
    split at hd
    · next hn =>
      cases hd
      cases v <;> simp only [PVal.isNone, Bool.false_eq_true] at hn
      exact .inl ⟨hv, rfl⟩
    · exact .inr ⟨v, d, hv, (tolist_ok_iff v d).1 hd, rfl⟩
  · rintro (⟨h, rfl⟩ | ⟨v, d, h, hh, rfl⟩)
    · rw [(get_ok_iff e n _).2 h]; rfl
    · rw [(get_ok_iff e n _).2 h]
      cases hh <;> rfl

theorem does_optional (n : String) : Does (fun e : SkFitted F => e.optional n) (IfPresent n) := by
  intro e l
  unfold Fitted.optional IfPresent Copied
  rcases attr_cases e n with h | ⟨v, h⟩
  · simp only [has_false h, Bool.false_eq_true, if_false, py_pure, Except.ok.injEq]
    constructor
    · rintro rfl; exact .inl ⟨h, rfl⟩
    · rintro (⟨-, rfl⟩ | ⟨v, h', -⟩)
      · rfl
      · exact (h'.not_no h).elim
  · simp only [has_true h, if_true]
    rw [(get_ok_iff e n v).2 h]
    constructor
    · intro hh; cases hh; exact .inr ⟨v, h, rfl⟩
    · rintro (⟨h', rfl⟩ | ⟨v', h', rfl⟩)
      · exact (h.not_no h').elim
      · rw [h.unique h']; rfl

theorem does_number (n : String) : Does (numberStep (F := F) n) (Number n) := by
  intro e l
  unfold numberStep Number Fitted.number
  constructor
  · intro h
    obtain ⟨d, hd, h⟩ := bind_ok_iff.1 h
    cases h
    obtain ⟨v, hv, hd⟩ := bind_ok_iff.1 hd
    rw [get_ok_iff] at hv
    cases hd
    cases v with
    | npFloat x => exact .inl ⟨x, hv, rfl⟩
    | _ => exact .inr ⟨_, hv, by simp, rfl⟩
  · rintro (⟨x, h, rfl⟩ | ⟨v, h, hn, rfl⟩)
    · rw [(get_ok_iff e n _).2 h]; rfl
    · rw [(get_ok_iff e n _).2 h]
      cases v with
      | npFloat x => exact absurd rfl (hn x)
      | _ => rfl

theorem does_dtype : Does (dtypeStep (F := F)) DTyped := by
  intro e l
  unfold dtypeStep DTyped
  constructor
  · intro h
    obtain ⟨v, hv, h⟩ := bind_ok_iff.1 h
    obtain ⟨d, hd, h⟩ := bind_ok_iff.1 h
    cases h
    rw [get_ok_iff] at hv
    cases v with
    | cls t =>
      cases t with
      | plain n => cases hd; exact ⟨_, _, hv, rfl, rfl⟩
      | numpy n i => cases hd; exact ⟨_, _, hv, rfl, rfl⟩
      | uncallable => cases hd
    | _ => cases hd
  · rintro ⟨d, d', h, rfl, hd⟩
    rw [(get_ok_iff e _ _).2 h]
    cases d with
    | plain n => cases hd; rfl
    | numpy n i => simp only at hd; subst hd; rfl
    | uncallable => exact hd.elim

def defaultStep (n : String) (d : PVal F) : Step F := fun e => do
  return [(n, ← e.getOr n (.ok d))]

theorem does_default (n : String) (d : PVal F) : Does (defaultStep n d) (OrDefault n d) := by
  intro e l
  unfold defaultStep OrDefault Copied Fitted.getOr
  rcases attr_cases e n with h | ⟨v, h⟩
  · rw [has_false h]
    constructor
    · intro hh; cases hh; exact .inl ⟨h, rfl⟩
    · rintro (⟨-, rfl⟩ | ⟨v, h', -⟩)
      · rfl
      · exact (h'.not_no h).elim
  · rw [has_true h, if_pos rfl, (get_ok_iff e n v).2 h]
    constructor
    · intro hh; cases hh; exact .inr ⟨v, h, rfl⟩
    · rintro (⟨h', rfl⟩ | ⟨v', h', rfl⟩)
      · exact (h.not_no h').elim
      · rw [h.unique h']; rfl

theorem len_ok_iff (v : PVal F) (k : Nat) : v.len = .ok k ↔
    (∃ ls, v = .list ls ∧ k = ls.length) ∨ ∃ s, v = .str s ∧ k = s.length := by
  cases v <;> simp [PVal.len, eq_comm]

/-- The step for the intercept, after the classes have been listed. -/
theorem does_intercept {e : SkFitted F} {cs : PVal F} (hc : e.array "classes_" = .ok cs) (l : Attrs F) :
    interceptAttr e cs = .ok l ↔ Intercept e.state l := by
  have hcs : ∀ c, Listed "classes_" e.state [("classes_", c)] ↔ c = cs := by
    intro c
    obtain ⟨v, h1, h2⟩ := (array_ok_iff e _ _).1 hc
    constructor
    · rintro ⟨v', d, h1', h2', h3⟩
      cases h3
      cases h1.unique h1'
      exact Except.ok.inj (((tolist_ok_iff _ _).2 h2').symm.trans ((tolist_ok_iff _ _).2 h2))
    · rintro rfl; exact ⟨v, _, h1, h2, rfl⟩
  unfold interceptAttr Intercept
  rcases attr_cases e "intercept_" with h | ⟨v, h⟩
  · rw [has_false h]
    constructor
    · intro hh; cases hh; exact .inl ⟨h, rfl⟩
    · rintro (⟨-, rfl⟩ | ⟨b, c, k, h', -⟩ | ⟨-, v, d, h', -⟩)
      · rfl
      · exact (h'.not_no h).elim
      · exact (h'.not_no h).elim
  · rw [has_true h, if_pos rfl, (get_ok_iff e _ v).2 h, py_ok_bind]
    by_cases hf : v.isFloat
    · have hv : (∃ x, v = .float x) ∨ ∃ x, v = .npFloat x := by
        cases v <;> simp [PVal.isFloat] at hf <;> simp
      rw [if_pos hf]
      constructor
      · intro hh
        obtain ⟨k, hk, hh⟩ := bind_ok_iff.1 hh
        cases hh
        exact .inr (.inl ⟨v, cs, k, h, hv, (hcs cs).2 rfl, (len_ok_iff _ _).1 hk, rfl⟩)
      · rintro (⟨h', -⟩ | ⟨b, c, k, h', hb, hc', hk, rfl⟩ | ⟨hn, v', d, h', hd, rfl⟩)
        · exact (h.not_no h').elim
        · cases h.unique h'
          cases (hcs c).1 hc'
          rw [(len_ok_iff _ _).2 hk]; rfl
        · cases h.unique h'
          rcases hv with ⟨x, rfl⟩ | ⟨x, rfl⟩
          · cases hd
          · exact absurd h (hn x)
    · rw [if_neg hf]
      constructor
      · intro hh
        obtain ⟨d, hd, hh⟩ := bind_ok_iff.1 hh
        cases hh
        refine .inr (.inr ⟨?_, v, d, h, (tolist_ok_iff _ _).1 hd, rfl⟩)
        intro x hx
        cases h.unique hx
        exact hf rfl
      · rintro (⟨h', -⟩ | ⟨b, c, k, h', hb, hc', hk, rfl⟩ | ⟨hn, v', d, h', hd, rfl⟩)
        · exact (h.not_no h').elim
        · cases h.unique h'
          rcases hb with ⟨x, rfl⟩ | ⟨x, rfl⟩ <;> exact absurd rfl hf
        · cases h.unique h'
          rw [(tolist_ok_iff _ _).2 hd]; rfl

def strategyStep : Step F := fun e => do
  let st ← e.getOr "_strategy" (e.get "strategy")
  if !st.eqStr "prior" then .error .valueError else return [("_strategy", st)]

theorem eqStr_iff (v : PVal F) (s : String) : v.eqStr s = true ↔ v = .str s ∨ v = .npStr s := by
  cases v <;> simp [PVal.eqStr]

theorem does_strategy : Does (strategyStep (F := F)) Strategy := by
  intro e l
  unfold strategyStep Strategy
  have key : ∀ v, e.getOr "_strategy" (e.get "strategy") = .ok v ↔
      (HasAttr e.state "_strategy" v ∨ (NoAttr e.state "_strategy" ∧ HasAttr e.state "strategy" v)) := by
    intro v
    unfold Fitted.getOr
    rcases attr_cases e "_strategy" with h | ⟨w, h⟩
    · rw [has_false h]
      simp only [Bool.false_eq_true, if_false, get_ok_iff]
      exact ⟨fun hh => .inr ⟨h, hh⟩, fun hh => hh.elim (fun h' => (h'.not_no h).elim) (·.2)⟩
    · rw [has_true h]
      simp only [if_true, get_ok_iff]
      exact ⟨fun hh => .inl hh, fun hh => hh.elim id (fun h' => (h.not_no h'.1).elim)⟩
  rw [bind_ok_iff]
  simp only [key]
  constructor
  · rintro ⟨v, hv, hh⟩
    by_cases hp : v.eqStr "prior" = true
    · rw [hp] at hh
      cases hh
      exact ⟨v, (eqStr_iff _ _).1 hp, hv, rfl⟩
    · rw [Bool.not_eq_true] at hp
      rw [hp] at hh
      cases hh
  · rintro ⟨v, hp, hv, rfl⟩
    refine ⟨v, hv, ?_⟩
    rw [(eqStr_iff v _).2 hp]; rfl

theorem mapM_forall₂ {α β : Type} {f : α → Py β} {R : α → β → Prop} (h : ∀ a b, f a = .ok b ↔ R a b)
    (l : List α) (r : List β) : l.mapM f = .ok r ↔ List.Forall₂ R l r := by
  induction l generalizing r with
  | nil =>
    simp only [List.mapM_nil, py_pure, Except.ok.injEq, List.forall₂_nil_left_iff]
    exact eq_comm
  | cons a l ih =>
    rw [mapM_cons']
    constructor
    · intro hh
      obtain ⟨b, hb, hh⟩ := bind_ok_iff.1 hh
      obtain ⟨bs, hbs, hh⟩ := bind_ok_iff.1 hh
      cases hh
      exact .cons ((h a b).1 hb) ((ih bs).1 hbs)
    · intro hh
      cases hh with
      | cons h1 h2 => rw [(h _ _).2 h1, (ih _).2 h2]; rfl

def listEachStep (n : String) : Step F := fun e => do
  let cats ← (← (← e.get n).iter).mapM PVal.tolist
  return [(n, .list cats)]

theorem does_listEach (n : String) : Does (listEachStep (F := F) n) (ListedEach n) := by
  intro e l
  unfold listEachStep ListedEach
  constructor
  · intro hh
    obtain ⟨v, hv, hh⟩ := bind_ok_iff.1 hh
    obtain ⟨vs, hvs, hh⟩ := bind_ok_iff.1 hh
    obtain ⟨ds, hds, hh⟩ := bind_ok_iff.1 hh
    cases hh
    exact ⟨v, vs, ds, (get_ok_iff _ _ _).1 hv, (iter_ok_iff _ _).1 hvs,
      (mapM_forall₂ tolist_ok_iff _ _).1 hds, rfl⟩
  · rintro ⟨v, vs, ds, hv, hvs, hds, rfl⟩
    rw [(get_ok_iff _ _ _).2 hv, py_ok_bind, (iter_ok_iff _ _).2 hvs, py_ok_bind,
      (mapM_forall₂ tolist_ok_iff _ _).2 hds]
    rfl

def dropStep : Step F := fun e =>
  if e.hasNotNone "drop" then .error .valueError else .ok []

theorem isNone_iff (v : PVal F) : v.isNone = true ↔ v = .none := by
  cases v <;> simp [PVal.isNone]

theorem hasNotNone_false (e : SkFitted F) (n : String) :
    e.hasNotNone n = false ↔ NoAttr e.state n ∨ HasAttr e.state n .none := by
  unfold Fitted.hasNotNone NoAttr HasAttr Dict.get?
  cases h : List.lookup n e.state with
  | none => simp
  | some v => simp [isNone_iff]

theorem does_drop : Does (dropStep (F := F)) NothingDropped := by
  intro e l
  unfold dropStep NothingDropped
  rw [← hasNotNone_false]
  cases e.hasNotNone "drop" <;> simp [eq_comm]

variable (trunc : F → Py Int)

theorem toInt_ok_iff (v k : PVal F) : v.toInt trunc = .ok k ↔ IndexOf trunc v k := by
  have hb : ∀ (x : F) (k : PVal F), (do return PVal.int (← trunc x) : Py (PVal F)) = .ok k ↔
      ∃ i, trunc x = .ok i ∧ k = .int i := by
    intro x k
    rw [bind_ok_iff]
    simp only [py_pure, Except.ok.injEq]
    exact ⟨fun ⟨i, h1, h2⟩ => ⟨i, h1, h2.symm⟩, fun ⟨i, h1, h2⟩ => ⟨i, h1, h2.symm⟩⟩
  constructor
  · intro h
    unfold PVal.toInt at h
    split at h
    · cases h; constructor
    · cases h; constructor
    · obtain ⟨i, hi, rfl⟩ := (hb _ _).1 h; exact .float _ _ hi
    · obtain ⟨i, hi, rfl⟩ := (hb _ _).1 h; exact .npFloat _ _ hi
    · cases h; constructor
    · cases h; constructor
    · obtain ⟨i, hi, rfl⟩ := (hb _ _).1 h; exact .npOther _ _ hi
    · cases h
    · cases h
    · cases h
  · intro h
    cases h with
    | int | bool | npInt | npBool => rfl
    | float x i h => exact (hb _ _).2 ⟨i, h, rfl⟩
    | npFloat x i h => exact (hb _ _).2 ⟨i, h, rfl⟩
    | npOther x i h => exact (hb _ _).2 ⟨i, h, rfl⟩

def vocabularyStep : Step F := fun e => do
  return [("vocabulary_", ← (← e.get "vocabulary_").intItems trunc)]

theorem does_vocabulary : Does (vocabularyStep trunc) (Vocabulary trunc) := by
  intro e l
  unfold vocabularyStep Vocabulary
  constructor
  · intro h
    obtain ⟨v, hv, h⟩ := bind_ok_iff.1 h
    obtain ⟨d, hd, h⟩ := bind_ok_iff.1 h
    cases h
    cases v with
    | dict ks vs =>
      obtain ⟨is, his, hd⟩ := bind_ok_iff.1 hd
      cases hd
      exact ⟨ks, vs, is, (get_ok_iff _ _ _).1 hv, (mapM_forall₂ (toInt_ok_iff trunc) _ _).1 his, rfl⟩
    | _ => cases hd
  · rintro ⟨ks, vs, is, hv, his, rfl⟩
    rw [(get_ok_iff _ _ _).2 hv, py_ok_bind, PVal.intItems, (mapM_forall₂ (toInt_ok_iff trunc) _ _).2 his]
    rfl

def idfSizeStep : Step F := fun e => do
  return [("expected_n_features_", ← (← e.get "_idf_diag").shape0)]

theorem shape0_ok_iff (v r : PVal F) : v.shape0 = .ok r ↔ ∃ k, r = .int k ∧
    ((∃ s, v = .spmatrix (k :: s)) ∨ ∃ xs, v = .ndarray (.list xs) ∧ k = (xs.length : Int)) := by
  constructor
  · intro h
    unfold PVal.shape0 at h
    split at h
    · next s =>
      obtain ⟨k, hk, h⟩ := bind_ok_iff.1 h
      cases h
      cases s with
      | nil => cases hk
      | cons a s => cases hk; exact ⟨_, rfl, .inl ⟨s, rfl⟩⟩
    · cases h; exact ⟨_, rfl, .inr ⟨_, rfl, rfl⟩⟩
    · cases h
    · cases h
  · rintro ⟨k, rfl, ⟨s, rfl⟩ | ⟨xs, rfl, rfl⟩⟩ <;> rfl

theorem does_idfSize : Does (idfSizeStep (F := F)) IdfSize := by
  intro e l
  unfold idfSizeStep IdfSize
  constructor
  · intro h
    obtain ⟨v, hv, h⟩ := bind_ok_iff.1 h
    obtain ⟨d, hd, h⟩ := bind_ok_iff.1 h
    cases h
    obtain ⟨k, rfl, hk⟩ := (shape0_ok_iff _ _).1 hd
    exact ⟨v, k, (get_ok_iff _ _ _).1 hv, hk, rfl⟩
  · rintro ⟨v, k, hv, hd, rfl⟩
    rw [(get_ok_iff _ _ _).2 hv, py_ok_bind, (shape0_ok_iff v _).2 ⟨k, rfl, hd⟩]
    rfl

/-! ### Trees -/

def treeStep (n out : String) : Step F := fun e => do
  return [(out, ← (treeOf (← e.get "tree_")).array n)]

theorem treeOf_array (w : PVal F) (n : String) (d : PVal F) : (treeOf w).array n = .ok d ↔
    ∃ c v ns vs a, w = .obj c v ns vs ∧ HasAttr (ns.zip vs) n a ∧ Holds a d := by
  rw [array_ok_iff]
  constructor
  · rintro ⟨a, h1, h2⟩
    cases w with
    | obj c v ns vs => exact ⟨c, v, ns, vs, a, rfl, h1, h2⟩
    | _ => cases h1
  · rintro ⟨c, v, ns, vs, a, rfl, h1, h2⟩
    exact ⟨a, h1, h2⟩

theorem does_tree (n out : String) : Does (treeStep (F := F) n out) (TreeListed n out) := by
  intro e l
  unfold treeStep TreeListed
  constructor
  · intro h
    obtain ⟨w, hw, h⟩ := bind_ok_iff.1 h
    obtain ⟨d, hd, h⟩ := bind_ok_iff.1 h
    cases h
    obtain ⟨c, v, ns, vs, a, rfl, h1, h2⟩ := (treeOf_array _ _ _).1 hd
    exact ⟨c, v, ns, vs, a, d, (get_ok_iff _ _ _).1 hw, h1, h2, rfl⟩
  · rintro ⟨c, v, ns, vs, a, d, hw, h1, h2, rfl⟩
    rw [(get_ok_iff _ _ _).2 hw, py_ok_bind, (treeOf_array _ _ _).2 ⟨c, v, ns, vs, a, rfl, h1, h2⟩]
    rfl

def treeValueStep : Step F := fun e => do
  let v ← (← (← (treeOf (← e.get "tree_")).array "value").iter).mapM PVal.first
  return [("value_", .list v)]

theorem first_ok_iff (r o : PVal F) : r.first = .ok o ↔ ∃ rest, r = .list (o :: rest) := by
  constructor
  · intro h
    cases r with
    | list l => cases l with
      | nil => cases h
      | cons a l => cases h; exact ⟨l, rfl⟩
    | _ => cases h
  · rintro ⟨rest, rfl⟩; rfl

theorem does_treeValue : Does (treeValueStep (F := F)) TreeValues := by
  intro e l
  unfold treeValueStep TreeValues
  constructor
  · intro h
    obtain ⟨w, hw, h⟩ := bind_ok_iff.1 h
    obtain ⟨d, hd, h⟩ := bind_ok_iff.1 h
    obtain ⟨rows, hr, h⟩ := bind_ok_iff.1 h
    obtain ⟨outs, ho, h⟩ := bind_ok_iff.1 h
    cases h
    obtain ⟨c, v, ns, vs, a, rfl, h1, h2⟩ := (treeOf_array _ _ _).1 hd
    exact ⟨c, v, ns, vs, a, d, rows, outs, (get_ok_iff _ _ _).1 hw, h1, h2, (iter_ok_iff _ _).1 hr,
      (mapM_forall₂ first_ok_iff _ _).1 ho, rfl⟩
  · rintro ⟨c, v, ns, vs, a, d, rows, outs, hw, h1, h2, hr, ho, rfl⟩
    rw [(get_ok_iff _ _ _).2 hw, py_ok_bind, (treeOf_array _ _ _).2 ⟨c, v, ns, vs, a, rfl, h1, h2⟩, py_ok_bind,
      (iter_ok_iff _ _).2 hr, py_ok_bind, (mapM_forall₂ first_ok_iff _ _).2 ho]
    rfl

def treeClassesStep : Step F := fun e => do return [("classes_", ← treeClasses e)]

theorem does_treeClasses : Does (treeClassesStep (F := F)) TreeClasses := by
  intro e l
  unfold treeClassesStep TreeClasses treeClasses
  rw [← hasNotNone_false]
  cases h : e.hasNotNone "classes_" with
  | true =>
    simp only [if_true, Bool.true_eq_false, false_and, false_or]
    exact does_list "classes_" e l
  | false =>
    simp only [Bool.false_eq_true, if_false, true_and]
    constructor
    · intro hh; cases hh; exact .inl rfl
    · rintro (rfl | ⟨v, d, hv, hd, rfl⟩)
      · rfl
      · rcases (hasNotNone_false e _).1 h with h' | h'
        · exact (hv.not_no h').elim
        · cases hv.unique h'; cases hd

/-! ### The constructors -/

section
local macro "steps" : tactic =>
  `(tactic| (funext e; simp [byStep, runSteps, copyStep, listStep, listNoneStep, numberStep, dtypeStep,
      defaultStep, listEachStep, idfSizeStep, vocabularyStep, treeStep, treeValueStep, treeClassesStep]))
macro "ctor_fields" : tactic =>
  `(tactic| repeat' first
    | exact List.Forall₂.nil
    | exact does_copy _ | exact does_list _ | exact does_listNone _ | exact does_optional _
    | exact does_number _ | exact does_dtype | exact does_default _ _ | exact does_strategy
    | exact does_listEach _ | exact does_drop | exact does_vocabulary _ | exact does_idfSize
    | exact does_tree _ _ | exact does_treeValue | exact does_treeClasses
    | refine List.Forall₂.cons ?_ ?_)

theorem initLinear_iff (d : String) (e : SkFitted F) (r : PVal F) :
    initLinear d e = .ok r ↔ Built d linearFields e.version e.state r := by
  unfold initLinear Built ReadableVersion linearFields
  constructor
  · intro h
    obtain ⟨w, hw, h⟩ := bind_ok_iff.1 h
    obtain ⟨co, hco, h⟩ := bind_ok_iff.1 h
    obtain ⟨cl, hcl, h⟩ := bind_ok_iff.1 h
    obtain ⟨b, hb, h⟩ := bind_ok_iff.1 h
    obtain ⟨mc, hmc, h⟩ := bind_ok_iff.1 h
    obtain ⟨so, hso, h⟩ := bind_ok_iff.1 h
    obtain ⟨lo, hlo, h⟩ := bind_ok_iff.1 h
    obtain ⟨h1, h2⟩ := (finish_ok_iff _ _ _).1 h
    refine ⟨⟨w, hw⟩, _, ?_, h1, h2⟩
    obtain ⟨v1, a1, b1⟩ := (array_ok_iff _ _ _).1 hco
    obtain ⟨v2, a2, b2⟩ := (array_ok_iff _ _ _).1 hcl
    refine ⟨[("coef_", co)], _, ⟨v1, co, a1, b1, rfl⟩, ⟨[("classes_", cl)], _, ⟨v2, cl, a2, b2, rfl⟩,
      ⟨b, _, (does_intercept hcl b).1 hb, ⟨mc, _, (does_optional _ e mc).1 hmc,
        ⟨so, _, (does_optional _ e so).1 hso, ⟨lo, _, (does_optional _ e lo).1 hlo, rfl, rfl⟩, rfl⟩, rfl⟩, rfl⟩,
        rfl⟩, by simp⟩
  · rintro ⟨⟨w, hw⟩, l, hl, h1, h2⟩
    obtain ⟨l1, m1, ⟨v1, co, a1, b1, rfl⟩, ⟨l2, m2, ⟨v2, cl, a2, b2, rfl⟩, ⟨b, m3, hb,
      ⟨mc, m4, hmc, ⟨so, m5, hso, ⟨lo, m6, hlo, rfl, rfl⟩, rfl⟩, rfl⟩, rfl⟩, rfl⟩, rfl⟩ := hl
    have hcl := (array_ok_iff e "classes_" cl).2 ⟨v2, a2, b2⟩
    rw [hw, py_ok_bind, (array_ok_iff e "coef_" co).2 ⟨v1, a1, b1⟩, py_ok_bind, hcl, py_ok_bind,
      (does_intercept hcl b).2 hb, py_ok_bind,
      show e.optional "multi_class" = .ok mc from (does_optional _ e mc).2 hmc, py_ok_bind,
      show e.optional "solver" = .ok so from (does_optional _ e so).2 hso, py_ok_bind,
      show e.optional "loss" = .ok lo from (does_optional _ e lo).2 hlo, py_ok_bind]
    refine (finish_ok_iff _ _ _).2 ⟨?_, ?_⟩
    · simpa using h1
    · simpa using h2

theorem initGaussianNB_steps : initGaussianNB (F := F) = byStep "naive_bayes.GaussianNBPure"
    [listStep "class_prior_", listStep "classes_", listStep "sigma_", listStep "theta_"] := by
  unfold initGaussianNB
  steps

theorem initGaussianNB_iff (e : SkFitted F) (r : PVal F) : initGaussianNB e = .ok r ↔
    Built "naive_bayes.GaussianNBPure" [Listed "class_prior_", Listed "classes_", Listed "sigma_", Listed "theta_"]
      e.version e.state r := by
  rw [initGaussianNB_steps]; exact byStep_iff (by ctor_fields) _ _ _

theorem initGaussianNB_by : ByFields (F := F) (initGaussianNB (F := F)) "naive_bayes.GaussianNBPure" [Listed "class_prior_", Listed "classes_", Listed "sigma_", Listed "theta_"] :=
  ⟨_, initGaussianNB_steps, by ctor_fields⟩

theorem initDiscreteNB_steps (d : String) : initDiscreteNB (F := F) d = byStep d
    [listStep "class_log_prior_", listStep "classes_", listStep "feature_log_prob_"] := by
  unfold initDiscreteNB
  steps

theorem initDiscreteNB_iff (d : String) (e : SkFitted F) (r : PVal F) : initDiscreteNB d e = .ok r ↔
    Built d discreteNBFields e.version e.state r := by
  rw [initDiscreteNB_steps]; exact byStep_iff (by unfold discreteNBFields; ctor_fields) _ _ _

theorem initDiscreteNB_by (d : String) : ByFields (F := F) (initDiscreteNB d) d discreteNBFields :=
  ⟨_, initDiscreteNB_steps d, by unfold discreteNBFields; ctor_fields⟩

theorem initDummy_steps : initDummy (F := F) = byStep "dummy.DummyClassifierPure"
    [strategyStep, listStep "class_prior_", copyStep "n_classes_", copyStep "n_outputs_"] := by
  unfold initDummy
  funext e
  simp only [byStep, runSteps, strategyStep, copyStep, listStep, bind_assoc, pure_bind]
  refine bind_congr fun _ => bind_congr fun st => ?_
  cases st.eqStr "prior" <;> simp

theorem initDummy_iff (e : SkFitted F) (r : PVal F) : initDummy e = .ok r ↔
    Built "dummy.DummyClassifierPure" [Strategy, Listed "class_prior_", Copied "n_classes_", Copied "n_outputs_"]
      e.version e.state r := by
  rw [initDummy_steps]; exact byStep_iff (by ctor_fields) _ _ _

theorem initDummy_by : ByFields (F := F) (initDummy (F := F)) "dummy.DummyClassifierPure" [Strategy, Listed "class_prior_", Copied "n_classes_", Copied "n_outputs_"] :=
  ⟨_, initDummy_steps, by ctor_fields⟩

theorem initNormalizer_steps : initNormalizer (F := F) = byStep "preprocessing._data.NormalizerPure"
    [copyStep "norm", copyStep "copy"] := by
  unfold initNormalizer
  steps

theorem initNormalizer_iff (e : SkFitted F) (r : PVal F) : initNormalizer e = .ok r ↔
    Built "preprocessing._data.NormalizerPure" [Copied "norm", Copied "copy"] e.version e.state r := by
  rw [initNormalizer_steps]; exact byStep_iff (by ctor_fields) _ _ _

theorem initNormalizer_by : ByFields (F := F) (initNormalizer (F := F)) "preprocessing._data.NormalizerPure" [Copied "norm", Copied "copy"] :=
  ⟨_, initNormalizer_steps, by ctor_fields⟩

theorem initStandardScaler_steps : initStandardScaler (F := F) = byStep "preprocessing._data.StandardScalerPure"
    [copyStep "with_mean", copyStep "with_std", listNoneStep "scale_", listNoneStep "mean_"] := by
  unfold initStandardScaler
  steps

theorem initStandardScaler_iff (e : SkFitted F) (r : PVal F) : initStandardScaler e = .ok r ↔
    Built "preprocessing._data.StandardScalerPure"
      [Copied "with_mean", Copied "with_std", ListedOrNone "scale_", ListedOrNone "mean_"] e.version e.state r := by
  rw [initStandardScaler_steps]; exact byStep_iff (by ctor_fields) _ _ _

theorem initStandardScaler_by : ByFields (F := F) (initStandardScaler (F := F)) "preprocessing._data.StandardScalerPure"
      [Copied "with_mean", Copied "with_std", ListedOrNone "scale_", ListedOrNone "mean_"] :=
  ⟨_, initStandardScaler_steps, by ctor_fields⟩

theorem initMinMaxScaler_steps : initMinMaxScaler (F := F) = byStep "preprocessing._data.MinMaxScalerPure"
    [copyStep "feature_range", listNoneStep "scale_", listNoneStep "min_"] := by
  unfold initMinMaxScaler
  steps

theorem initMinMaxScaler_iff (e : SkFitted F) (r : PVal F) : initMinMaxScaler e = .ok r ↔
    Built "preprocessing._data.MinMaxScalerPure"
      [Copied "feature_range", ListedOrNone "scale_", ListedOrNone "min_"] e.version e.state r := by
  rw [initMinMaxScaler_steps]; exact byStep_iff (by ctor_fields) _ _ _

theorem initMinMaxScaler_by : ByFields (F := F) (initMinMaxScaler (F := F)) "preprocessing._data.MinMaxScalerPure"
      [Copied "feature_range", ListedOrNone "scale_", ListedOrNone "min_"] :=
  ⟨_, initMinMaxScaler_steps, by ctor_fields⟩

theorem initMaxAbsScaler_steps : initMaxAbsScaler (F := F) = byStep "preprocessing._data.MaxAbsScalerPure"
    [copyStep "copy", listNoneStep "scale_", listNoneStep "max_abs_"] := by
  unfold initMaxAbsScaler
  steps

theorem initMaxAbsScaler_iff (e : SkFitted F) (r : PVal F) : initMaxAbsScaler e = .ok r ↔
    Built "preprocessing._data.MaxAbsScalerPure"
      [Copied "copy", ListedOrNone "scale_", ListedOrNone "max_abs_"] e.version e.state r := by
  rw [initMaxAbsScaler_steps]; exact byStep_iff (by ctor_fields) _ _ _

theorem initMaxAbsScaler_by : ByFields (F := F) (initMaxAbsScaler (F := F)) "preprocessing._data.MaxAbsScalerPure"
      [Copied "copy", ListedOrNone "scale_", ListedOrNone "max_abs_"] :=
  ⟨_, initMaxAbsScaler_steps, by ctor_fields⟩

theorem initEncoder_steps (d : String) : initEncoder (F := F) d = byStep d
    [dtypeStep, listEachStep "categories_", fun e => e.optional "sparse", dropStep,
      fun e => e.optional "handle_unknown"] := by
  unfold initEncoder
  funext e
  simp only [byStep, runSteps, dtypeStep, listEachStep, dropStep, bind_assoc, pure_bind]
  refine bind_congr fun _ => bind_congr fun dt => bind_congr fun _ => bind_congr fun _ =>
    bind_congr fun _ => bind_congr fun _ => bind_congr fun sp => ?_
  cases e.hasNotNone "drop"
  · simp
  · rfl

theorem initEncoder_iff (d : String) (e : SkFitted F) (r : PVal F) : initEncoder d e = .ok r ↔
    Built d encoderFields e.version e.state r := by
  rw [initEncoder_steps]; exact byStep_iff (by unfold encoderFields; ctor_fields) _ _ _

theorem initEncoder_by (d : String) : ByFields (F := F) (initEncoder d) d encoderFields :=
  ⟨_, initEncoder_steps d, by unfold encoderFields; ctor_fields⟩

theorem initMissingIndicator_steps : initMissingIndicator (F := F) = byStep "impute._base.MissingIndicatorPure"
    [copyStep "features", listStep "features_", copyStep "_n_features", numberStep "missing_values",
      copyStep "error_on_new"] := by
  unfold initMissingIndicator missingIndicatorAttrs
  steps

theorem initMissingIndicator_iff (e : SkFitted F) (r : PVal F) : initMissingIndicator e = .ok r ↔
    Built "impute._base.MissingIndicatorPure" (indicatorFields ++ [Copied "error_on_new"]) e.version e.state r := by
  rw [initMissingIndicator_steps]; exact byStep_iff (by unfold indicatorFields; ctor_fields) _ _ _

theorem initMissingIndicator_by : ByFields (F := F) (initMissingIndicator (F := F)) "impute._base.MissingIndicatorPure" (indicatorFields ++ [Copied "error_on_new"]) :=
  ⟨_, initMissingIndicator_steps, by unfold indicatorFields; ctor_fields⟩

theorem initDictVectorizer_steps : initDictVectorizer (F := F) =
    byStep "feature_extraction._dict_vectorizer.DictVectorizerPure"
    [copyStep "vocabulary_", copyStep "feature_names_", copyStep "sparse", dtypeStep, copyStep "separator"] := by
  unfold initDictVectorizer
  steps

theorem initDictVectorizer_iff (e : SkFitted F) (r : PVal F) : initDictVectorizer e = .ok r ↔
    Built "feature_extraction._dict_vectorizer.DictVectorizerPure"
      [Copied "vocabulary_", Copied "feature_names_", Copied "sparse", DTyped, Copied "separator"]
      e.version e.state r := by
  rw [initDictVectorizer_steps]; exact byStep_iff (by ctor_fields) _ _ _

theorem initDictVectorizer_by : ByFields (F := F) (initDictVectorizer (F := F)) "feature_extraction._dict_vectorizer.DictVectorizerPure"
      [Copied "vocabulary_", Copied "feature_names_", Copied "sparse", DTyped, Copied "separator"] :=
  ⟨_, initDictVectorizer_steps, by ctor_fields⟩

def textSteps : List (Step F) :=
  [copyStep "analyzer", copyStep "preprocessor", copyStep "tokenizer", copyStep "stop_words",
   copyStep "token_pattern", copyStep "ngram_range", copyStep "strip_accents", copyStep "decode_error",
   copyStep "encoding", copyStep "lowercase", copyStep "input"]

theorem textOptions_steps : textOptions (F := F) = runSteps textSteps := by
  unfold textOptions textSteps
  steps

theorem does_text : List.Forall₂ Does (textSteps (F := F)) textFields := by
  unfold textSteps textFields
  ctor_fields

theorem runSteps_append (fs gs : List (Step F)) (e : SkFitted F) :
    runSteps (fs ++ gs) e = (do let a ← runSteps fs e; let b ← runSteps gs e; return a ++ b) := by
  induction fs with
  | nil =>
    simp only [List.nil_append, runSteps, py_ok_bind]
    cases runSteps gs e <;> rfl
  | cons f fs ih =>
    simp only [List.cons_append, runSteps, ih, bind_assoc, pure_bind, List.append_assoc]

theorem initCountWith_steps (d : String) (before : Attrs F) (e : SkFitted F) :
    initCountWith trunc d before e = (do
      let _ ← checkVersion e.version none
      let l ← runSteps ([dtypeStep, copyStep "binary", vocabularyStep trunc] ++ textSteps) e
      finish d (before ++ l)) := by
  unfold initCountWith
  rw [runSteps_append, textOptions_steps]
  simp [runSteps, dtypeStep, copyStep, vocabularyStep]

theorem does_count : List.Forall₂ Does
    ([dtypeStep, copyStep "binary", vocabularyStep trunc] ++ textSteps (F := F)) (countFields trunc) := by
  unfold countFields
  refine List.rel_append ?_ does_text
  ctor_fields

theorem initCountVectorizer_steps : initCountVectorizer trunc =
    byStep "feature_extraction.text.CountVectorizerPure"
      ([dtypeStep, copyStep "binary", vocabularyStep trunc] ++ textSteps) := by
  funext e
  unfold initCountVectorizer
  rw [initCountWith_steps]
  rfl

theorem initCountVectorizer_iff (e : SkFitted F) (r : PVal F) : initCountVectorizer trunc e = .ok r ↔
    Built "feature_extraction.text.CountVectorizerPure" (countFields trunc) e.version e.state r := by
  rw [initCountVectorizer_steps]; exact byStep_iff (does_count trunc) _ _ _

theorem initCountVectorizer_by : ByFields (F := F) (initCountVectorizer trunc) "feature_extraction.text.CountVectorizerPure" (countFields trunc) :=
  ⟨_, initCountVectorizer_steps trunc, does_count trunc⟩

theorem initTfidfTransformer_steps : initTfidfTransformer (F := F) =
    byStep "feature_extraction.text.TfidfTransformerPure"
    [copyStep "norm", copyStep "use_idf", copyStep "smooth_idf", copyStep "sublinear_tf", listStep "idf_",
      idfSizeStep] := by
  unfold initTfidfTransformer
  steps

theorem initTfidfTransformer_iff (e : SkFitted F) (r : PVal F) : initTfidfTransformer e = .ok r ↔
    Built "feature_extraction.text.TfidfTransformerPure" tfidfFields e.version e.state r := by
  rw [initTfidfTransformer_steps]; exact byStep_iff (by unfold tfidfFields; ctor_fields) _ _ _

theorem initTfidfTransformer_by : ByFields (F := F) (initTfidfTransformer (F := F)) "feature_extraction.text.TfidfTransformerPure" tfidfFields :=
  ⟨_, initTfidfTransformer_steps, by unfold tfidfFields; ctor_fields⟩

theorem initHashingVectorizer_steps : initHashingVectorizer (F := F) =
    byStep "feature_extraction.text.HashingVectorizerPure"
    ([dtypeStep, copyStep "norm", copyStep "binary"] ++ textSteps ++
      [copyStep "n_features", copyStep "alternate_sign"]) := by
  funext e
  unfold initHashingVectorizer byStep
  rw [runSteps_append, runSteps_append, textOptions_steps]
  simp [runSteps, dtypeStep, copyStep]

theorem initHashingVectorizer_iff (e : SkFitted F) (r : PVal F) : initHashingVectorizer e = .ok r ↔
    Built "feature_extraction.text.HashingVectorizerPure"
      ([DTyped, Copied "norm", Copied "binary"] ++ textFields ++ [Copied "n_features", Copied "alternate_sign"])
      e.version e.state r := by
  rw [initHashingVectorizer_steps]
  exact byStep_iff (List.rel_append (List.rel_append (by ctor_fields) does_text) (by ctor_fields)) _ _ _

theorem initHashingVectorizer_by : ByFields (F := F) (initHashingVectorizer (F := F)) "feature_extraction.text.HashingVectorizerPure"
      ([DTyped, Copied "norm", Copied "binary"] ++ textFields ++ [Copied "n_features", Copied "alternate_sign"]) :=
  ⟨_, initHashingVectorizer_steps, List.rel_append (List.rel_append (by ctor_fields) does_text) (by ctor_fields)⟩

theorem initTree_steps (d : String) : initTree (F := F) d = byStep d
    [treeStep "children_left" "children_left_", treeStep "children_right" "children_right_",
     treeStep "feature" "feature_", treeStep "threshold" "threshold_", treeValueStep, treeClassesStep] := by
  funext e
  unfold initTree byStep
  simp only [runSteps, treeStep, treeValueStep, treeClassesStep]
  refine bind_congr fun _ => ?_
  cases h : e.get "tree_" with
  | error x => rfl
  | ok t => simp

theorem initTree_iff (d : String) (e : SkFitted F) (r : PVal F) : initTree d e = .ok r ↔
    Built d treeFields e.version e.state r := by
  rw [initTree_steps]; exact byStep_iff (by unfold treeFields; ctor_fields) _ _ _

theorem initTree_by (d : String) : ByFields (F := F) (initTree d) d treeFields :=
  ⟨_, initTree_steps d, by unfold treeFields; ctor_fields⟩

theorem does_indicator : Does (indicatorAttr (F := F)) Indicator := by
  intro e l
  unfold indicatorAttr Indicator
  rcases attr_cases e "indicator_" with h | ⟨w, h⟩
  · rw [show Dict.get? e.state "indicator_" = none from h]
    constructor
    · intro hh; cases hh; exact .inl ⟨.inl h, rfl⟩
    · rintro (⟨-, rfl⟩ | ⟨c, v, ns, vs, ls, w, h', -⟩)
      · rfl
      · exact (h'.not_no h).elim
  · rw [show Dict.get? e.state "indicator_" = some w from h]
    cases w with
    | none =>
      constructor
      · intro hh; cases hh; exact .inl ⟨.inr h, rfl⟩
      · rintro (⟨-, rfl⟩ | ⟨c, v, ns, vs, ls, w, h', -⟩)
        · rfl
        · cases h.unique h'
    | obj c v ns vs =>
      have key : ∀ r, initMissingIndicator ⟨c, v, ns.zip vs⟩ = .ok r ↔ _ := initMissingIndicator_iff _
      constructor
      · intro hh
        obtain ⟨r, hr, hh⟩ := bind_ok_iff.1 hh
        obtain ⟨hv, l', hl, hp, rfl⟩ := (key r).1 hr
        cases hh
        obtain ⟨_, _, ⟨a, ha, rfl⟩, ⟨_, _, ⟨b, b', hb, hb', rfl⟩, ⟨_, _, ⟨n, hn, rfl⟩, ⟨l4, _, hm,
          ⟨_, _, ⟨w, hw, rfl⟩, rfl, rfl⟩, rfl⟩, rfl⟩, rfl⟩, rfl⟩ := hl
        refine .inr ⟨c, v, ns, vs, [("features", a), ("features_", b'), ("_n_features", n)] ++ l4, w, h, hv,
          ⟨_, _, ⟨a, ha, rfl⟩, ⟨_, _, ⟨b, b', hb, hb', rfl⟩, ⟨_, _, ⟨n, hn, rfl⟩, ⟨l4, _, hm, rfl, rfl⟩, rfl⟩, rfl⟩,
            by simp⟩, ?_, hw, ?_, ?_⟩
        · intro p hp'; apply hp; simp at hp' ⊢; tauto
        · exact hp ("error_on_new", w) (by simp)
        · rcases hm with ⟨x, -, rfl⟩ | ⟨x, -, -, rfl⟩ <;> rfl
      · rintro (⟨h' | h', -⟩ | ⟨c', v', ns', vs', ls, w, h', hv, hl, hp, hw, hpw, rfl⟩)
        · exact (h.not_no h').elim
        · cases h.unique h'
        · cases h.unique h'
          obtain ⟨_, _, ⟨a, ha, rfl⟩, ⟨_, _, ⟨b, b', hb, hb', rfl⟩, ⟨_, _, ⟨n, hn, rfl⟩, ⟨l4, _, hm, rfl, rfl⟩,
            rfl⟩, rfl⟩, rfl⟩ := hl
          have hr := (key _).2 ⟨hv, [("features", a), ("features_", b'), ("_n_features", n)] ++ l4 ++
              [("error_on_new", w)],
            ⟨_, _, ⟨a, ha, rfl⟩, ⟨_, _, ⟨b, b', hb, hb', rfl⟩, ⟨_, _, ⟨n, hn, rfl⟩, ⟨l4, _, hm,
              ⟨_, _, ⟨w, hw, rfl⟩, rfl, rfl⟩, rfl⟩, rfl⟩, rfl⟩, by simp⟩, by
              intro p hp'
              simp only [List.mem_append, List.mem_singleton] at hp'
              rcases hp' with hp' | rfl
              · apply hp; simp at hp' ⊢; tauto
              · exact hpw, rfl⟩
          simp only [hr]
          rcases hm with ⟨x, -, rfl⟩ | ⟨x, -, -, rfl⟩ <;> rfl
    | _ =>
      constructor
      · intro hh; cases hh
      · rintro (⟨h' | h', -⟩ | ⟨c', v', ns', vs', ls, w, h', -⟩)
        · exact (h.not_no h').elim
        · cases h.unique h'
        · cases h.unique h'

theorem initSimpleImputer_steps : initSimpleImputer (F := F) = byStep "impute._base.SimpleImputerPure"
    [listStep "statistics_", copyStep "strategy", defaultStep "add_indicator" (.bool false),
      numberStep "missing_values", indicatorAttr] := by
  unfold initSimpleImputer
  steps

theorem initSimpleImputer_iff (e : SkFitted F) (r : PVal F) : initSimpleImputer e = .ok r ↔
    Built "impute._base.SimpleImputerPure"
      [Listed "statistics_", Copied "strategy", OrDefault "add_indicator" (.bool false),
        Number "missing_values", Indicator] e.version e.state r := by
  rw [initSimpleImputer_steps]
  refine byStep_iff ?_ _ _ _
  repeat' first
    | exact does_indicator
    | ctor_fields

theorem initSimpleImputer_by : ByFields (F := F) (initSimpleImputer (F := F)) "impute._base.SimpleImputerPure"
      [Listed "statistics_", Copied "strategy", OrDefault "add_indicator" (.bool false),
        Number "missing_values", Indicator] :=
  ⟨_, initSimpleImputer_steps, by
    repeat' first
      | exact does_indicator
      | ctor_fields⟩

def tfidfPartStep : Step F := fun e => do return [("_tfidf", ← convertTfidf (← e.get "_tfidf"))]

theorem convertTfidf_iff (w r : PVal F) : convertTfidf w = .ok r ↔ ∃ v ns vs,
    w = .obj "TfidfTransformer" v ns vs ∧
      Built "feature_extraction.text.TfidfTransformerPure" tfidfFields v (ns.zip vs) r := by
  cases w with
  | obj c v ns vs =>
    rw [convertTfidf]
    by_cases hc : c = "TfidfTransformer"
    · subst hc
      rw [if_pos rfl, initTfidfTransformer_iff]
      constructor
      · intro h; exact ⟨v, ns, vs, rfl, h⟩
      · rintro ⟨v', ns', vs', h1, h⟩; cases h1; exact h
    · rw [if_neg hc]
      constructor
      · intro h; cases h
      · rintro ⟨v', ns', vs', h1, h⟩; cases h1; exact absurd rfl hc
  | _ =>
    constructor
    · intro h; cases h
    · rintro ⟨v', ns', vs', h1, h⟩; cases h1

theorem does_tfidfPart : Does (tfidfPartStep (F := F)) TfidfPart := by
  intro e l
  unfold tfidfPartStep TfidfPart
  constructor
  · intro h
    obtain ⟨w, hw, h⟩ := bind_ok_iff.1 h
    obtain ⟨r, hr, h⟩ := bind_ok_iff.1 h
    cases h
    obtain ⟨v, ns, vs, rfl, hb⟩ := (convertTfidf_iff _ _).1 hr
    exact ⟨v, ns, vs, r, (get_ok_iff _ _ _).1 hw, hb, rfl⟩
  · rintro ⟨v, ns, vs, r, hw, hb, rfl⟩
    rw [(get_ok_iff _ _ _).2 hw, py_ok_bind, (convertTfidf_iff _ _).2 ⟨v, ns, vs, rfl, hb⟩]
    rfl

theorem initTfidfVectorizer_steps : initTfidfVectorizer trunc =
    byStep "feature_extraction.text.TfidfVectorizerPure"
      (tfidfPartStep :: ([dtypeStep, copyStep "binary", vocabularyStep trunc] ++ textSteps)) := by
  funext e
  unfold initTfidfVectorizer byStep
  rw [runSteps]
  cases hv : checkVersion e.version none with
  | error x => rfl
  | ok w =>
    simp only [py_ok_bind, tfidfPartStep, bind_assoc, pure_bind]
    refine bind_congr fun a => bind_congr fun t => ?_
    rw [initCountWith_steps, hv]
    rfl

theorem initTfidfVectorizer_iff (e : SkFitted F) (r : PVal F) : initTfidfVectorizer trunc e = .ok r ↔
    Built "feature_extraction.text.TfidfVectorizerPure" (TfidfPart :: countFields trunc) e.version e.state r := by
  rw [initTfidfVectorizer_steps]
  exact byStep_iff (.cons does_tfidfPart (does_count trunc)) _ _ _

theorem initTfidfVectorizer_by : ByFields (F := F) (initTfidfVectorizer trunc) "feature_extraction.text.TfidfVectorizerPure" (TfidfPart :: countFields trunc) :=
  ⟨_, initTfidfVectorizer_steps trunc, .cons does_tfidfPart (does_count trunc)⟩

end

end PurePredict
