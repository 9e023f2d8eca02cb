import Verif.Model.Utils
import Verif.Lemmas.Basic
/-
C44: what `check_types` guarantees.
-/
namespace PurePredict

namespace Spec
/-- The values an object refers to directly. -/
def children : PyObj → List PyObj
  | .none => []
  | .seq _ items => items
  | .map _ ks vs => ks ++ vs
  | .inst _ attrs => attrs

/-- `Reach o x`: `x` is `o` or referred to from it, at any depth. -/
inductive Reach : PyObj → PyObj → Prop
  | refl (o) : Reach o o
  | step {o c x} : c ∈ children o → Reach c x → Reach o x

/-- The printed form of a built-in class. -/
def builtinRepr (name : String) : List Char := ("<class '" ++ name ++ "'>").toList

/-- A value of a built-in type proper (not of a subclass defined elsewhere). -/
def Builtin : PyObj → Prop
  | .none => True
  | .seq c _ => c.repr = builtinRepr "list" ∨ c.repr = builtinRepr "tuple"
  | .map c _ _ => c.repr = builtinRepr "dict"
  | .inst c _ => c.repr ∈ ["int", "float", "str", "bool", "type"].map builtinRepr

/-- An instance of a class defined in the package. -/
def PureObj : PyObj → Prop
  | .inst c _ => ∃ rest, c.repr = "<class 'pure_sklearn.".toList ++ rest
  | _ => False

/-- The claim of C44. -/
def OnlyPlainData (o : PyObj) : Prop := ∀ x, Reach o x → Builtin x ∨ PureObj x

/-- A class with one of the plain built-in types among its bases. -/
def PlainClass (c : Cls) : Prop := ∃ t ∈ ["int", "float", "str", "bool", "type"], t ∈ c.mro

/-- A class whose printed form contains the package's name. -/
def NamesPackage (c : Cls) : Prop := "pure_sklearn".toList <:+: c.repr

/-- The values `check_types` looks into: as `children`, but the attributes of an instance of (a
subclass of) `int`, `float`, `str`, `bool` or `type` are not visited. -/
def Inspects (o x : PyObj) : Prop :=
  x ∈ children o ∧ ∀ c attrs, o = .inst c attrs → ¬ PlainClass c

inductive Visited : PyObj → PyObj → Prop
  | refl (o) : Visited o o
  | step {o c x} : Inspects o c → Visited c x → Visited o x

/-- What `check_types` accepts: containers, `None`, instances of subclasses of the plain types, and
instances of classes whose printed form contains "pure_sklearn". -/
def Accepted : PyObj → Prop
  | .inst c _ => PlainClass c ∨ NamesPackage c
  | _ => True
end Spec
open Spec

theorem isPlain_iff (c : Cls) : c.isPlain = true ↔ PlainClass c := by
  simp [Cls.isPlain, PlainClass]

theorem isInfix_iff (sub s : List Char) : isInfix sub s = true ↔ sub <:+: s := by
  induction s with
  | nil => simp [isInfix]
  | cons c s ih => rw [isInfix, Bool.or_eq_true, ih, List.isPrefixOf_iff_prefix, List.infix_cons_iff]

theorem isPure_iff (c : Cls) : c.isPure = true ↔ NamesPackage c := isInfix_iff _ _

theorem visited_iff {o x : PyObj} : Visited o x ↔ x = o ∨ ∃ c, Inspects o c ∧ Visited c x := by
  constructor
  · intro h
    cases h with
    | refl => exact .inl rfl
    | step hc hv => exact .inr ⟨_, hc, hv⟩
  · rintro (rfl | ⟨c, hc, hv⟩)
    · exact .refl _
    · exact .step hc hv

theorem checkTypesAll_append (a b : List PyObj) :
    checkTypesAll (a ++ b) = (do checkTypesAll a; checkTypesAll b) := by
  induction a with
  | nil => rfl
  | cons o a ih =>
    simp only [List.cons_append, checkTypesAll, ih]
    cases checkTypes o <;> rfl

theorem inspects_other {o x : PyObj} (h : ∀ c attrs, o ≠ .inst c attrs) :
    Inspects o x ↔ x ∈ children o :=
  ⟨fun hx => hx.1, fun hx => ⟨hx, fun c a e => absurd e (h c a)⟩⟩

theorem visited_all {o : PyObj} (ho : Accepted o) {items : List PyObj}
    (hi : ∀ x, Inspects o x ↔ x ∈ items) :
    (∀ x, Visited o x → Accepted x) ↔ ∀ c ∈ items, ∀ x, Visited c x → Accepted x := by
  constructor
  · exact fun h c hc x hv => h x (.step ((hi c).2 hc) hv)
  · intro h x hx
    rcases visited_iff.1 hx with rfl | ⟨c, hc, hv⟩
    · exact ho
    · exact h c ((hi c).1 hc) x hv

mutual
theorem checkTypes_iff : ∀ o : PyObj, checkTypes o = .ok () ↔ ∀ x, Visited o x → Accepted x
  | .none => by
    rw [visited_all (o := .none) (items := []) trivial fun x => inspects_other (by simp)]
    simp [checkTypes]
  | .seq c items => by
    rw [visited_all (o := .seq c items) (items := items) trivial fun x => inspects_other (by simp)]
    simp only [checkTypes, checkTypesAll_iff items]
  | .map c ks vs => by
    have ih1 := checkTypesAll_iff ks
    have ih2 := checkTypesAll_iff vs
    have : checkTypes (.map c ks vs) = .ok () ↔ checkTypesAll ks = .ok () ∧ checkTypesAll vs = .ok () := by
      simp only [checkTypes]
      cases checkTypesAll ks with
      | error e => simp
      | ok u => simp
    rw [this, ih1, ih2,
      visited_all (o := .map c ks vs) (items := ks ++ vs) trivial fun x => inspects_other (by simp)]
    simp only [List.mem_append, or_imp, forall_and]
  | .inst c attrs => by
    have ih := checkTypesAll_iff attrs
    simp only [checkTypes]
    by_cases hp : c.isPlain = true
    · rw [if_pos hp, visited_all (o := .inst c attrs) (items := []) (Or.inl ((isPlain_iff c).1 hp))]
      · simp
      · intro x
        simp only [List.not_mem_nil, iff_false]
        exact fun h => h.2 c attrs rfl ((isPlain_iff c).1 hp)
    · rw [if_neg hp]
      have hp' : ¬ PlainClass c := fun h => hp ((isPlain_iff c).2 h)
      by_cases hq : c.isPure = true
      · rw [if_pos hq, ih, visited_all (o := .inst c attrs) (items := attrs) (Or.inr ((isPure_iff c).1 hq))]
        intro x
        refine ⟨fun h => h.1, fun h => ⟨h, fun c' a' e => ?_⟩⟩
        cases e; exact hp'
      · rw [if_neg hq]
        constructor
        · intro h; cases h
        · intro h
          rcases h _ (.refl _) with h | h
          · exact absurd h hp'
          · exact absurd ((isPure_iff c).2 h) hq
theorem checkTypesAll_iff : ∀ os : List PyObj,
    checkTypesAll os = .ok () ↔ ∀ o ∈ os, ∀ x, Visited o x → Accepted x
  | [] => by simp [checkTypesAll]
  | o :: os => by
    have ih1 := checkTypes_iff o
    have ih2 := checkTypesAll_iff os
    have : checkTypesAll (o :: os) = .ok () ↔ checkTypes o = .ok () ∧ checkTypesAll os = .ok () := by
      simp only [checkTypesAll]
      cases checkTypes o with
      | error e => simp
      | ok u => simp
    rw [this, ih1, ih2]
    simp
end

/-- **C44**, what holds for all objects of any depth: `check_types` succeeds exactly when every object
it visits is acceptable. -/
theorem C44_check_types_partial (o : PyObj) :
    checkTypes o = .ok () ↔ ∀ x, Visited o x → Accepted x := checkTypes_iff o

mutual
theorem checkTypes_error : ∀ o : PyObj, ∀ e, checkTypes o = .error e → e = .valueError
  | .none => by intro e h; cases h
  | .seq c items => fun e h => checkTypesAll_error items e h
  | .map c ks vs => by
    intro e h
    simp only [checkTypes] at h
    rcases bind_error_iff.1 h with h | ⟨_, _, h⟩
    · exact checkTypesAll_error ks e h
    · exact checkTypesAll_error vs e h
  | .inst c attrs => by
    intro e h
    simp only [checkTypes] at h
    split at h
    · cases h
    · split at h
      · exact checkTypesAll_error attrs e h
      · cases h; rfl
theorem checkTypesAll_error : ∀ os : List PyObj, ∀ e, checkTypesAll os = .error e → e = .valueError
  | [] => by intro e h; cases h
  | o :: os => by
    intro e h
    simp only [checkTypesAll] at h
    rcases bind_error_iff.1 h with h | ⟨_, _, h⟩
    · exact checkTypes_error o e h
    · exact checkTypesAll_error os e h
end

/-- **C44**: rejection is always a `ValueError`. -/
theorem C44_error (o : PyObj) (h : checkTypes o ≠ .ok ()) : checkTypes o = .error .valueError := by
  cases hc : checkTypes o with
  | ok u => exact absurd hc h
  | error e => rw [checkTypes_error o e hc]

/-- No reachable object is an instance of a foreign subclass of a built-in type (and built-in numbers,
strings and classes have no instance attributes), and classes whose printed form contains
"pure_sklearn" are the package's. -/
def NotForeign : PyObj → Prop
  | .none => True
  | .seq c i => Builtin (.seq c i)
  | .map c k v => Builtin (.map c k v)
  | .inst c attrs => (PlainClass c → Builtin (.inst c attrs) ∧ attrs = []) ∧
      (NamesPackage c → PureObj (.inst c attrs))

/-- `NotForeign` everywhere in the object graph. -/
def NoForeignSubclasses (o : PyObj) : Prop := ∀ x, Reach o x → NotForeign x

theorem noForeign_iff (o : PyObj) : NoForeignSubclasses o ↔
    NotForeign o ∧ ∀ c ∈ children o, NoForeignSubclasses c := by
  constructor
  · exact fun h => ⟨h o (.refl o), fun c hc x hx => h x (.step hc hx)⟩
  · rintro ⟨h1, h2⟩ x hx
    cases hx with
    | refl => exact h1
    | step hc hx => exact h2 _ hc x hx

/-- **C44** for object graphs without foreign subclasses of the built-in types.  Missing: exactly such
subclasses (`numpy.float64` is one), for which the claim is false. -/
theorem C44_only_plain_partial (o : PyObj) (hf : NoForeignSubclasses o) (h : checkTypes o = .ok ()) :
    OnlyPlainData o := by
  have hv := (checkTypes_iff o).1 h
  intro x hx
  have hvis : Visited o x := by
    clear h hv
    induction hx with
    | refl => exact .refl _
    | @step o c x hc _ ih =>
      refine .step ?_ (ih fun y hy => hf y (.step hc hy))
      refine ⟨hc, ?_⟩
      rintro cl attrs rfl hp
      rw [((hf _ (.refl _)).1 hp).2] at hc
      simp [children] at hc
  have ha := hv x hvis
  have hfx := hf x hx
  cases x with
  | none => exact .inl trivial
  | seq => exact .inl hfx
  | map => exact .inl hfx
  | inst c attrs =>
    rcases ha with ha | ha
    · exact .inl (hfx.1 ha).1
    · exact .inr (hfx.2 ha)

/-- `numpy.float64` is a subclass of `float`. -/
def npFloat64 : Cls := ⟨"<class 'numpy.float64'>".toList, ["numpy.float64", "float", "object"]⟩

/-- **C44 is false**: a model holding a `numpy.float64` passes `check_types`. -/
theorem C44_false : ¬ ∀ o, checkTypes o = .ok () → OnlyPlainData o := by
  intro h
  have := h (.seq ⟨builtinRepr "list", ["list"]⟩ [.inst npFloat64 []]) (by decide) (.inst npFloat64 [])
    (.step (List.mem_singleton.2 rfl) (.refl _))
  rcases this with h | ⟨rest, h⟩
  · revert h
    show ¬ npFloat64.repr ∈ _
    decide
  · have := congrArg (List.take 10) h
    revert this
    rw [List.take_append_of_le_length (by decide)]
    decide

/-- Non-vacuity: a converted model with a nested list of floats, a dict and a nested package object
meets the hypotheses of `C44_only_plain_partial`; a numpy array is rejected. -/
example :
    let flt : PyObj := .inst ⟨builtinRepr "float", ["float"]⟩ []
    let str : PyObj := .inst ⟨builtinRepr "str", ["str"]⟩ []
    let lst : PyObj := .seq ⟨builtinRepr "list", ["list"]⟩ [flt, flt]
    let inner : PyObj := .inst ⟨"<class 'pure_sklearn.impute._base.MissingIndicatorPure'>".toList, []⟩ [lst]
    let model : PyObj := .inst ⟨"<class 'pure_sklearn.impute._base.SimpleImputerPure'>".toList, []⟩
      [lst, .map ⟨builtinRepr "dict", ["dict"]⟩ [str] [flt], inner, .none]
    checkTypes model = .ok () ∧ NoForeignSubclasses model ∧
    checkTypes (.seq ⟨builtinRepr "list", ["list"]⟩
      [flt, .inst ⟨"<class 'numpy.ndarray'>".toList, ["object"]⟩ []]) = .error .valueError := by
  intro flt str lst inner model
  refine ⟨by decide, ?_, by decide⟩
  have hflt : NoForeignSubclasses flt := (noForeign_iff _).2 ⟨⟨fun _ => ⟨by show _ ∈ _; decide, rfl⟩,
    fun h => absurd ((isPure_iff _).2 h) (by decide)⟩, by simp [children, flt]⟩
  have hstr : NoForeignSubclasses str := (noForeign_iff _).2 ⟨⟨fun _ => ⟨by show _ ∈ _; decide, rfl⟩,
    fun h => absurd ((isPure_iff _).2 h) (by decide)⟩, by simp [children, str]⟩
  have hlst : NoForeignSubclasses lst := (noForeign_iff _).2 ⟨.inl rfl, by simpa [children, lst] using hflt⟩
  have hinner : NoForeignSubclasses inner := (noForeign_iff _).2
    ⟨⟨fun h => absurd ((isPlain_iff _).2 h) (by decide), fun _ => ⟨"impute._base.MissingIndicatorPure'>".toList, by decide⟩⟩,
      by simpa [children, inner] using hlst⟩
  have hmap : NoForeignSubclasses (.map ⟨builtinRepr "dict", ["dict"]⟩ [str] [flt]) :=
    (noForeign_iff _).2 ⟨rfl, by simpa [children] using ⟨hstr, hflt⟩⟩
  have hnone : NoForeignSubclasses .none := (noForeign_iff _).2 ⟨trivial, by simp [children]⟩
  exact (noForeign_iff _).2
    ⟨⟨fun h => absurd ((isPlain_iff _).2 h) (by decide), fun _ => ⟨"impute._base.SimpleImputerPure'>".toList, by decide⟩⟩,
      by simpa [children, model] using ⟨hlst, hmap, hinner, hnone⟩⟩

end PurePredict
