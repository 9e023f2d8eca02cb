import Verif.Spec.ConvertTree
import Verif.Props.C43
import Verif.Props.C44
import Verif.Props.C69
/-
Helper lemmas on the conversion of compound estimators.
-/
namespace PurePredict
open Spec
variable {α β V F : Type}

theorem SkObj.induct {P : SkObj α V F → Prop} (h : ∀ o, (∀ p ∈ parts o, P p) → P o) : ∀ o, P o := by
  intro o
  generalize hn : sizeOf o = n
  induction n using Nat.strong_induction_on generalizing o with
  | _ n ih =>
    subst hn
    refine h o fun p hp => ih _ ?_ p rfl
    cases o with
    | none => cases hp
    | str => cases hp
    | leaf => cases hp
    | pipeline v steps =>
      obtain ⟨s, hs, rfl⟩ := List.mem_map.1 hp
      have := List.sizeOf_lt_of_mem hs
      obtain ⟨n, o⟩ := s
      simp at this ⊢
      omega
    | union v steps w =>
      obtain ⟨s, hs, rfl⟩ := List.mem_map.1 hp
      have := List.sizeOf_lt_of_mem hs
      obtain ⟨n, o⟩ := s
      simp at this ⊢
      omega
    | ensemble k v fs cs ms =>
      have := List.sizeOf_lt_of_mem (show p ∈ ms from hp)
      simp
      omega
    | boosting v cs stages init loss hyper =>
      rcases List.mem_append.1 hp with hp | hp
      · obtain ⟨s, hs, hp⟩ := List.mem_flatten.1 hp
        have h1 := List.sizeOf_lt_of_mem hs
        have h2 := List.sizeOf_lt_of_mem hp
        simp
        omega
      · simp at hp
        subst hp
        simp
        omega

variable (K : Leaves α β V)

theorem convertAll_ok_iff (os : List (SkObj α V F)) (rs : List (PureEst β V F)) :
    convertAll K os = .ok rs ↔ List.Forall₂ (fun o r => convert K o = .ok r) os rs := by
  induction os generalizing rs with
  | nil =>
    rw [convertAll]
    constructor
    · intro h; cases h; exact .nil
    · intro h; cases h; rfl
  | cons o os ih =>
    rw [convertAll]
    constructor
    · intro h
      obtain ⟨r, hr, h⟩ := bind_ok_iff.1 h
      obtain ⟨rs', hrs, h⟩ := bind_ok_iff.1 h
      cases h
      exact .cons hr ((ih _).1 hrs)
    · intro h
      cases h with
      | cons h1 h2 => rw [h1, py_ok_bind, (ih _).2 h2]; rfl

theorem convertSteps_ok_iff (os : List (String × SkObj α V F)) (rs : List (String × PureEst β V F)) :
    convertSteps K os = .ok rs ↔ rs.map Prod.fst = os.map Prod.fst ∧
      List.Forall₂ (fun o r => convert K o = .ok r) (os.map Prod.snd) (rs.map Prod.snd) := by
  induction os generalizing rs with
  | nil =>
    rw [convertSteps]
    constructor
    · intro h; cases h; exact ⟨rfl, .nil⟩
    · rintro ⟨h, _⟩
      cases rs with
      | nil => rfl
      | cons => cases h
  | cons o os ih =>
    obtain ⟨n, o⟩ := o
    rw [convertSteps, convertStep]
    constructor
    · intro h
      obtain ⟨r, hr, h⟩ := bind_ok_iff.1 h
      obtain ⟨r', hr', h'⟩ := bind_ok_iff.1 hr
      obtain ⟨rs', hrs, h⟩ := bind_ok_iff.1 h
      cases h
      cases h'
      have := (ih _).1 hrs
      exact ⟨by simp [this.1], .cons hr' this.2⟩
    · rintro ⟨h1, h2⟩
      cases rs with
      | nil => cases h1
      | cons r rs =>
        obtain ⟨n', r⟩ := r
        simp only [List.map_cons, List.cons.injEq] at h1
        obtain ⟨rfl, h1⟩ := h1
        simp only [List.map_cons] at h2
        cases h2 with
        | cons h2 h3 => rw [h2, (ih rs).2 ⟨h1, h3⟩]; rfl

theorem convertStages_ok_iff (os : List (List (SkObj α V F))) (rs : List (List (PureEst β V F))) :
    convertStages K os = .ok rs ↔
      List.Forall₂ (List.Forall₂ (fun o r => convert K o = .ok r)) os rs := by
  induction os generalizing rs with
  | nil =>
    rw [convertStages]
    constructor
    · intro h; cases h; exact .nil
    · intro h; cases h; rfl
  | cons o os ih =>
    rw [convertStages]
    constructor
    · intro h
      obtain ⟨r, hr, h⟩ := bind_ok_iff.1 h
      obtain ⟨rs', hrs, h⟩ := bind_ok_iff.1 h
      cases h
      exact .cons ((convertAll_ok_iff K _ _).1 hr) ((ih _).1 hrs)
    · intro h
      cases h with
      | cons h1 h2 => rw [(convertAll_ok_iff K _ _).2 h1, py_ok_bind, (ih _).2 h2]; rfl

theorem forall₂_exists {γ δ : Type} {R : γ → δ → Prop} {l : List γ} :
    (∃ l', List.Forall₂ R l l') ↔ ∀ x ∈ l, ∃ y, R x y := by
  induction l with
  | nil => simp
  | cons a l ih =>
    constructor
    · rintro ⟨l', h⟩
      cases h with
      | cons h1 h2 =>
        intro x hx
        rcases List.mem_cons.1 hx with rfl | hx
        · exact ⟨_, h1⟩
        · exact ih.1 ⟨_, h2⟩ x hx
    · intro h
      obtain ⟨y, hy⟩ := h a (by simp)
      obtain ⟨l', hl⟩ := ih.2 fun x hx => h x (by simp [hx])
      exact ⟨y :: l', .cons hy hl⟩

theorem forall₂_imp_mem {γ δ : Type} {R S : γ → δ → Prop} {l : List γ} {l' : List δ}
    (h : List.Forall₂ R l l') (hi : ∀ x ∈ l, ∀ y, R x y → S x y) : List.Forall₂ S l l' := by
  induction h with
  | nil => exact .nil
  | cons h1 _ ih =>
    exact .cons (hi _ (by simp) _ h1) (ih fun x hx => hi x (by simp [hx]))

theorem convertAll_ok (os : List (SkObj α V F)) :
    (∃ rs, convertAll K os = .ok rs) ↔ ∀ o ∈ os, ∃ r, convert K o = .ok r := by
  rw [← forall₂_exists (R := fun o r => convert K o = .ok r)]
  exact exists_congr fun rs => convertAll_ok_iff K os rs

theorem convertSteps_ok (os : List (String × SkObj α V F)) :
    (∃ rs, convertSteps K os = .ok rs) ↔ ∀ o ∈ os.map Prod.snd, ∃ r, convert K o = .ok r := by
  constructor
  · rintro ⟨rs, h⟩
    exact forall₂_exists.1 ⟨_, ((convertSteps_ok_iff K os rs).1 h).2⟩
  · intro h
    obtain ⟨rs, hrs⟩ := (forall₂_exists (R := fun o r => convert K o = .ok r)).2 h
    refine ⟨(os.map Prod.fst).zip rs, (convertSteps_ok_iff K os _).2 ?_⟩
    have hl := hrs.length_eq
    rw [List.length_map] at hl
    rw [List.map_fst_zip (by simp [hl]), List.map_snd_zip (by simp [hl])]
    exact ⟨rfl, hrs⟩

theorem convertStages_ok (os : List (List (SkObj α V F))) :
    (∃ rs, convertStages K os = .ok rs) ↔ ∀ o ∈ os.flatten, ∃ r, convert K o = .ok r := by
  have h1 : (∃ rs, convertStages K os = .ok rs) ↔
      ∀ l ∈ os, ∃ r, List.Forall₂ (fun o r => convert K o = .ok r) l r := by
    rw [← forall₂_exists (R := List.Forall₂ fun o r => convert K o = .ok r)]
    exact exists_congr fun rs => convertStages_ok_iff K os rs
  rw [h1]
  simp only [forall₂_exists, List.mem_flatten]
  constructor
  · rintro h o ⟨l, hl, ho⟩; exact h l hl o ho
  · intro h l hl o ho; exact h o ⟨l, hl, ho⟩

/-! ### `check_types` of what was converted -/

theorem checkTypesAll_ok_iff (l : List PyObj) : checkTypesAll l = .ok () ↔ ∀ o ∈ l, checkTypes o = .ok () := by
  induction l with
  | nil => simp [checkTypesAll]
  | cons o l ih =>
    rw [checkTypesAll]
    constructor
    · intro h
      obtain ⟨_, h1, h2⟩ := bind_ok_iff.1 h
      intro x hx
      rcases List.mem_cons.1 hx with rfl | hx
      · exact h1
      · exact ih.1 h2 x hx
    · intro h
      rw [h o (by simp), py_ok_bind]
      exact ih.2 fun x hx => h x (by simp [hx])

theorem infix_append_of (a b c : List Char) (h : isInfix a b = true) : isInfix a (b ++ c) = true := by
  rw [isInfix_iff] at h ⊢
  exact h.trans (List.prefix_append _ _).isInfix

theorem pureCls_isPlain (dotted : String) : (pureCls dotted).isPlain = false := by
  have : (pureCls dotted).mro = ["object"] := rfl
  unfold Cls.isPlain
  rw [this]
  decide

theorem pureCls_isPure (dotted : String) : (pureCls dotted).isPure = true := by
  unfold Cls.isPure pureCls
  generalize (dotted ++ "'>").toList = c
  exact infix_append_of _ _ c (by decide)

theorem checkTypes_pureCls (dotted : String) (attrs : List PyObj) :
    checkTypes (.inst (pureCls dotted) attrs) = checkTypesAll attrs := by
  rw [checkTypes, pureCls_isPlain, pureCls_isPure]
  rfl

theorem checkTypes_strObj : checkTypes strObj = .ok () := by decide
theorem checkTypes_floatObj : checkTypes floatObj = .ok () := by decide
theorem checkTypes_intObj : checkTypes intObj = .ok () := by decide

theorem checkTypes_viewLoss (l : Loss) : checkTypes (viewLoss l) = .ok () := by
  cases l <;> simp [viewLoss, checkTypes_pureCls, checkTypesAll, checkTypes_intObj]

theorem checkTypes_viewWeights (ws : Option (List (String × F))) : checkTypes (viewWeights ws) = .ok () := by
  cases ws with
  | none => rfl
  | some ws =>
    simp only [viewWeights, checkTypes]
    rw [(checkTypesAll_ok_iff _).2, (checkTypesAll_ok_iff _).2]
    · rfl
    · intro o ho; obtain ⟨_, _, rfl⟩ := List.mem_map.1 ho; exact checkTypes_floatObj
    · intro o ho; obtain ⟨_, _, rfl⟩ := List.mem_map.1 ho; exact checkTypes_strObj

theorem checkTypes_viewFeatures (fs : Option (List (List Int))) :
    checkTypesAll (viewFeatures fs) = .ok () := by
  cases fs with
  | none => rfl
  | some fs =>
    simp only [viewFeatures, checkTypesAll, checkTypes]
    rw [(checkTypesAll_ok_iff _).2]
    · rfl
    · intro o ho
      obtain ⟨f, _, rfl⟩ := List.mem_map.1 ho
      rw [checkTypes, checkTypesAll_ok_iff]
      intro o ho
      obtain ⟨_, _, rfl⟩ := List.mem_map.1 ho
      exact checkTypes_intObj

theorem viewAll_eq (view : β → PyObj) (val : V → PyObj) (es : List (PureEst β V F)) : viewAll view val es = es.map (·.view view val) := by
  induction es with
  | nil => rfl
  | cons e es ih => rw [viewAll, ih]; rfl

theorem viewSteps_eq (view : β → PyObj) (val : V → PyObj) (es : List (String × PureEst β V F)) :
    viewSteps view val es = es.map fun s => .seq tupleCls [strObj, s.2.view view val] := by
  induction es with
  | nil => rfl
  | cons e es ih => rw [viewSteps, ih, viewStep]; rfl

theorem viewStages_eq (view : β → PyObj) (val : V → PyObj) (es : List (List (PureEst β V F))) :
    viewStages view val es = es.map fun l => .seq listCls (l.map (·.view view val)) := by
  induction es with
  | nil => rfl
  | cons e es ih => rw [viewStages, ih, viewAll_eq]; rfl

theorem checkTypesAll_map {γ : Type} (f : γ → PyObj) (l : List γ) (h : ∀ x ∈ l, checkTypes (f x) = .ok ()) :
    checkTypesAll (l.map f) = .ok () := by
  rw [checkTypesAll_ok_iff]
  intro o ho
  obtain ⟨x, hx, rfl⟩ := List.mem_map.1 ho
  exact h x hx

theorem view_pipeline_ok (view : β → PyObj) (val : V → PyObj) (ss : List (String × PureEst β V F))
    (h : ∀ r ∈ ss.map Prod.snd, checkTypes (r.view view val) = .ok ()) :
    checkTypes ((PureEst.pipeline ss).view view val) = .ok () := by
  rw [PureEst.view, checkTypes_pureCls]
  simp only [checkTypesAll, checkTypes, viewSteps_eq]
  rw [checkTypesAll_map]
  · rfl
  · intro s hs
    simp only [checkTypes, checkTypesAll, checkTypes_strObj]
    rw [h s.2 (List.mem_map_of_mem hs)]
    rfl

theorem view_union_ok (view : β → PyObj) (val : V → PyObj) (ss : List (String × PureEst β V F)) (ws : Option (List (String × F)))
    (h : ∀ r ∈ ss.map Prod.snd, checkTypes (r.view view val) = .ok ()) :
    checkTypes ((PureEst.union ss ws).view view val) = .ok () := by
  rw [PureEst.view, checkTypes_pureCls]
  simp only [checkTypesAll, checkTypes, viewSteps_eq, checkTypes_viewWeights]
  rw [checkTypesAll_map]
  · rfl
  · intro s hs
    simp only [checkTypes, checkTypesAll, checkTypes_strObj]
    rw [h s.2 (List.mem_map_of_mem hs)]
    rfl

theorem view_ensemble_ok (view : β → PyObj) (val : V → PyObj) (k : EnsKind) (fs : Option (List (List Int))) (cs : List V)
    (ms : List (PureEst β V F)) (h : ∀ r ∈ ms, checkTypes (r.view view val) = .ok ()) :
    checkTypes ((PureEst.ensemble k fs cs ms).view view val) = .ok () ↔ checkTypesAll (cs.map val) = .ok () := by
  rw [PureEst.view, checkTypes_pureCls, checkTypesAll_append, checkTypes_viewFeatures, py_ok_bind]
  simp only [checkTypesAll, checkTypes, viewAll_eq]
  rw [checkTypesAll_map _ _ h]
  cases checkTypesAll (cs.map val) with
  | ok u => exact ⟨fun _ => rfl, fun _ => rfl⟩
  | error e => simp

theorem view_boosting_ok (view : β → PyObj) (val : V → PyObj) (cs : List V) (stages : List (List (PureEst β V F)))
    (init : PureEst β V F) (l : Loss) (hyper : List V)
    (h : ∀ r ∈ stages.flatten, checkTypes (r.view view val) = .ok ())
    (hi : checkTypes (init.view view val) = .ok ()) :
    checkTypes ((PureEst.boosting cs stages init l hyper).view view val) = .ok () ↔
      checkTypesAll (cs.map val) = .ok () ∧ checkTypesAll (hyper.map val) = .ok () := by
  have hs : checkTypesAll (stages.map fun l => .seq listCls (l.map (·.view view val))) = .ok () :=
    checkTypesAll_map _ _ fun s hs => by
      rw [checkTypes]
      exact checkTypesAll_map _ _ fun r hr => h r (List.mem_flatten.2 ⟨s, hs, hr⟩)
  rw [PureEst.view, checkTypes_pureCls, checkTypesAll_append]
  simp only [checkTypesAll, checkTypes, viewStages_eq, hi, checkTypes_viewLoss, hs]
  cases checkTypesAll (cs.map val) with
  | ok u => simp
  | error e => simp

theorem checked_ok_iff (r r' : PureEst β V F) :
    checked K r = .ok r' ↔ checkTypes (r.view K.view K.val) = .ok () ∧ r' = r := by
  unfold checked
  cases checkTypes (r.view K.view K.val) with
  | ok u => simp [eq_comm]
  | error e => simp

end PurePredict
