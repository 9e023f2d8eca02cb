import Verif.Lemmas.Needs
/-
Objects held in attributes (tree_, indicator_, _tfidf) are complete when the conversion succeeds.
-/
namespace PurePredict
open Spec
variable {F : Type}

/-- When `f` succeeds, the object in the attribute `n` has the attributes `names`. -/
def Full (n : String) (names : List String) {β : Type} (f : SkFitted F → Py β) : Prop :=
  ∀ e r d w ns vs, f e = .ok r → Dict.get? e.state n = some (.obj d w ns vs) → ∀ m ∈ names, ∃ x, Dict.get? (ns.zip vs) m = some x

theorem Needs.present {n : String} {β : Type} {f : SkFitted F → Py β} (h : Needs n f) {e : SkFitted F} {r : β} (hr : f e = .ok r) : ∃ x, Dict.get? e.state n = some x := by
  cases hx : Dict.get? e.state n with
  | some x => exact ⟨x, rfl⟩
  | none =>
    have := h e e ⟨rfl, hx, fun _ _ => rfl⟩ r hr
    rw [hr] at this
    cases this

theorem tree_full (d : String) : Full (F := F) "tree_" ["children_left", "children_right", "feature", "threshold", "value"] (initTree d) := by
  intro e r c w ns vs hr hg m hm
  unfold initTree at hr
  obtain ⟨_, -, hr⟩ := bind_ok_iff.1 hr
  rw [get_some hg] at hr
  simp only [py_ok_bind] at hr
  obtain ⟨_, h1, hr⟩ := bind_ok_iff.1 hr
  obtain ⟨_, h2, hr⟩ := bind_ok_iff.1 hr
  obtain ⟨_, h3, hr⟩ := bind_ok_iff.1 hr
  obtain ⟨_, h4, hr⟩ := bind_ok_iff.1 hr
  obtain ⟨_, h5, hr⟩ := bind_ok_iff.1 hr
  simp only [List.mem_cons, List.not_mem_nil, or_false] at hm
  rcases hm with rfl | rfl | rfl | rfl | rfl
  · exact Needs.array.present h1
  · exact Needs.array.present h2
  · exact Needs.array.present h3
  · exact Needs.array.present h4
  · exact Needs.array.present h5

theorem imputer_full : Full (F := F) "indicator_" indicatorReads initSimpleImputer := by
  intro e r c w ns vs hr hg m hm
  unfold initSimpleImputer at hr
  obtain ⟨_, -, hr⟩ := bind_ok_iff.1 hr
  obtain ⟨_, -, hr⟩ := bind_ok_iff.1 hr
  obtain ⟨_, -, hr⟩ := bind_ok_iff.1 hr
  obtain ⟨_, -, hr⟩ := bind_ok_iff.1 hr
  obtain ⟨_, -, hr⟩ := bind_ok_iff.1 hr
  obtain ⟨_, hi, -⟩ := bind_ok_iff.1 hr
  unfold indicatorAttr at hi
  rw [hg] at hi
  obtain ⟨_, hi, -⟩ := bind_ok_iff.1 hi
  exact (indicator_needs m hm).present hi

theorem tfidfVectorizer_full (trunc : F → Py Int) : Full (F := F) "_tfidf" tfidfReads (initTfidfVectorizer trunc) := by
  intro e r c w ns vs hr hg m hm
  unfold initTfidfVectorizer at hr
  obtain ⟨_, -, hr⟩ := bind_ok_iff.1 hr
  rw [get_some hg] at hr
  simp only [py_ok_bind] at hr
  obtain ⟨_, ht, -⟩ := bind_ok_iff.1 hr
  unfold convertTfidf at ht
  simp only at ht
  split at ht
  · exact (tfidf_needs m hm).present ht
  · cases ht

/-- A constructor whose class keeps complete objects in its attributes. -/
def Kept (r : String × List String) (f : SkFitted F → Py (PVal F)) : Prop := ∀ n ∈ r.2, ∀ names, (n, names) ∈ partReads → Full n names f

theorem kept_none {r : String × List String} {f : SkFitted F → Py (PVal F)} (h : ∀ n ∈ r.2, n ∉ ["tree_", "indicator_", "_tfidf"]) : Kept r f := by
  intro n hn names hp
  refine absurd ?_ (h n hn)
  simp only [partReads, List.mem_cons, Prod.mk.injEq, List.not_mem_nil, or_false] at hp ⊢
  rcases hp with ⟨rfl, -⟩ | ⟨rfl, -⟩ | ⟨rfl, -⟩ <;> simp

theorem kept_one {r : String × List String} {f : SkFitted F → Py (PVal F)} {k : String} {ks : List String} (hk : (k, ks) ∈ partReads) (hf : Full k ks f)
    (h : ∀ n ∈ r.2, n = k ∨ n ∉ ["tree_", "indicator_", "_tfidf"]) : Kept r f := by
  intro n hn names hp
  rcases h n hn with rfl | h'
  · have : names = ks := by
      simp only [partReads, List.mem_cons, Prod.mk.injEq, List.not_mem_nil, or_false] at hp hk
      rcases hp with ⟨rfl, rfl⟩ | ⟨rfl, rfl⟩ | ⟨rfl, rfl⟩ <;> simp at hk <;> exact hk.symm
    subst this
    exact hf
  · refine absurd ?_ h'
    simp only [partReads, List.mem_cons, Prod.mk.injEq, List.not_mem_nil, or_false] at hp ⊢
    rcases hp with ⟨rfl, -⟩ | ⟨rfl, -⟩ | ⟨rfl, -⟩ <;> simp

theorem kept_tree (d c : String) : Kept (F := F) (c, treeReads) (initTree d) := kept_one (k := "tree_") (by simp [partReads]) (tree_full d) (by simp [treeReads])

theorem constructors_kept (trunc : F → Py Int) : List.Forall₂ (fun (p : String × (SkFitted F → Py (PVal F))) (r : String × List String) =>
    p.1 = r.1 ++ "Pure" ∧ Kept r p.2) (constructors trunc) readsTable := by
  unfold constructors readsTable
  exact .cons ⟨rfl, kept_none (by decide)⟩ <| .cons ⟨rfl, kept_none (by decide)⟩ <| .cons ⟨rfl, kept_none (by decide)⟩ <| .cons ⟨rfl, kept_none (by decide)⟩ <|
    .cons ⟨rfl, kept_none (by decide)⟩ <| .cons ⟨rfl, kept_none (by decide)⟩ <|
    .cons ⟨rfl, kept_tree _ _⟩ <| .cons ⟨rfl, kept_tree _ _⟩ <| .cons ⟨rfl, kept_tree _ _⟩ <| .cons ⟨rfl, kept_tree _ _⟩ <|
    .cons ⟨rfl, kept_none (by decide)⟩ <| .cons ⟨rfl, kept_none (by decide)⟩ <| .cons ⟨rfl, kept_none (by decide)⟩ <|
    .cons ⟨rfl, kept_one (k := "indicator_") (by simp [partReads]) imputer_full (by decide)⟩ <| .cons ⟨rfl, kept_none (by decide)⟩ <| .cons ⟨rfl, kept_none (by decide)⟩ <|
    .cons ⟨rfl, kept_none (by decide)⟩ <| .cons ⟨rfl, kept_none (by decide)⟩ <| .cons ⟨rfl, kept_none (by decide)⟩ <| .cons ⟨rfl, kept_none (by decide)⟩ <|
    .cons ⟨rfl, kept_none (by decide)⟩ <| .cons ⟨rfl, kept_none (by decide)⟩ <| .cons ⟨rfl, kept_none (by decide)⟩ <|
    .cons ⟨rfl, kept_one (k := "_tfidf") (by simp [partReads]) (tfidfVectorizer_full trunc) (by decide)⟩ <| .cons ⟨rfl, kept_none (by decide)⟩ <|
    .cons ⟨rfl, kept_none (by decide)⟩ <| .cons ⟨rfl, kept_none (by decide)⟩ .nil

theorem construct_kept [Arith F] (trunc : F → Py Int) (m : List Char) {c n : String} {names : List String} (hn : n ∈ readsOf c) (hp : (n, names) ∈ partReads) :
    Full (F := F) n names fun e => (singles trunc initXgb).construct m (c ++ "Pure").toList e := by
  rcases find_parallel (constructors_kept trunc) (fun p => p.1.toList == (c ++ "Pure").toList) (fun r => r.1 == c) (by
    rintro a b ⟨h1, -⟩
    rw [h1, Bool.eq_iff_iff]
    simp only [beq_iff_eq, String.toList_append, List.append_cancel_right_eq, String.toList_inj]) with ⟨h1, h2⟩ | ⟨p, r, h1, h2, -, hr⟩
  · exfalso
    unfold readsOf at hn
    rw [h2] at hn
    simp only [partReads, List.mem_cons, Prod.mk.injEq, List.not_mem_nil, or_false] at hp
    rcases hp with ⟨rfl, -⟩ | ⟨rfl, -⟩ | ⟨rfl, -⟩ <;> simp [xgbReads] at hn
  · unfold readsOf at hn
    rw [h2] at hn
    unfold singles
    simp only
    rw [h1]
    exact hr n hn names hp

end PurePredict
