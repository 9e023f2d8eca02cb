import Verif.Model.Pipeline
import Verif.Spec.Pipeline
import Verif.Lemmas.Sparse
/-
Helper lemmas for `FeatureUnion`.
-/
namespace PurePredict
open Spec
variable {F : Type} [Arith F]

theorem forall₂_left {α β : Type} {R : α → β → Prop} {l : List α} {l' : List β} (h : List.Forall₂ R l l') :
    ∀ a ∈ l, ∃ b ∈ l', R a b := by
  induction h with
  | nil => simp
  | cons h _ ih =>
    intro a ha
    rcases List.mem_cons.1 ha with rfl | ha
    · exact ⟨_, by simp, h⟩
    · obtain ⟨b, hb, hr⟩ := ih a ha
      exact ⟨b, by simp [hb], hr⟩

theorem forall₂_right {α β : Type} {R : α → β → Prop} {l : List α} {l' : List β} (h : List.Forall₂ R l l') :
    ∀ b ∈ l', ∃ a ∈ l, R a b := forall₂_left h.flip

/-- Rows of the blocks laid side by side from column `s` on. -/
def concatFrom (s : Nat) : List (Dict Int F × Nat) → Dict Int F
  | [] => []
  | (d, w) :: rest => d.map (fun kv => (kv.1 + (s : Int), kv.2)) ++ concatFrom (s + w) rest

omit [Arith F] in
theorem shift_keys (s : Nat) (d : Dict Int F) :
    (d.map fun kv => (kv.1 + (s : Int), kv.2)).map Prod.fst = (d.map Prod.fst).map (· + (s : Int)) := by
  simp [List.map_map, Function.comp_def]

omit [Arith F] in
theorem shift_nodup {w s : Nat} {d : Dict Int F} (h : ValidRow w d) :
    ((d.map fun kv => (kv.1 + (s : Int), kv.2)).map Prod.fst).Nodup := by
  rw [shift_keys]
  exact h.1.map (fun a b hab => by simpa using hab)

omit [Arith F] in
theorem concatFrom_valid (l : List (Dict Int F × Nat)) (hl : ∀ p ∈ l, ValidRow p.2 p.1) (s : Nat) :
    ((concatFrom s l).map Prod.fst).Nodup ∧
      ∀ p ∈ concatFrom s l, (s : Int) ≤ p.1 ∧ p.1 < ((s + (l.map Prod.snd).sum : Nat) : Int) := by
  induction l generalizing s with
  | nil => simp [concatFrom]
  | cons q rest ih =>
    obtain ⟨d, w⟩ := q
    have hd : ValidRow w d := hl (d, w) (by simp)
    obtain ⟨h1, h2⟩ := ih (fun p hp => hl p (by simp [hp])) (s + w)
    constructor
    · rw [concatFrom, List.map_append]
      refine List.Nodup.append (shift_nodup hd) h1 ?_
      intro a ha hb
      obtain ⟨p, hp, rfl⟩ := List.mem_map.1 ha
      obtain ⟨q, hq, rfl⟩ := List.mem_map.1 hp
      obtain ⟨p', hp', he⟩ := List.mem_map.1 hb
      have := (h2 p' hp').1
      have := (hd.2 q hq).2
      simp only at he
      push_cast at *
      omega
    · intro p hp
      rw [concatFrom, List.mem_append] at hp
      rw [List.map_cons, List.sum_cons]
      rcases hp with hp | hp
      · obtain ⟨q, hq, rfl⟩ := List.mem_map.1 hp
        have := hd.2 q hq
        push_cast
        constructor <;> omega
      · have := h2 p hp
        push_cast at this ⊢
        constructor <;> omega

omit [Arith F] in
theorem get?_append (a b : Dict Int F) (k : Int) :
    Dict.get? (a ++ b) k = (Dict.get? a k).or (Dict.get? b k) := by
  rw [get?_eq_find?, get?_eq_find?, get?_eq_find?, List.find?_append]
  cases a.find? fun p => p.1 = k <;> rfl

omit [Arith F] in
theorem get?_shift (d : Dict Int F) (s k : Int) :
    Dict.get? (d.map fun kv => (kv.1 + s, kv.2)) k = Dict.get? d (k - s) := by
  induction d with
  | nil => rfl
  | cons p d ih =>
    rw [List.map_cons, Dict.get?_cons, Dict.get?_cons, ih]
    have : p.1 + s = k ↔ p.1 = k - s := by omega
    by_cases h : p.1 = k - s
    · rw [if_pos h, if_pos (this.2 h)]
    · rw [if_neg h, if_neg (mt this.1 h)]

omit [Arith F] in
/-- The dense row denoted by the concatenation is the concatenation of the dense rows. -/
theorem concatFrom_dense (z : F) (l : List (Dict Int F × Nat)) (hl : ∀ p ∈ l, ValidRow p.2 p.1) (s : Nat) :
    ((List.range (l.map Prod.snd).sum).map fun (i : Nat) => entry z (concatFrom s l) (s + i)) =
      (l.map fun p => dense z p.2 p.1).flatten := by
  induction l generalizing s with
  | nil => simp
  | cons q rest ih =>
    obtain ⟨d, w⟩ := q
    have hd : ValidRow w d := hl (d, w) (by simp)
    have hr := fun p hp => hl p (List.mem_cons_of_mem (d, w) hp)
    rw [List.map_cons, List.sum_cons, List.range_add, List.map_append, List.map_cons, List.flatten_cons,
      ← ih hr (s + w), List.map_map]
    congr 1
    · simp only [dense]
      apply List.map_congr_left
      intro i hi
      have hi : i < w := by simpa using hi
      rw [entry_eq_get?, entry_eq_get?, concatFrom, get?_append, get?_shift]
      have : Dict.get? (concatFrom (s + w) rest) ((s + i : Nat) : Int) = none := by
        rw [Dict.get?_eq_none_iff]
        intro hm
        obtain ⟨p, hp, he⟩ := List.mem_map.1 hm
        have := ((concatFrom_valid rest hr (s + w)).2 p hp).1
        push_cast at *
        omega
      rw [this, Option.or_none]
      congr 2
      push_cast
      omega
    · apply List.map_congr_left
      intro i _
      simp only [Function.comp]
      rw [entry_eq_get?, entry_eq_get?, concatFrom, get?_append, get?_shift]
      have : Dict.get? d (((s + (w + i) : Nat) : Int) - s) = none := by
        rw [Dict.get?_eq_none_iff]
        intro hm
        obtain ⟨p, hp, he⟩ := List.mem_map.1 hm
        have := (hd.2 p hp).2
        push_cast at *
        omega
      rw [this, Option.none_or]
      congr 2
      push_cast
      omega

theorem shiftKeys_eq {w : Nat} (s : Nat) {d : Dict Int F} (h : ValidRow w d) :
    shiftKeys s d = d.map fun kv => (kv.1 + (s : Int), kv.2) := by
  rw [shiftKeys, Dict.ofList_eq_self (shift_nodup h)]

/-- The `parts` of `unionRow`. -/
theorem union_parts (i : Nat) (blocks : List (List (Dict Int F) × Nat))
    (hb : ∀ B ∈ blocks, i < B.1.length ∧ ∀ d ∈ B.1, ValidRow B.2 d) (s : Nat) :
    ∃ parts, ((List.zip blocks (s :: accumuFrom s (blocks.map (·.2)))).mapM fun p => do
        return shiftKeys p.2 (← pyGet p.1.1 (i : Int))) = .ok parts ∧
      parts.flatten = concatFrom s (blocks.map fun B => ((B.1[i]?).getD [], B.2)) := by
  induction blocks generalizing s with
  | nil => exact ⟨[], rfl, rfl⟩
  | cons B blocks ih =>
    obtain ⟨h1, h2⟩ := hb B (by simp)
    obtain ⟨parts, hp, hf⟩ := ih (fun B hB => hb B (by simp [hB])) (s + B.2)
    refine ⟨shiftKeys s B.1[i] :: parts, ?_, ?_⟩
    · rw [List.map_cons, accumuFrom, List.zip_cons_cons, mapM_cons', hp]
      simp only [pyGet_lt h1, py_ok_bind, py_pure]
    · rw [List.flatten_cons, hf, List.map_cons, concatFrom, shiftKeys_eq s (h2 _ (List.getElem_mem h1)),
        List.getElem?_eq_getElem h1]
      rfl

theorem unionRow_ok (i : Nat) (blocks : List (List (Dict Int F) × Nat))
    (hb : ∀ B ∈ blocks, i < B.1.length ∧ ∀ d ∈ B.1, ValidRow B.2 d) :
    unionRow blocks (0 :: accumu (blocks.map (·.2))) i =
      .ok (concatFrom 0 (blocks.map fun B => ((B.1[i]?).getD [], B.2))) := by
  obtain ⟨parts, hp, hf⟩ := union_parts i blocks hb 0
  unfold unionRow accumu
  rw [hp]
  simp only [py_ok_bind, py_pure, hf]
  rw [Dict.ofList_eq_self]
  refine (concatFrom_valid _ ?_ 0).1
  intro p hp
  obtain ⟨B, hB, rfl⟩ := List.mem_map.1 hp
  obtain ⟨h1, h2⟩ := hb B hB
  rw [List.getElem?_eq_getElem h1]
  exact h2 _ (List.getElem_mem h1)

end PurePredict
