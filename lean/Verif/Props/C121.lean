import Verif.Lemmas.Reads
import Verif.Props.C113
/-
C121: conversion depends on the listed attributes of the fitted objects and on nothing else.
-/
namespace PurePredict
open Spec
variable {F : Type} [Arith F] (trunc : F → Py Int)

theorem leaf_reads {c : String} {v : Option (List Char)} {a a' : Attrs F} (h : AgreeRead c a a') :
    convert (singles trunc initXgb) (.leaf c v a : SkObj (Attrs F) (PVal F) F) = convert (singles trunc initXgb) (.leaf c v a') := by
  rw [convert, convert]
  by_cases hm : ∃ m, Counterpart m c
  · obtain ⟨m, hm⟩ := hm
    rw [C43_supported _ _ _ hm, C43_supported _ _ _ hm, construct_reads trunc _ (e := ⟨c, v, a⟩) (e' := ⟨c, v, a'⟩) ⟨rfl, h⟩]
  · have hm := not_exists.1 hm
    rw [C43_unsupported _ _ _ hm, C43_unsupported _ _ _ hm]

theorem all_equipped {α β V F : Type} {K : Leaves α β V} {l l' : List (SkObj α V F)} (hl : l.length = l'.length) (h : ∀ p ∈ l.zip l', convert K p.1 = convert K p.2) :
    convertAll K l = convertAll K l' := by
  induction l generalizing l' with
  | nil => cases l' with
    | nil => rfl
    | cons => cases hl
  | cons x l ih => cases l' with
    | nil => cases hl
    | cons y l' =>
      rw [convertAll, convertAll, h (x, y) (by simp), ih (Nat.succ.inj hl) fun p hp => h p (by simp [hp])]

theorem steps_equipped {α β V F : Type} {K : Leaves α β V} {l l' : List (String × SkObj α V F)} (hn : l.map Prod.fst = l'.map Prod.fst)
    (h : ∀ p ∈ (l.map Prod.snd).zip (l'.map Prod.snd), convert K p.1 = convert K p.2) : convertSteps K l = convertSteps K l' := by
  induction l generalizing l' with
  | nil => cases l' with
    | nil => rfl
    | cons => cases hn
  | cons x l ih => cases l' with
    | nil => cases hn
    | cons y l' =>
      obtain ⟨n, o⟩ := x
      obtain ⟨n', o'⟩ := y
      simp only [List.map_cons, List.cons.injEq] at hn
      obtain ⟨rfl, hn⟩ := hn
      rw [convertSteps, convertSteps, convertStep, convertStep, h (o, o') (by simp), ih hn fun p hp => h p (by simp [hp])]

theorem stages_equipped {α β V F : Type} {K : Leaves α β V} {l l' : List (List (SkObj α V F))} (hl : l.length = l'.length) (hs : ∀ p ∈ l.zip l', p.1.length = p.2.length)
    (h : ∀ p ∈ l.zip l', ∀ q ∈ p.1.zip p.2, convert K q.1 = convert K q.2) : convertStages K l = convertStages K l' := by
  induction l generalizing l' with
  | nil => cases l' with
    | nil => rfl
    | cons => cases hl
  | cons x l ih => cases l' with
    | nil => cases hl
    | cons y l' =>
      rw [convertStages, convertStages, all_equipped (hs (x, y) (by simp)) (h (x, y) (by simp)), ih (Nat.succ.inj hl) (fun p hp => hs p (by simp [hp])) fun p hp => h p (by simp [hp])]

/-- **C121**: fitted objects of the same build whose single estimators agree in the attributes that matter are converted to the same object, or refused with the same
exception. -/
theorem C121_unread {o o' : SkObj (Attrs F) (PVal F) F} (h : Equipped o o') : convert (singles trunc initXgb) o = convert (singles trunc initXgb) o' := by
  induction h with
  | same => rfl
  | leaf h => exact leaf_reads trunc h
  | pipeline hn _ _ ih => rw [convert, convert, steps_equipped hn ih]
  | union hn _ _ ih => rw [convert, convert, steps_equipped hn ih]
  | ensemble hl _ ih => rw [convert, convert, all_equipped hl ih]
  | boosting hl hs _ _ ih ihi => rw [convert, convert, stages_equipped hl hs ih, ihi]

/-- **C121**, one estimator: setting an attribute that is not listed (a hyper-parameter, something recorded in training, anything else) changes nothing. -/
theorem C121_set {c n : String} (hn : n ∉ readsOf c) (v : Option (List Char)) (a : Attrs F) (x : PVal F) :
    convert (singles trunc initXgb) (.leaf c v (Dict.set a n x) : SkObj (Attrs F) (PVal F) F) = convert (singles trunc initXgb) (.leaf c v a) := by
  refine C121_unread trunc (.leaf fun m hm => ?_)
  rw [Dict.get?_set, if_neg (by rintro rfl; exact hn hm)]
  exact .same _ _

/-- **C121**, one estimator: all attributes that are not listed may be taken away. -/
theorem C121_strip (c : String) (v : Option (List Char)) (a : Attrs F) :
    convert (singles trunc initXgb) (.leaf c v (a.filter fun p => decide (p.1 ∈ readsOf c)) : SkObj (Attrs F) (PVal F) F) = convert (singles trunc initXgb) (.leaf c v a) := by
  refine C121_unread trunc (.leaf fun m hm => ?_)
  have : Dict.get? (a.filter fun p => decide (p.1 ∈ readsOf c)) m = Dict.get? a m := by
    induction a with
    | nil => rfl
    | cons p a ih =>
      obtain ⟨k, y⟩ := p
      by_cases hk : k ∈ readsOf c
      · rw [List.filter_cons_of_pos (by simpa using hk), Dict.get?_cons, Dict.get?_cons, ih]
      · rw [List.filter_cons_of_neg (by simpa using hk), ih, Dict.get?_cons, if_neg]
        rintro rfl
        exact hk hm
  rw [this]
  exact .same _ _

/-! ### Cases -/

/-- The penalty and the number of iterations of a logistic regression do not matter. -/
example (W b : List F) (x y : PVal F) :
    convert (singles trunc initXgb) (.leaf "LogisticRegression" (some "0.22".toList) (Dict.set (Dict.set (linearOf W b [.str "a", .str "b"]) "C" x) "n_iter_" y) : SkObj (Attrs F) (PVal F) F) =
      convert (singles trunc initXgb) (.leaf "LogisticRegression" (some "0.22".toList) (linearOf W b [.str "a", .str "b"])) := by
  rw [C121_set trunc (by decide), C121_set trunc (by decide)]

/-- It is converted, so this is no comparison of refusals. -/
example (lib : String → TextLib) (encode : Str → List Nat) (W b : List F) : ∃ r, convert (singles trunc initXgb) (.leaf "LogisticRegression" (some "0.22".toList) (linearOf W b [.str "a", .str "b"]) : SkObj (Attrs F) (PVal F) F) = .ok r := by
  obtain ⟨r, hr, -⟩ := C89_converted_behaves trunc lib encode _ _ (.single version_022 (linearOf_learned (c := "LogisticRegression") (k := .logistic) (by simp [linearClasses]) W b (strings_plain ["a", "b"])))
  exact ⟨r, hr⟩

/-- a tree of which the impurities and the numbers of samples in the nodes were recorded, and the depth allowed -/
def recordedTree (l r f th v labels imp num depth : PVal F) : Attrs F :=
  [("classes_", labels), ("max_depth", depth), ("tree_", .obj "Tree" none ["impurity", "children_left", "children_right", "n_node_samples", "feature", "threshold", "value"] [imp, l, r, num, f, th, v])]

/-- In a forest in a pipeline, with other records and another depth. -/
example (l r f th v labels imp num depth imp' num' depth' : PVal F) (cs : List (PVal F)) : let w := some "0.22".toList
    let o : PVal F → PVal F → PVal F → SkObj (Attrs F) (PVal F) F := fun i n d => SkObj.pipeline w [("forest", .ensemble .randomForest w none cs [.leaf "DecisionTreeClassifier" w (recordedTree l r f th v labels i n d)])]
    convert (singles trunc initXgb) (o imp num depth) = convert (singles trunc initXgb) (o imp' num' depth') := by
  intro w o
  refine C121_unread trunc (.pipeline rfl rfl fun p hp => ?_)
  simp only [List.map_cons, List.map_nil, List.zip_cons_cons, List.zip_nil_left, List.mem_cons, List.not_mem_nil, or_false] at hp
  subst hp
  refine .ensemble rfl fun q hq => ?_
  simp only [List.zip_cons_cons, List.zip_nil_left, List.mem_cons, List.not_mem_nil, or_false] at hq
  subst hq
  refine .leaf fun n hn => ?_
  have hn : n ∈ ["tree_", "classes_"] := hn
  simp only [List.mem_cons, List.not_mem_nil, or_false] at hn
  rcases hn with rfl | rfl
  · refine .part (names := ["children_left", "children_right", "feature", "threshold", "value"]) (by simp [partReads]) fun m hm => ?_
    simp only [List.mem_cons, List.not_mem_nil, or_false] at hm
    rcases hm with rfl | rfl | rfl | rfl | rfl <;> rfl
  · exact .same _ _

/-- Columns of a booster's table that are not read (here the number of records covered). -/
example {c v} {cs : List String} {xs : List (PVal F)} (x y : PVal F) :
    SameRead "get_booster" (some (.obj c v ["trees_to_dataframe"] [.obj "DataFrame" none ("Cover" :: cs) (x :: xs)])) (some (.obj c v ["trees_to_dataframe"] [.obj "DataFrame" none ("Cover" :: cs) (y :: xs)])) := by
  refine .booster rfl rfl fun m hm => ?_
  rw [List.zip_cons_cons, List.zip_cons_cons, Dict.get?_cons, Dict.get?_cons, if_neg (by rintro rfl; simp at hm), if_neg (by rintro rfl; simp at hm)]

end PurePredict
