import Verif.Spec.BoosterRows
import Verif.Props.C43
import Verif.Props.C98
import Verif.Props.C118
import Verif.Props.C121
/-
C123: of a booster's table the rows of the trees that count matter, tree by tree, and nothing else.
-/
namespace PurePredict
open Spec
variable {F : Type} [Arith F]

/-- the columns of a table, as attributes -/
def nodeColumns (rows : List (NodeRow F)) : Attrs F :=
  [("Tree", .list (rows.map fun r => .int r.tree)), ("Split", .list (rows.map NodeRow.split)), ("Gain", .list (rows.map NodeRow.gain)), ("Yes", .list (rows.map NodeRow.yes)),
   ("No", .list (rows.map NodeRow.no)), ("Feature", .list (rows.map NodeRow.feature))]

theorem nodeColumn (rows : List (NodeRow F)) (i : Nat) (g : NodeRow F → PVal F) {name : String} (h : frameColumn (nodeColumns rows) name = .ok (rows.map g)) :
    treeColumn (nodeColumns rows) i name = .ok ((nodesOf i rows).map g) := by
  unfold treeColumn
  rw [h, show frameColumn (nodeColumns rows) "Tree" = .ok (rows.map fun r => .int r.tree) from rfl]
  simp only [py_ok_bind]
  refine congrArg Except.ok ?_
  clear h
  unfold nodesOf
  induction rows with
  | nil => rfl
  | cons r rows ih =>
    simp only [List.map_cons, List.zip_cons_cons]
    by_cases hr : r.tree == i
    · rw [List.filter_cons_of_pos (by simpa [PVal.isIndex] using hr), List.filter_cons_of_pos (by simpa using hr), List.map_cons, List.map_cons, ih]
    · rw [List.filter_cons_of_neg (by simpa [PVal.isIndex] using hr), List.filter_cons_of_neg (by simpa using hr), ih]

theorem node_tree {rows rows' : List (NodeRow F)} {i : Nat} (h : nodesOf i rows = nodesOf i rows') : initXgbTree (nodeColumns rows) i = initXgbTree (nodeColumns rows') i := by
  have hc : ∀ (g : NodeRow F → PVal F) (name : String), (∀ l, frameColumn (nodeColumns l) name = .ok (l.map g)) →
      treeColumn (nodeColumns rows) i name = treeColumn (nodeColumns rows') i name := by
    intro g name hg
    rw [nodeColumn _ _ g (hg _), nodeColumn _ _ g (hg _), h]
  unfold initXgbTree
  rw [hc NodeRow.split "Split" fun _ => rfl, hc NodeRow.gain "Gain" fun _ => rfl, hc NodeRow.yes "Yes" fun _ => rfl, hc NodeRow.no "No" fun _ => rfl,
    hc NodeRow.feature "Feature" fun _ => rfl]

theorem node_trees {rows rows' : List (NodeRow F)} (i n : Nat) (h : ∀ j, i ≤ j → j < i + n → nodesOf j rows = nodesOf j rows') :
    initXgbTrees (nodeColumns rows) i n = initXgbTrees (nodeColumns rows') i n := by
  induction n generalizing i with
  | zero => rfl
  | succ n ih => rw [initXgbTrees, initXgbTrees, node_tree (h i (Nat.le_refl _) (by omega)), ih (i + 1) fun j h1 h2 => h j (by omega) (by omega)]

theorem node_rounds {rows rows' : List (NodeRow F)} (k i n : Nat) (h : ∀ j, i ≤ j → j < i + n * k → nodesOf j rows = nodesOf j rows') :
    initXgbRounds (nodeColumns rows) k i n = initXgbRounds (nodeColumns rows') k i n := by
  induction n generalizing i with
  | zero => rfl
  | succ n ih =>
    have hk : (n + 1) * k = k + n * k := by rw [Nat.add_mul, Nat.one_mul, Nat.add_comm]
    rw [hk] at h
    rw [initXgbRounds, initXgbRounds, node_trees i k fun j h1 h2 => h j h1 (by omega), ih (i + k) fun j h1 h2 => h j (by omega) (by omega)]

/-- **C123**: two boosters whose tables have the same rows, in the same order, for each tree that counts, give the same conversion. -/
theorem C123_rows (trunc : F → Py Int) {v : Option (List Char)} {a : Attrs F} {rows rows' : List (NodeRow F)} {n k : Nat} (hn : Dict.get? a "n_estimators" = some (.int n))
    (hk : Dict.get? a "n_classes_" = some (.int k)) (h : ∀ i < treeCount k n, nodesOf i rows = nodesOf i rows') :
    convert (singles trunc initXgb) (.leaf "XGBClassifier" v (Dict.set a "get_booster" (boosterOf rows)) : SkObj (Attrs F) (PVal F) F) =
      convert (singles trunc initXgb) (.leaf "XGBClassifier" v (Dict.set a "get_booster" (boosterOf rows'))) := by
  have hg : ∀ (l : List (NodeRow F)) m, m ≠ "get_booster" → (⟨"XGBClassifier", v, Dict.set a "get_booster" (boosterOf l)⟩ : SkFitted F).get m = (⟨"XGBClassifier", v, a⟩ : SkFitted F).get m := by
    intro l m hm
    unfold Fitted.get
    simp only [Dict.get?_set, if_neg hm.symm]
  have hb : ∀ l : List (NodeRow F), (⟨"XGBClassifier", v, Dict.set a "get_booster" (boosterOf l)⟩ : SkFitted F).get "get_booster" = .ok (boosterOf l) := by
    intro l
    unfold Fitted.get
    simp only [Dict.get?_set, if_true]
  have hf : ∀ l : List (NodeRow F), boosterFrame (boosterOf l) = .ok (nodeColumns l) := fun l => rfl
  have gn : (⟨"XGBClassifier", v, a⟩ : SkFitted F).get "n_estimators" = .ok (.int n) := by unfold Fitted.get; simp only [hn]
  have gk : (⟨"XGBClassifier", v, a⟩ : SkFitted F).get "n_classes_" = .ok (.int k) := by unfold Fitted.get; simp only [hk]
  have hi : initXgb (⟨"XGBClassifier", v, Dict.set a "get_booster" (boosterOf rows)⟩ : SkFitted F) = initXgb ⟨"XGBClassifier", v, Dict.set a "get_booster" (boosterOf rows')⟩ := by
    unfold initXgb Fitted.array
    simp only [hg _ "objective" (by decide), hg _ "booster" (by decide), hg _ "classes_" (by decide), hg _ "n_classes_" (by decide), hg _ "n_estimators" (by decide), hb, hf, gn, gk,
      py_ok_bind, PVal.index, Int.toNat_natCast]
    by_cases h2 : k = 2
    · subst h2
      have : initXgbTrees (nodeColumns rows) 0 n = initXgbTrees (nodeColumns rows') 0 n := node_trees 0 n fun j _ hj => h j (by simpa [treeCount] using hj)
      simp only [this, Nat.cast_ofNat, BEq.rfl, if_true]
    · have : initXgbRounds (nodeColumns rows) k 0 n = initXgbRounds (nodeColumns rows') k 0 n := node_rounds k 0 n fun j _ hj => h j (by simpa [treeCount, h2] using hj)
      have hk2 : ((k : Int) == 2) = false := by
        rw [beq_eq_false_iff_ne]
        omega
      simp only [this, hk2, Bool.false_eq_true, if_false]
  rw [convert, convert, C43_supported _ _ _ (m := "pure_sklearn.xgboost") ⟨["XGBClassifier"], by simp [exports], by simp⟩,
    C43_supported _ _ _ (m := "pure_sklearn.xgboost") ⟨["XGBClassifier"], by simp [exports], by simp⟩]
  unfold singles
  simp only
  rw [xgb_apart trunc]
  simp only [hi]

/-- **C123**: trees after the last that counts (numbers from `n_estimators`, or `n_estimators` times the number of classes, on) may be in the table or not. -/
theorem C123_later_trees (trunc : F → Py Int) {v : Option (List Char)} {a : Attrs F} (rows : List (NodeRow F)) {n k : Nat} (hn : Dict.get? a "n_estimators" = some (.int n))
    (hk : Dict.get? a "n_classes_" = some (.int k)) :
    convert (singles trunc initXgb) (.leaf "XGBClassifier" v (Dict.set a "get_booster" (boosterOf rows)) : SkObj (Attrs F) (PVal F) F) =
      convert (singles trunc initXgb) (.leaf "XGBClassifier" v (Dict.set a "get_booster" (boosterOf (rows.filter fun r => decide (r.tree < treeCount k n))))) := by
  refine C123_rows trunc hn hk fun i hi => ?_
  unfold nodesOf
  rw [List.filter_filter]
  refine List.filter_congr fun r _ => ?_
  by_cases hr : r.tree == (i : Int)
  · have : r.tree = i := by simpa using hr
    simp [this, hi]
  · simp [hr]

/-- **C123**: the trees may be listed in any order, and their rows mixed, as long as the rows of each tree keep their order: sorting the table by tree changes nothing. -/
theorem C123_sorted (trunc : F → Py Int) {v : Option (List Char)} {a : Attrs F} (rows : List (NodeRow F)) {n k : Nat} (hn : Dict.get? a "n_estimators" = some (.int n))
    (hk : Dict.get? a "n_classes_" = some (.int k)) :
    convert (singles trunc initXgb) (.leaf "XGBClassifier" v (Dict.set a "get_booster" (boosterOf rows)) : SkObj (Attrs F) (PVal F) F) =
      convert (singles trunc initXgb) (.leaf "XGBClassifier" v (Dict.set a "get_booster" (boosterOf ((List.range (treeCount k n)).flatMap fun i => nodesOf i rows)))) := by
  refine C123_rows trunc hn hk fun i hi => ?_
  have hone : ∀ j, nodesOf i (nodesOf j rows) = if j = i then nodesOf i rows else [] := by
    intro j
    unfold nodesOf
    rw [List.filter_filter]
    split
    · subst j
      simp
    · rename_i hj
      rw [List.filter_eq_nil_iff]
      intro r _ hr
      simp only [Bool.and_eq_true, beq_iff_eq] at hr
      omega
  have hall : ∀ l : List Nat, nodesOf i (l.flatMap fun j => nodesOf j rows) = l.flatMap fun j => if j = i then nodesOf i rows else [] := by
    intro l
    induction l with
    | nil => rfl
    | cons j l ih =>
      rw [List.flatMap_cons, List.flatMap_cons, ← ih, ← hone]
      unfold nodesOf
      rw [List.filter_append]
  rw [hall]
  generalize treeCount k n = N at hi
  induction N with
  | zero => omega
  | succ N ih =>
    rw [List.range_succ, List.flatMap_append]
    by_cases hN : i = N
    · subst hN
      have : ((List.range i).flatMap fun j => if j = i then nodesOf i rows else []) = [] := by
        rw [List.flatMap_eq_nil_iff]
        intro j hj
        rw [if_neg (by have := List.mem_range.1 hj; omega)]
      rw [this]
      simp
    · rw [← ih (by omega)]
      simp [Ne.symm hN]

/-- Conversion depends on the parts of a fitted object through their conversions. -/
theorem upTo_convert {K : Leaves (Attrs F) (PVal F) (PVal F)} {R : SkObj (Attrs F) (PVal F) F → SkObj (Attrs F) (PVal F) F → Prop} (hR : ∀ o o', R o o' → convert K o = convert K o')
    {o o' : SkObj (Attrs F) (PVal F) F} (h : UpTo R o o') : convert K o = convert K o' := by
  induction h with
  | same => rfl
  | part h => exact hR _ _ h
  | pipeline hn _ ih => rw [convert, convert, steps_equipped hn ih]
  | union hn _ ih => rw [convert, convert, steps_equipped hn ih]
  | ensemble hl _ ih => rw [convert, convert, all_equipped hl ih]
  | boosting hl hs _ _ ih ihi => rw [convert, convert, stages_equipped hl hs ih, ihi]

/-- **C123**, anywhere in a pipeline, union, bagging or boosting model: rows of trees that do not count, and the order of the trees, do not matter. -/
theorem C123_anywhere (trunc : F → Py Int) {o o' : SkObj (Attrs F) (PVal F) F} (h : UpTo SameNodes o o') :
    convert (singles trunc initXgb) o = convert (singles trunc initXgb) o' :=
  upTo_convert (fun _ _ hR => by cases hR with | mk hn hk h => exact C123_rows trunc hn hk h) h

/-! ### Cases -/

/-- a classifier of one tree, a leaf, with the table left open -/
noncomputable def singleLeaf : Attrs (XR fp) :=
  [("objective", .str "binary:logistic"), ("booster", .str "gbtree"), ("classes_", .ndarray (.list [.str "no", .str "yes"])), ("n_classes_", .int 2), ("n_estimators", .int 1)]

/-- the row of a leaf -/
noncomputable def leafRow (t : Int) (g : XR fp) : NodeRow (XR fp) := ⟨t, .float .nan, .float g, .float .nan, .float .nan, .str "Leaf"⟩

/-- The classifier is converted. -/
example (trunc : XR fp → Py Int) (lib : String → TextLib) (encode : Str → List Nat) (g : XR fp) :
    ∃ r, convert (singles trunc initXgb) (.leaf "XGBClassifier" (some "0.22".toList) (Dict.set singleLeaf "get_booster" (boosterOf [leafRow 0 g])) : SkObj (Attrs (XR fp)) (PVal (XR fp)) (XR fp)) = .ok r := by
  have hl : Learned "XGBClassifier" (leafXgb [g]) (.xgb ⟨.binaryLogistic, [.str "no", .str "yes"], 2, 1, .binary [leafXgbTree g]⟩) :=
    .xgb (ob := "binary:logistic") (K := 2) (n := 1) (rows := leafRows [g]) rfl rfl ⟨rfl, strings_plain ["no", "yes"]⟩ rfl rfl (leafXgb_table _) rfl
  obtain ⟨r, hr, -⟩ := C89_converted_behaves trunc lib encode _ _ (.single (v := some "0.22".toList) version_022 hl)
  refine ⟨r, (C121_unread trunc (.leaf fun n hn => ?_)).trans hr⟩
  have hn : n ∈ ["objective", "booster", "classes_", "n_classes_", "n_estimators", "get_booster"] := hn
  simp only [List.mem_cons, List.not_mem_nil, or_false] at hn
  rcases hn with rfl | rfl | rfl | rfl | rfl | rfl
  · exact .same _ _
  · exact .same _ _
  · exact .same _ _
  · exact .same _ _
  · exact .same _ _
  · refine .booster rfl rfl fun m hm => ?_
    simp only [List.mem_cons, List.not_mem_nil, or_false] at hm
    rcases hm with rfl | rfl | rfl | rfl | rfl | rfl <;> rfl

/-- A second tree, left over from training, changes nothing, wherever its row is. -/
example (trunc : XR fp → Py Int) (g x : XR fp) :
    convert (singles trunc initXgb) (.leaf "XGBClassifier" (some "0.22".toList) (Dict.set singleLeaf "get_booster" (boosterOf [leafRow 1 x, leafRow 0 g])) : SkObj (Attrs (XR fp)) (PVal (XR fp)) (XR fp)) =
      convert (singles trunc initXgb) (.leaf "XGBClassifier" (some "0.22".toList) (Dict.set singleLeaf "get_booster" (boosterOf [leafRow 0 g]))) :=
  C123_later_trees trunc (n := 1) (k := 2) [leafRow 1 x, leafRow 0 g] rfl rfl

/-- The same behind a scaler. -/
example (trunc : XR fp → Py Int) (g x : XR fp) (v : Option (List Char)) (s : SkObj (Attrs (XR fp)) (PVal (XR fp)) (XR fp)) :
    convert (singles trunc initXgb) (.pipeline v [("scale", s), ("clf", .leaf "XGBClassifier" none (Dict.set singleLeaf "get_booster" (boosterOf [leafRow 1 x, leafRow 0 g])))]) =
      convert (singles trunc initXgb) (.pipeline v [("scale", s), ("clf", .leaf "XGBClassifier" none (Dict.set singleLeaf "get_booster" (boosterOf [leafRow 0 g])))]) := by
  refine C123_anywhere trunc (.pipeline rfl fun p hp => ?_)
  simp only [List.map_cons, List.map_nil, List.zip_cons_cons, List.zip_nil_left, List.mem_cons, List.not_mem_nil, or_false] at hp
  rcases hp with rfl | rfl
  · exact .same _
  · refine .part (.mk (n := 1) (k := 2) rfl rfl fun i hi => ?_)
    have : i = 0 := by simpa [treeCount] using hi
    subst this
    rfl

end PurePredict
