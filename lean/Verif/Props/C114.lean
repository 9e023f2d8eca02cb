import Verif.Lemmas.Redrawn
import Verif.Props.C112
/-
C114: of a tree only the function matters: the numbering of its nodes, tests that decide nothing and the order of its tests do not.
-/
namespace PurePredict
open Spec
variable {lib : String → TextLib} {encode : Str → List Nat} {F : Type} [Arith F]

/-- **C114**, with all rounding: a fitted object and the same object with trees that are the same functions are both converted, have the same
methods, and on the requests in question both give the same answer, or both raise. -/
theorem C114_redrawn (trunc : F → Py Int) {P : Data F → Prop} {o o' : SkObj (Attrs F) (PVal F) F} (h : Redrawn lib encode P o o')
    {f : Methods F} (hb : Behaves lib encode o f) :
    ∃ c c', convert (singles trunc initXgb) o = .ok c ∧ convert (singles trunc initXgb) o' = .ok c' ∧
      AgreeFor P (c.methods lib encode) (c'.methods lib encode) := by
  obtain ⟨f', hb', hr⟩ := Redraw.behaves_redrawn h hb
  obtain ⟨c, hc, rfl⟩ := C89_converted_behaves trunc lib encode o f hb
  obtain ⟨c', hc', rfl⟩ := C89_converted_behaves trunc lib encode o' f' hb'
  exact ⟨c, c', hc, hc', hr⟩

/-- **C114** for the trees scikit-learn grows: classifiers holding two grown trees that are the same function. -/
theorem C114_grown {c : String} {v : Option (List Char)} {e e' : Attrs F} {s s' : SkTree F} {cs : List (PVal F)} {w : Nat}
    (hc : c = "DecisionTreeClassifier" ∨ c = "ExtraTreeClassifier") (he : HoldsTree e s) (he' : HoldsTree e' s') (hl : HasLabels e cs) (hl' : HasLabels e' cs)
    (hv : ∀ a ∈ s.values, a ≠ []) (hv' : ∀ a ∈ s'.values, a ≠ []) (hf : SameFunction w s.first s'.first) :
    Redrawn lib encode (HasColumns w) (.leaf c v e) (.leaf c v e') := by
  obtain ⟨t, h1, h2, h3⟩ := Tree.ofSklearn_encodes s hv (some cs) [PVal.int (F := F) 0, .int 1]
  obtain ⟨t', h1', h2', h3'⟩ := Tree.ofSklearn_encodes s' hv' (some cs) [PVal.int (F := F) 0, .int 1]
  exact .tree (.treeClassifier (cs := some cs) hc he hl h1) (.treeClassifier (cs := some cs) hc he' hl' h1')
    (.classifier (.function (h3'.trans h3.symm) h2 h2' hf fun _ h => h))

/-! ### Which trees are the same function -/

theorem C114_same (w : Nat) (d : DTree F) : SameFunction w d d := fun _ _ => rfl
theorem C114_symm {w : Nat} {d d' : DTree F} (h : SameFunction w d d') : SameFunction w d' d := fun x hx => (h x hx).symm
theorem C114_trans {w : Nat} {a b c : DTree F} (h : SameFunction w a b) (h' : SameFunction w b c) : SameFunction w a c := fun x hx => (h x hx).trans (h' x hx)

/-- Parts of a tree may be replaced. -/
theorem C114_inside {w : Nat} {l l' r r' : DTree F} (h : SameFunction w l l') (h' : SameFunction w r r') (f : Nat) (thr : F) :
    SameFunction w (.node f thr l r) (.node f thr l' r') := by
  intro x hx
  simp only [DTree.eval]
  cases x f with
  | none => rfl
  | some v => simp only [h x hx, h' x hx]

/-- A test that decides nothing may be left out. -/
theorem C114_useless_test {w f : Nat} (hf : f < w) (thr : F) (d : DTree F) : SameFunction w (.node f thr d d) d := by
  intro x hx
  obtain ⟨v, hv⟩ := hx f hf
  simp only [DTree.eval, hv, ite_self]

/-- Two tests made one after the other whatever the first says may be exchanged. -/
theorem C114_exchanged_tests {w f g : Nat} (hf : f < w) (hg : g < w) (s t : F) (a b c d : DTree F) :
    SameFunction w (.node f s (.node g t a b) (.node g t c d)) (.node g t (.node f s a c) (.node f s b d)) := by
  intro x hx
  obtain ⟨v, hv⟩ := hx f hf
  obtain ⟨u, hu⟩ := hx g hg
  simp only [DTree.eval, hv, hu]
  split <;> split <;> rfl

theorem xr_le_trans {fp : FP} {a b c : XR fp} (h : (a ≤ₚ b) = true) (h' : (b ≤ₚ c) = true) : (a ≤ₚ c) = true := by
  have e : ∀ x y : XR fp, (x ≤ₚ y) = XR.le x y := fun _ _ => rfl
  rw [e] at *
  cases a <;> cases b <;> cases c <;> simp [XR.le, XR.lt, XR.eq] at h h' ⊢
  rcases h with h | h <;> rcases h' with h' | h'
  · exact .inl (h.trans h')
  · exact .inl (h' ▸ h)
  · exact .inl (h ▸ h')
  · exact .inr (h.trans h')

/-- A test of the same column after the answer "at most `s`" is decided already if its threshold is not smaller. -/
theorem C114_decided_left {fp : FP} {w : Nat} (f : Nat) {s t : XR fp} (h : (s ≤ₚ t) = true) (a b c : DTree (XR fp)) :
    SameFunction w (.node f s (.node f t a b) c) (.node f s a c) := by
  intro x hx
  simp only [DTree.eval]
  cases x f with
  | none => rfl
  | some v =>
    simp only
    split
    · rename_i hv
      rw [if_pos (xr_le_trans hv h)]
    · rfl

/-- A test of the same column after the answer "not at most `s`" is decided already if its threshold is not larger.  (Also for NaN, which goes to the right.) -/
theorem C114_decided_right {fp : FP} {w : Nat} (f : Nat) {s t : XR fp} (h : (t ≤ₚ s) = true) (a b c : DTree (XR fp)) :
    SameFunction w (.node f s a (.node f t b c)) (.node f s a c) := by
  intro x hx
  simp only [DTree.eval]
  cases x f with
  | none => rfl
  | some v =>
    simp only
    split
    · rfl
    · rename_i hv
      rw [if_neg fun hv' => hv (xr_le_trans hv' h)]

/-- A member of an ensemble that reads some of the columns gets records of that many columns, so `Redrawn.inEnsemble` applies. -/
theorem C114_columns {cols : List Int} {X Y : Arr F} (h : TakesColumns cols X Y) : HasColumns cols.length (.arr Y) := by
  obtain ⟨rs, rs', -, rfl, hF⟩ := h
  intro r hr
  obtain ⟨r', hr', rfl⟩ := List.mem_map.1 hr
  obtain ⟨r0, -, hrr⟩ := forall₂_mem_right hF hr'
  exact Nat.le_of_eq hrr.length_eq

/-! ### Cases -/

/-- a classification tree given by its arrays -/
def arraysTree (l r f : List Int) (th : List F) (v : List (List F)) (labels : List (PVal F)) : Attrs F :=
  [("classes_", .ndarray (.list labels)), ("tree_", .obj "Tree" none ["children_left", "children_right", "feature", "threshold", "value"]
    [.ndarray (vints l), .ndarray (vints r), .ndarray (vints f), .ndarray (vnums th), .ndarray (.list (v.map fun a => vmat [a]))])]

theorem arraysTree_learned (l r f : List Int) (th : List F) (v : List (List F)) {labels : List (PVal F)} (hl : ∀ c ∈ labels, Plain c) :
    Learned "DecisionTreeClassifier" (arraysTree l r f th v labels) (.treeClassifier ⟨l, r, f, th, v, labels⟩) := by
  refine .treeClassifier (cs := some labels) (value := v.map fun a => [a]) (.inl rfl) ⟨_, _, _, _, rfl, rfl, rfl, rfl, rfl, ?_⟩ ⟨rfl, hl⟩ ?_
  · rw [List.map_map]
    rfl
  · unfold Tree.ofSklearn
    have : ((v.map fun a => [a]).mapM fun a => pyGet a 0) = .ok v := by
      rw [mapM_map']
      exact (mapM_ok_map fun _ _ => rfl).trans (by simp)
    rw [this]
    rfl

/-- Three leaves, depth first (as scikit-learn numbers the nodes) and breadth first, with a node nobody reaches. -/
theorem twoNumberings (a b c d : F) (p q r : List F) : let v := some "0.22".toList
    Redrawn lib encode (fun _ => True)
      (.leaf "DecisionTreeClassifier" v (arraysTree [1, 2, -1, -1, -1] [4, 3, -1, -1, -1] [0, 1, -2, -2, -2] [a, b, d, d, d] [p, p, p, q, r] [.str "x", .str "y"]))
      (.leaf "DecisionTreeClassifier" v (arraysTree [1, 3, -1, -1, -1, -1] [2, 4, -1, -1, -1, -1] [0, 1, -2, -2, -2, 7] [a, b, c, c, c, c] [q, q, r, p, q, []] [.str "x", .str "y"])) := by
  intro v
  refine .tree (arraysTree_learned _ _ _ _ _ (strings_plain ["x", "y"])) (arraysTree_learned _ _ _ _ _ (strings_plain ["x", "y"])) (.classifier
    (.numbered (d := .node 0 a (.node 1 b (.leaf p) (.leaf q)) (.leaf r)) rfl ?_ ?_))
  · exact .node (l := 1) (r := 4) rfl rfl (by decide) rfl rfl (.node (l := 2) (r := 3) rfl rfl (by decide) rfl rfl (.leaf (a := -1) rfl rfl rfl) (.leaf (a := -1) rfl rfl rfl)) (.leaf (a := -1) rfl rfl rfl)
  · exact .node (l := 1) (r := 2) rfl rfl (by decide) rfl rfl (.node (l := 3) (r := 4) rfl rfl (by decide) rfl rfl (.leaf (a := -1) rfl rfl rfl) (.leaf (a := -1) rfl rfl rfl)) (.leaf (a := -1) rfl rfl rfl)

/-- The whole statement for it, and inside a forest. -/
example (trunc : F → Py Int) (a b c d : F) (p q r : List F) :=
  C114_redrawn (lib := lib) (encode := encode) trunc (twoNumberings a b c d p q r) (.single version_022 (arraysTree_learned _ _ _ _ _ (strings_plain ["x", "y"])))

/-- A forest whose member reads columns 2 and 0; the test of its second column that decides nothing is left out. -/
example (a d : F) (p : List F) : let v := some "0.22".toList
    Redrawn lib encode (fun _ => True)
      (.ensemble .bagging v (some [[2, 0]]) [.str "x", .str "y"] [.leaf "DecisionTreeClassifier" v (arraysTree [1, -1, -1] [2, -1, -1] [1, -2, -2] [a, d, d] [p, p, p] [.str "x", .str "y"])])
      (.ensemble .bagging v (some [[2, 0]]) [.str "x", .str "y"] [.leaf "DecisionTreeClassifier" v (arraysTree [-1] [-1] [-2] [d] [p] [.str "x", .str "y"])]) := by
  intro v
  refine .inEnsemble (P := HasColumns 2) (fun h => (nomatch h)) (fun l hl cols hc X Y _ hY => ?_) rfl fun p hp => ?_
  · cases hl
    simp only [List.mem_cons, List.not_mem_nil, or_false] at hc
    subst hc
    exact C114_columns hY
  · simp only [List.zip_cons_cons, List.zip_nil_right, List.mem_cons, List.not_mem_nil, or_false] at hp
    subst hp
    exact .tree (arraysTree_learned _ _ _ _ _ (strings_plain ["x", "y"])) (arraysTree_learned _ _ _ _ _ (strings_plain ["x", "y"])) (.classifier
      (.function rfl (.node (l := 1) (r := 2) rfl rfl (by decide) rfl rfl (.leaf (a := -1) rfl rfl rfl) (.leaf (a := -1) rfl rfl rfl)) (.leaf (a := -1) rfl rfl rfl)
        (C114_useless_test (by norm_num) a _) fun _ h => h))

/-- Enough columns are needed: without its second column a record makes the tree raise, with the useless test left out it is answered. -/
theorem C114_narrow_record (trunc : F → Py Int) (a d x : F) (p : List F) : let v := some "0.22".toList
    ∃ c c' q q', convert (singles trunc initXgb) (.leaf "DecisionTreeClassifier" v (arraysTree [1, -1, -1] [2, -1, -1] [1, -2, -2] [a, d, d] [p, p, p] [.str "x", .str "y"])) = .ok c ∧
      convert (singles trunc initXgb) (.leaf "DecisionTreeClassifier" v (arraysTree [-1] [-1] [-2] [d] [p] [.str "x", .str "y"])) = .ok c' ∧
      (c.methods lib encode).predictProba = some q ∧ (c'.methods lib encode).predictProba = some q' ∧
      q (.arr (.ofMat [[x]])) = .error .indexError ∧ q' (.arr (.ofMat [[x]])) = (do return [← p.mapM fun y => y /ₚ pySum p]) := by
  intro v
  obtain ⟨c, hc, e⟩ := C89_converted_behaves trunc lib encode _ _ (.single version_022 (arraysTree_learned [1, -1, -1] [2, -1, -1] [1, -2, -2] [a, d, d] [p, p, p] (strings_plain ["x", "y"])))
  obtain ⟨c', hc', e'⟩ := C89_converted_behaves trunc lib encode _ _ (.single version_022 (arraysTree_learned [-1] [-1] [-2] [d] [p] (strings_plain ["x", "y"])))
  refine ⟨c, c', _, _, hc, hc', by rw [e]; rfl, by rw [e']; rfl, rfl, ?_⟩
  show (List.mapM _ [_] : Py _) = _
  rw [mapM_cons']
  rfl

end PurePredict
