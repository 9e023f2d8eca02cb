import Verif.Spec.Xgb
import Verif.Lemmas.Tree
/-
Parsing of the data frame of a booster.
-/
namespace PurePredict
open Spec
variable {F C : Type} [Arith F]

theorem numeral_eq (k : Nat) : numeral k = Nat.toDigits 10 k := by
  simp [numeral]

theorem digitChar_val : ∀ d < 10, (Nat.digitChar d).toNat - '0'.toNat = d := by decide
theorem digitChar_isDigit : ∀ d < 10, (Nat.digitChar d).isDigit = true := by decide

theorem numeral_digits (k : Nat) : ∀ c ∈ numeral k, c.isDigit = true := by
  rw [numeral_eq]
  exact fun c hc => Nat.isDigit_of_mem_toDigits (by norm_num) (by norm_num) hc

theorem numeral_ne_nil (k : Nat) : numeral k ≠ [] := by
  rw [numeral_eq]; exact Nat.toDigits_ne_nil

theorem numeral_foldl (k : Nat) :
    (numeral k).foldl (fun n c => 10 * n + (c.toNat - '0'.toNat)) 0 = k := by
  rw [numeral_eq]
  induction k using Nat.strong_induction_on with
  | _ k ih =>
    by_cases h : k < 10
    · rw [Nat.toDigits_of_lt_base h]
      simp only [List.foldl_cons, List.foldl_nil, digitChar_val k h]
      omega
    · rw [Nat.toDigits_of_base_le (by norm_num) (by omega), List.foldl_append,
        ih (k / 10) (by omega)]
      simp only [List.foldl_cons, List.foldl_nil, digitChar_val _ (Nat.mod_lt k (by norm_num))]
      omega

/-- `int(str(k)) == k` -/
theorem parseNat_numeral (k : Nat) : parseNat (numeral k) = .ok k := by
  have h1 : (numeral k).isEmpty = false := by
    cases h : numeral k with
    | nil => exact absurd h (numeral_ne_nil k)
    | cons => rfl
  have h2 : (numeral k).all (fun c => c.isDigit) = true := List.all_eq_true.2 (numeral_digits k)
  simp only [parseNat, h1, h2, numeral_foldl]
  rfl

theorem isDigit_ne_dash {c : Char} (h : c.isDigit = true) : (c != '-') = true := by
  by_contra hc
  have : c = '-' := by simpa using hc
  subst this
  exact absurd h (by decide)

theorem isDigit_ne_f {c : Char} (h : c.isDigit = true) : (c != 'f') = true := by
  by_contra hc
  have : c = 'f' := by simpa using hc
  subst this
  exact absurd h (by decide)

theorem afterLastDash_nodeId (t n : Nat) : afterLastDash (nodeId t n) = numeral n := by
  unfold afterLastDash nodeId
  rw [List.reverse_append, List.reverse_cons, List.append_assoc, List.takeWhile_append_of_pos]
  · simp
  · intro c hc
    exact isDigit_ne_dash (numeral_digits n c (by simpa using hc))

theorem parseChild_nodeId (t n : Nat) : parseChild (some (nodeId t n)) = .ok (n : Int) := by
  simp [parseChild, afterLastDash_nodeId, parseNat_numeral]

theorem numeral_getLast? (k : Nat) : (numeral k).getLast? = some (Nat.digitChar (k % 10)) := by
  rw [numeral_eq]
  by_cases h : k < 10
  · rw [Nat.toDigits_of_lt_base h, Nat.mod_eq_of_lt h]; rfl
  · rw [Nat.toDigits_of_base_le (by norm_num) (by omega)]; simp

/-- The feature parser keeps the last digit only. -/
theorem parseFeature_featName (k : Nat) : parseFeature (featName k) = .ok ((k % 10 : Nat) : Int) := by
  have h0 : (featName k == ['L', 'e', 'a', 'f']) = false := by
    simp [featName]
  have h1 : (featName k).filter (· != 'f') = numeral k := by
    unfold featName
    rw [List.filter_cons_of_neg (by simp), List.filter_eq_self]
    exact fun c hc => isDigit_ne_f (numeral_digits k c hc)
  have hm := Nat.mod_lt k (show 0 < 10 by norm_num)
  simp only [parseFeature, h0, h1, numeral_getLast?]
  simp only [parseNat, List.isEmpty_cons, List.all_cons, List.all_nil, digitChar_isDigit _ hm,
    List.foldl_cons, List.foldl_nil, digitChar_val _ hm]
  simp

theorem parseFeature_leaf : parseFeature "Leaf".toList = .ok (-2) := by decide

/-- Row `n` of the data frame (of booster tree `tid`) and the rows below it describe the tree. -/
inductive XgbFrame.Describes (e : XgbFrame F) (tid : Nat) : Nat → XTree F → Prop
  | leaf {n : Nat} {v : F} (hy : e.yes[n]? = some none) (hn : e.no[n]? = some none)
      (hg : e.gain[n]? = some v) : Describes e tid n (.leaf v)
  | split {n l r f : Nat} {thr : F} {lt rt : XTree F}
      (hy : e.yes[n]? = some (some (nodeId tid l))) (hn : e.no[n]? = some (some (nodeId tid r)))
      (hne : l ≠ r) (hf : e.feature[n]? = some (featName f)) (hs : e.split[n]? = some thr)
      (hnan : Arith.isnan thr = false)
      (hl : Describes e tid l lt) (hr : Describes e tid r rt) : Describes e tid n (.split f thr lt rt)

/-- Every cell of the data frame has the printed format. -/
structure XgbFrame.Printed (e : XgbFrame F) (tid : Nat) : Prop where
  yes : ∀ c ∈ e.yes, c = none ∨ ∃ n, c = some (nodeId tid n)
  no : ∀ c ∈ e.no, c = none ∨ ∃ n, c = some (nodeId tid n)
  feature : ∀ c ∈ e.feature, c = "Leaf".toList ∨ ∃ k, c = featName k

/-- The tree the conversion makes of a booster tree: last digit of the feature, `<=`. -/
def XTree.converted : XTree F → DTree F
  | .leaf v => .leaf [v]
  | .split f thr y n => .node (f % 10) thr (XTree.converted y) (XTree.converted n)

theorem parseChild_ok {tid : Nat} {c : Option (List Char)}
    (h : c = none ∨ ∃ n, c = some (nodeId tid n)) : ∃ i, parseChild c = .ok i := by
  rcases h with rfl | ⟨n, rfl⟩
  · exact ⟨-1, rfl⟩
  · exact ⟨n, parseChild_nodeId tid n⟩

theorem mapM_getElem? {α β : Type} {f : α → Py β} {l : List α} {ys : List β}
    (h : l.mapM f = .ok ys) {i : Nat} {x : α} (hx : l[i]? = some x) {y : β} (hf : f x = .ok y) :
    ys[i]? = some y := by
  obtain ⟨hi, rfl⟩ := List.getElem?_eq_some_iff.1 hx
  have hi' : i < ys.length := by rw [mapM_length h]; exact hi
  have := mapM_getElem h i hi hi'
  rw [hf] at this
  rw [List.getElem?_eq_getElem hi', Except.ok.inj this]

/-- Conversion of a printed booster tree: it succeeds, and the arrays encode `converted`. -/
theorem ofXgb_encodes {e : XgbFrame F} {tid : Nat} (hp : e.Printed tid) :
    ∃ t : Tree F C, Tree.ofXgb e = .ok t ∧
      ∀ n xt, e.Describes tid n xt → t.Encodes n (XTree.converted xt) := by
  obtain ⟨l, hl⟩ := mapM_total (f := parseChild) fun c hc => parseChild_ok (hp.yes c hc)
  obtain ⟨r, hr⟩ := mapM_total (f := parseChild) fun c hc => parseChild_ok (hp.no c hc)
  obtain ⟨f, hf⟩ := mapM_total (f := parseFeature) (l := e.feature) (by
    intro c hc
    rcases hp.feature c hc with rfl | ⟨k, rfl⟩
    · exact ⟨_, parseFeature_leaf⟩
    · exact ⟨_, parseFeature_featName k⟩)
  refine ⟨_, by simp only [Tree.ofXgb, hl, hr, hf, py_ok_bind]; rfl, ?_⟩
  intro n xt hd
  induction hd with
  | leaf hy hn hg =>
    exact .leaf (a := -1) (mapM_getElem? hl hy rfl) (mapM_getElem? hr hn rfl)
      (by simp [hg])
  | split hy hn hne hfe hs hnan _ _ ihl ihr =>
    refine .node (mapM_getElem? hl hy (parseChild_nodeId tid _))
      (mapM_getElem? hr hn (parseChild_nodeId tid _)) hne
      (mapM_getElem? hf hfe (parseFeature_featName _)) ?_ ihl ihr
    simp [hs, hnan]

/-- Evaluating the converted tree, under the conditions where it means the same. -/
theorem converted_eval {x : Nat → Option F} (xt : XTree F)
    (h10 : ∀ s ∈ xt.splits, s.1 < 10)
    (hties : ∀ s ∈ xt.splits, ∀ v, x s.1 = some v → (v ≤ₚ s.2) = (v <ₚ s.2)) :
    (XTree.converted xt).eval x = (xt.eval x).map fun v => [v] := by
  induction xt with
  | leaf v => rfl
  | split f thr y n ihy ihn =>
    have hf : f % 10 = f := Nat.mod_eq_of_lt (h10 (f, thr) (by simp [XTree.splits]))
    have ihy := ihy (fun s hs => h10 s (by simp [XTree.splits, hs]))
      (fun s hs => hties s (by simp [XTree.splits, hs]))
    have ihn := ihn (fun s hs => h10 s (by simp [XTree.splits, hs]))
      (fun s hs => hties s (by simp [XTree.splits, hs]))
    simp only [XTree.converted, DTree.eval, XTree.eval, hf]
    cases hx : x f with
    | none => rfl
    | some v =>
      simp only [hties (f, thr) (by simp [XTree.splits]) v hx, ihy, ihn]
      split <;> rfl

/-- `DecisionTreeRegressor.predict` on dense records, through the leaf reached. -/
theorem predictReg_encodes {t : Tree F C} {dt : DTree F} (h : t.Encodes 0 dt)
    {M : List (List F)} (hM : M ≠ []) {g : List F → F}
    (hg : ∀ r ∈ M, dt.eval (fun f => r[f]?) = some [g r]) :
    t.predictReg (.ofMat M) = .ok (M.map g) := by
  have hrow : ∀ r ∈ M, ∃ k : Nat, t.getLeafNode (.list r) = .ok (k : Int) ∧
      t.value[k]? = some [g r] := by
    intro r hr
    have := Tree.getLeafNode_encodes h (Row.list r)
    have e : (Row.list r).look = fun f => r[f]? := rfl
    rw [e, hg r hr] at this
    exact this
  choose! k h1 h2 using hrow
  simp only [Tree.predictReg, checkArray_ofMat hM, py_ok_bind, rows_ofMat]
  rw [mapM_map', mapM_ok_map h1, py_ok_bind, mapM_map']
  apply mapM_ok_map
  intro r hr
  simp [pyGet_ok_nat.2 (h2 r hr)]

end PurePredict
