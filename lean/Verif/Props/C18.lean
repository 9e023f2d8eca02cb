import Verif.Lemmas.RoundedLinks
import Verif.Lemmas.Mat
import Verif.Model.Ensemble
import Verif.Props.C06
/-
C18: XGBoost probabilities.
-/
namespace PurePredict
open Spec
variable {F C : Type} [Arith F]

/-- The trees' outputs on a batch of `n` records: tree `t` returns `o 0 … o (n-1)`. -/
def TreeReturns (X : Arr F) (n : Nat) (t : Tree F C) (o : Nat → F) : Prop :=
  t.predictReg X = .ok ((List.range n).map o)

theorem foldl_addTree {X : Arr F} {n : Nat} {ts : List (Tree F C)} {os : List (Nat → F)}
    (h : List.Forall₂ (TreeReturns X n) ts os) (acc : Nat → F) :
    ts.foldlM (Xgb.addTree X) ((List.range n).map acc) =
      .ok ((List.range n).map fun i => os.foldl (fun a o => a +ₚ o i) (acc i)) := by
  induction h generalizing acc with
  | nil => rfl
  | cons h _ ih =>
    unfold TreeReturns at h
    rw [List.foldlM_cons, Xgb.addTree, h]
    simp only [py_pure, py_ok_bind, List.zipWith_map, List.zipWith_self]
    rw [ih]
    rfl

theorem foldl_fin (os : List (Nat → ℝ)) (i : Nat) (a : ℝ) :
    (os.map fun o (i : Nat) => (XR.fin (o i) : Ex)).foldl (fun a o => a +ₚ o i) (.fin a) =
      .fin (a + (os.map fun o => o i).sum) := by
  induction os generalizing a with
  | nil => simp
  | cons o os ih =>
    simp only [List.map_cons, List.foldl_cons, XR.add_exact, ih, List.sum_cons, add_assoc]

theorem replicate_eq_range_map {α : Type} (n : Nat) (a : α) :
    List.replicate n a = (List.range n).map fun _ => a := by
  simp [List.map_const']

/-- The summed tree outputs of record `i`. -/
noncomputable def total (os : List (Nat → ℝ)) (i : Nat) : ℝ := (os.map fun o => o i).sum

theorem predictBinary_exact {m : Xgb Ex C} {M : List (List Ex)}
    {ts : List (Tree Ex C)} (hts : m.trees = .binary ts) {os : List (Nat → ℝ)}
    (h : List.Forall₂ (fun t o => TreeReturns (.ofMat M) M.length t fun i => .fin (o i)) ts os) :
    m.predictBinary (.ofMat M) = .ok ((List.range M.length).map fun i => .fin (total os i)) := by
  have h' : List.Forall₂ (TreeReturns (.ofMat M) M.length) ts
      (os.map fun o (i : Nat) => (XR.fin (o i) : Ex)) := by
    rw [List.forall₂_map_right_iff]
    exact h
  simp only [Xgb.predictBinary, len_ofMat, py_ok_bind, hts, replicate_eq_range_map,
    foldl_addTree h', XR.ofInt_exact, Int.cast_zero]
  simp only [foldl_fin, zero_add]
  rfl

/-- **C18**, binary: class 1 has probability sigmoid of the summed tree outputs, class 0 the
complement; every row is a distribution. -/
theorem C18_binary (m : Xgb Ex C) (hobj : m.objective = .binaryLogistic) (ts : List (Tree Ex C))
    (hts : m.trees = .binary ts) (M : List (List Ex)) (hM : M ≠ []) (os : List (Nat → ℝ))
    (h : List.Forall₂ (fun t o => TreeReturns (.ofMat M) M.length t fun i => .fin (o i)) ts os) :
    m.predictProba (.ofMat M) = .ok ((List.range M.length).map fun i =>
      fins [1 - sigmoid (total os i), sigmoid (total os i)]) ∧
    ∀ i, IsDist 2 [1 - sigmoid (total os i), sigmoid (total os i)] := by
  refine ⟨?_, fun i => pair_isDist _⟩
  simp only [Xgb.predictProba, checkArray_ofMat hM, py_ok_bind, hobj, predictBinary_exact hts h]
  rw [mapM_map', mapM_ok_map (g := fun i => (XR.fin (sigmoid (total os i)) : Ex))
    fun i _ => expit_exact _]
  simp

/-- **C18**, multi-class: softmax of the summed tree outputs of each class; every row is a
distribution. `os c` lists the outputs of the trees of class `c`, round by round. -/
theorem C18_multi (m : Xgb Ex C) (hobj : m.objective = .multiSoftprob)
    (rounds : List (List (Tree Ex C))) (hts : m.trees = .multi rounds)
    (hn : m.nEstimators = rounds.length) (hk : 0 < m.nClasses)
    (hr : ∀ r ∈ rounds, r.length = m.nClasses) (M : List (List Ex)) (hM : M ≠ [])
    (o : Nat → Nat → Nat → ℝ)
    (h : ∀ e (he : e < rounds.length) c (hc : c < m.nClasses),
      TreeReturns (.ofMat M) M.length (rounds[e][c]'(by rw [hr _ (List.getElem_mem he)]; exact hc))
        fun i => .fin (o e c i)) :
    m.predictProba (.ofMat M) = .ok ((List.range M.length).map fun i =>
      fins ((List.range m.nClasses).map
        (softmax m.nClasses fun c => ∑ e ∈ Finset.range rounds.length, o e c i))) ∧
    ∀ i, IsDist m.nClasses ((List.range m.nClasses).map
        (softmax m.nClasses fun c => ∑ e ∈ Finset.range rounds.length, o e c i)) := by
  refine ⟨?_, fun i => softmax_isDist hk _⟩
  have hfold : ∀ c < m.nClasses, ∀ k ≤ rounds.length,
      (List.range k).foldlM (fun acc (e : Nat) => do
        Xgb.addTree (.ofMat M) acc (← pyGet (← pyGet rounds (e : Int)) (c : Int)))
        (List.replicate M.length (ofInt 0)) =
      .ok ((List.range M.length).map fun i =>
        (XR.fin (∑ e ∈ Finset.range k, o e c i) : Ex)) := by
    intro c hc k hk'
    induction k with
    | zero => rw [replicate_eq_range_map]; simp
    | succ k ih =>
      have hk2 : k < rounds.length := hk'
      have hc2 : c < (rounds[k]).length := by rw [hr _ (List.getElem_mem hk2)]; exact hc
      rw [List.range_succ, List.foldlM_append, ih (by omega), py_ok_bind]
      simp only [List.foldlM_cons, List.foldlM_nil, pyGet_lt hk2, py_ok_bind, pyGet_lt hc2,
        Xgb.addTree]
      have := h k hk2 c hc
      unfold TreeReturns at this
      rw [this]
      simp [List.zipWith_map, Finset.sum_range_succ]
  have hpred : m.predict_ (.ofMat M) = .ok ((List.range m.nClasses).map fun c =>
      (List.range M.length).map fun i =>
        (XR.fin (∑ e ∈ Finset.range rounds.length, o e c i) : Ex)) := by
    unfold Xgb.predict_
    apply range_mapM
    intro c hc
    rw [len_ofMat, py_ok_bind, hn]
    simp only [hts]
    exact hfold c hc _ le_rfl
  simp only [Xgb.predictProba, checkArray_ofMat hM, py_ok_bind, hobj, hpred, len_ofMat]
  apply range_mapM
  intro i hi
  have hrow : ((List.range m.nClasses).mapM fun (j : Nat) => do
      pyGet (← pyGet ((List.range m.nClasses).map fun c => (List.range M.length).map fun i =>
        (XR.fin (∑ e ∈ Finset.range rounds.length, o e c i) : Ex)) (j : Int)) (i : Int)) =
      .ok (fins ((List.range m.nClasses).map fun c =>
        ∑ e ∈ Finset.range rounds.length, o e c i)) := by
    rw [fins_def, List.map_map]
    apply range_mapM
    intro j hj
    rw [pyGet_lt (by simpa using hj), py_ok_bind, List.getElem_map, List.getElem_range,
      pyGet_lt (by simpa using hi)]
    simp
  rw [hrow, py_ok_bind, sfmax_exact (by
    intro e; have := congrArg List.length e; simp at this; omega)]
  congr 2
  rw [List.map_map]
  apply List.map_congr_left
  intro c _
  simp only [Function.comp, softmax]
  congr 1
  rw [← list_sum_range, List.map_map]
  rfl

/-- **C18**, prediction: the label at the first largest probability. -/
theorem C18_predict_is_argmax (m : Xgb Ex C) (X : Arr Ex) (P : List (List ℝ)) (k : Nat)
    (hP : m.predictProba X = .ok (P.map fins)) (hw : Rect k P) (hk : 0 < k)
    (hc : m.classes.length = k) :
    ∃ labels, m.predict X = .ok labels ∧
      List.Forall₂ (fun p l => ∃ i, IsFirstMax p i ∧ m.classes[i]? = some l) P labels := by
  have hrow : ∀ p ∈ P, ∃ l, ∃ i, argmax (fins p) = .ok i ∧ m.classes[i]? = some l := by
    intro p hp
    obtain ⟨i, hi⟩ := argmax_total (l := fins p) (by
      intro e; have := congrArg List.length e; rw [fins_length, hw p hp] at this; simp at this; omega)
    have : i < m.classes.length := by
      have := argmax_lt hi
      rw [fins_length, hw p hp] at this
      rw [hc]; exact this
    exact ⟨m.classes[i], i, hi, by simp [this]⟩
  by_cases hC : Nonempty C
  · choose! l i h1 h2 using hrow
    refine ⟨P.map l, ?_, ?_⟩
    · simp only [Xgb.predict, hP, py_ok_bind]
      rw [mapM_map']
      apply mapM_ok_map
      intro p hp
      simp only [h1 p hp, py_ok_bind]
      exact pyGet_ok_nat.2 (h2 p hp)
    · rw [List.forall₂_map_right_iff, List.forall₂_same]
      exact fun p hp => ⟨i p, argmax_fins.1 (h1 p hp), h2 p hp⟩
  · cases hcl : m.classes with
    | nil => rw [hcl] at hc; simp at hc; omega
    | cons c _ => exact absurd ⟨c⟩ hC

/-- **C18**, floating point, binary: in every sound arithmetic both probabilities lie in [0,1]
whatever the (non-NaN) summed outputs are. -/
theorem C18_binary_unit_rounded (fp : FP) (hs : fp.Sound) (m : Xgb (XR fp) C)
    (hobj : m.objective = .binaryLogistic) (M : List (List (XR fp))) (hM : M ≠ [])
    (s : List (XR fp)) (hb : m.predictBinary (.ofMat M) = .ok s) (hnan : ∀ x ∈ s, x ≠ .nan) :
    ∃ P, m.predictProba (.ofMat M) = .ok P ∧ P.length = s.length ∧
      ∀ p ∈ P, p.length = 2 ∧ ∀ q ∈ p, XR.Unit q := by
  have hrow : ∀ x ∈ s, ∃ p, expit x = .ok p ∧ XR.Unit p := fun x hx => by
    obtain ⟨p, hp, hu, -⟩ := XR.expit_unit hs (hnan x hx)
    exact ⟨p, hp, hu⟩
  have : Nonempty (XR fp) := ⟨.nan⟩
  choose! p h1 h2 using hrow
  refine ⟨(s.map p).map fun x => [ofInt 1 -ₚ x, x], ?_, by simp, ?_⟩
  · simp only [Xgb.predictProba, checkArray_ofMat hM, py_ok_bind, hobj, hb, mapM_ok_map h1]
    rfl
  · intro q hq
    simp only [List.map_map, List.mem_map, Function.comp] at hq
    obtain ⟨x, hx, rfl⟩ := hq
    refine ⟨rfl, fun y hy => ?_⟩
    simp at hy
    rcases hy with rfl | rfl
    · exact XR.one_sub_unit hs (h2 x hx)
    · exact h2 x hx

/-- A tree with a single leaf of value `v`. -/
noncomputable def constTree (v : ℝ) : Tree Ex String := ⟨[-1], [-1], [-2], [.fin (-2)], [[.fin v]], []⟩

/-- Non-vacuity: two constant trees (1 and 2) on one record; the margin is 3. -/
example : (⟨.binaryLogistic, ["a", "b"], 2, 2, .binary [constTree 1, constTree 2]⟩ :
    Xgb Ex String).predictProba (.ofMat [[.fin 5]]) =
      .ok [fins [1 - sigmoid (1 + (2 + 0)), sigmoid (1 + (2 + 0))]] := by
  have h := C18_binary (⟨.binaryLogistic, ["a", "b"], 2, 2, .binary [constTree 1, constTree 2]⟩ :
    Xgb Ex String) rfl [constTree 1, constTree 2] rfl [[.fin 5]] (by simp)
    [fun _ => 1, fun _ => 2]
    (.cons rfl (.cons rfl .nil))
  exact h.1

end PurePredict
