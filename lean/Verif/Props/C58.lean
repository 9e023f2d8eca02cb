import Verif.Spec.Alias
import Verif.Lemmas.Basic
import Verif.Lemmas.XR
import Verif.Lemmas.Links
import Verif.Lemmas.Mat
/-
C58: results do not alias model state.  True of trees, bagging and every method that builds its
result with list comprehensions; false of `DummyClassifierPure.predict_proba` (dummy.py:37) and of
fastText's `get_word_vector` (FastText.py:130), which return the model's own lists.
-/
namespace PurePredict
open Spec Heap
variable {F : Type}

theorem read_eq (h : Store F) (a : Addr) : read h a = match h[a]? with
    | some l => .ok l
    | none => .error .indexError := by
  cases ha : h[a]? with
  | none =>
    rw [List.getElem?_eq_none_iff] at ha
    exact pyGet_ge ha
  | some l =>
    obtain ⟨h1, h2⟩ := List.getElem?_eq_some_iff.1 ha
    rw [Heap.read, pyGet_lt h1, h2]

/-- Two stores agree on the model's objects, those below `n`. -/
def Agree (n : Nat) (h h' : Store F) : Prop := ∀ a < n, h[a]? = h'[a]?

theorem Agree.read {n : Nat} {h h' : Store F} (e : Agree n h h') {a : Addr} (ha : a < n) :
    Heap.read h a = Heap.read h' a := by rw [read_eq, read_eq, e a ha]

/-- A method is framed if what it shows depends on the model's objects only, and it neither
changes them nor returns them. -/
structure Framed (n : Nat) (c : Call F) : Prop where
  value : ∀ h h', n ≤ h.length → n ≤ h'.length → Agree n h h' → c.value h = c.value h'
  keep : ∀ h h' as, n ≤ h.length → c h = .ok (h', as) →
    Agree n h h' ∧ n ≤ h'.length ∧ ∀ a ∈ as, n ≤ a

theorem agree_mutate {n : Nat} {h : Store F} {a : Addr} (ha : n ≤ a) (f : List F → List F) :
    Agree n h (mutate h a f) := by
  intro b hb
  rw [Heap.mutate, List.getElem?_modify]
  have : ¬ a = b := by intro e; subst e; exact absurd hb (by omega)
  simp [this]

/-- Framed methods are stable under every history. -/
theorem stable_of_framed {calls : Call F → Prop} {h0 : Store F}
    (hf : ∀ c, calls c → Framed h0.length c) : Stable calls h0 := by
  intro h own hist
  have inv : Agree h0.length h0 h ∧ h0.length ≤ h.length ∧ ∀ a ∈ own, h0.length ≤ a := by
    induction hist with
    | start => exact ⟨fun _ _ => rfl, le_refl _, by simp⟩
    | call _ hc he ih =>
      obtain ⟨i1, i2, i3⟩ := ih
      obtain ⟨k1, k2, k3⟩ := (hf _ hc).keep _ _ _ i2 he
      refine ⟨fun a ha => (i1 a ha).trans (k1 a ha), k2, ?_⟩
      intro a ha
      rcases List.mem_append.1 ha with ha | ha
      · exact k3 a ha
      · exact i3 a ha
    | create l _ ih =>
      obtain ⟨i1, i2, i3⟩ := ih
      refine ⟨?_, ?_, ?_⟩
      · intro a ha
        rw [i1 a ha, alloc, List.getElem?_append_left (by omega)]
      · simp only [alloc, List.length_append]; omega
      · intro a ha
        rcases List.mem_cons.1 ha with rfl | ha
        · exact i2
        · exact i3 a ha
    | mutate f _ ha ih =>
      obtain ⟨i1, i2, i3⟩ := ih
      refine ⟨?_, ?_, i3⟩
      · intro b hb
        rw [i1 b hb, agree_mutate (i3 _ ha) f b hb]
      · simpa [Heap.mutate] using i2
  intro c hc
  exact ((hf c hc).value h0 h (le_refl _) inv.2.1 inv.1).symm

theorem allocAll_eq (h : Store F) (ls : List (List F)) :
    allocAll h ls = (h ++ ls, List.range' h.length ls.length) := by
  induction ls generalizing h with
  | nil => simp [allocAll]
  | cons l ls ih => simp [allocAll, alloc, ih, List.range'_succ]

theorem contents_alloc (h : Store F) (ls : List (List F)) :
    contents (h ++ ls) (List.range' h.length ls.length) = .ok ls := by
  rw [contents, mapM_ok_iff, List.forall₂_iff_get]
  refine ⟨by simp, fun i h1 h2 => ?_⟩
  rw [List.get_eq_getElem, List.getElem_range', read_eq, List.getElem?_append_right (by omega)]
  simp [h2]

theorem freshCall_value (compute : Store F → Py (List (List F))) (h : Store F) :
    (freshCall compute).value h = compute h := by
  simp only [Call.value, freshCall]
  cases hc : compute h with
  | error e => rfl
  | ok rows =>
    simp only [py_ok_bind, py_pure, allocAll_eq]
    exact contents_alloc h rows

/-- Building new lists from the model's objects is framed. -/
theorem framed_fresh {n : Nat} {compute : Store F → Py (List (List F))}
    (hc : ∀ h h', n ≤ h.length → n ≤ h'.length → Agree n h h' → compute h = compute h') :
    Framed n (freshCall compute) := by
  constructor
  · intro h h' h1 h2 e
    rw [freshCall_value, freshCall_value, hc h h' h1 h2 e]
  · intro h h' as hn he
    simp only [freshCall] at he
    obtain ⟨rows, -, he⟩ := bind_ok_iff.1 he
    rw [allocAll_eq] at he
    cases he
    refine ⟨?_, by simp; omega, ?_⟩
    · intro a ha
      rw [List.getElem?_append_left (by omega)]
    · intro a ha
      have := (List.mem_range'_1.1 ha).1
      omega

/-- **C58**, positive part: a method whose result is built by list comprehensions from the
model's objects is unaffected by any history of calls and mutations. -/
theorem C58_fresh_results (h0 : Store F) (computes : (Store F → Py (List (List F))) → Prop)
    (hc : ∀ f, computes f → ∀ h h', h0.length ≤ h.length → h0.length ≤ h'.length →
      Agree h0.length h h' → f h = f h') :
    Stable (fun c => ∃ f, computes f ∧ c = freshCall f) h0 := by
  apply stable_of_framed
  rintro c ⟨f, hf, rfl⟩
  exact framed_fresh (hc f hf)

/-! ### Trees -/

section tree
variable [Arith F]

theorem leafProba_agree (t : TreeObj) {n : Nat} (ht : ∀ a ∈ t.value, a < n) {h h' : Store F}
    (e : Agree n h h') (nd : Int) : t.leafProba h nd = t.leafProba h' nd := by
  unfold TreeObj.leafProba
  cases hp : pyGet t.value nd with
  | error _ => rfl
  | ok a => simp only [py_ok_bind, e.read (ht a (pyGet_ok_mem hp))]

/-- The row by row allocation is one allocation of the computed rows. -/
theorem tree_call (t : TreeObj) {n : Nat} (ht : ∀ a ∈ t.value, a < n) (nds : List Int) {h : Store F}
    (hn : n ≤ h.length) : t.predictProba nds h = freshCall (fun h => nds.mapM (t.leafProba h)) h := by
  have key : ∀ (nds : List Int) (rows : List (List F)),
      nds.foldlM (fun (acc : Store F × List Addr) nd => do
        let row ← t.leafProba acc.1 nd
        let (h', a) := alloc acc.1 row
        return (h', acc.2 ++ [a])) (h ++ rows, List.range' h.length rows.length) =
      (nds.mapM (t.leafProba h) >>= fun new =>
        (.ok (h ++ (rows ++ new), List.range' h.length (rows ++ new).length) : Py _)) := by
    intro nds
    induction nds with
    | nil => intro rows; simp
    | cons nd nds ih =>
      intro rows
      have e : t.leafProba (h ++ rows) nd = t.leafProba h nd :=
        leafProba_agree t ht (fun a ha => List.getElem?_append_left (by omega)) nd
      rw [List.foldlM_cons, mapM_cons']
      simp only [e]
      cases t.leafProba h nd with
      | error _ => rfl
      | ok row =>
        simp only [py_ok_bind, py_pure, alloc]
        have := ih (rows ++ [row])
        have e1 : List.range' h.length rows.length ++ [(h ++ rows).length] =
            List.range' h.length (rows ++ [row]).length := by
          rw [List.length_append, List.length_append, List.length_singleton, List.range'_concat]
          simp
        rw [e1, List.append_assoc]
        refine Eq.trans this ?_
        cases nds.mapM (t.leafProba h) with
        | error _ => rfl
        | ok new => simp
  have := key nds []
  simp only [List.append_nil, List.length_nil, List.range'_zero, List.nil_append] at this
  rw [TreeObj.predictProba, this, freshCall]
  congr 1; funext new
  rw [allocAll_eq]; rfl

theorem framed_congr {n : Nat} {c c' : Call F} (h : Framed n c') (e : ∀ s, n ≤ s.length → c s = c' s) :
    Framed n c := by
  have ev : ∀ s, n ≤ s.length → c.value s = c'.value s := by
    intro s hs
    simp only [Call.value, e s hs]
  constructor
  · intro s s' h1 h2 ha
    rw [ev s h1, ev s' h2, h.value s s' h1 h2 ha]
  · intro s s' as hs he
    rw [e s hs] at he
    exact h.keep s s' as hs he

theorem tree_framed (t : TreeObj) {n : Nat} (ht : ∀ a ∈ t.value, a < n) (nds : List Int) :
    Framed (F := F) n (t.predictProba nds) :=
  framed_congr (framed_fresh fun h h' _ _ e => mapM_congr fun nd _ => leafProba_agree t ht e nd)
    fun _ hs => tree_call t ht nds hs

/-- **C58**, decision trees: `predict_proba` and `predict_log_proba` of a tree whose leaf values
live in the initial store. -/
theorem C58_tree (t : TreeObj) (h0 : Store F) (ht : ∀ a ∈ t.value, a < h0.length) :
    Stable (fun c => ∃ nds, c = t.predictProba nds ∨ c = t.predictLogProba nds) h0 := by
  apply stable_of_framed
  rintro c ⟨nds, rfl | rfl⟩
  · exact tree_framed t ht nds
  · refine framed_fresh fun h h' h1 h2 e => ?_
    rw [(tree_framed t ht nds).value h h' h1 h2 e]

/-! ### Bagging -/

/-- What the members show depends on the model's objects only. -/
def Local (n : Nat) (c : Call F) : Prop :=
  ∀ h h', n ≤ h.length → n ≤ h'.length → Agree n h h' → c.value h = c.value h'

theorem dummy_local (d : DummyObj) {n : Nat} (hd : d.classPrior < n) (k : Nat) :
    Local (F := F) n (d.predictProba k) := by
  intro h h' _ _ e
  simp only [Call.value, DummyObj.predictProba, py_ok_bind, contents]
  apply mapM_congr
  intro a ha
  rw [List.eq_of_mem_replicate ha, e.read hd]

/-- **C58**, bagging: even over members (such as dummy classifiers) that return their own lists. -/
theorem C58_bagging (h0 : Store F) :
    Stable (fun c => ∃ calls, (∀ m ∈ calls, Local h0.length m) ∧ c = baggingPredictProba calls) h0 := by
  apply stable_of_framed
  rintro c ⟨calls, hl, rfl⟩
  refine framed_fresh fun h h' h1 h2 e => ?_
  have hv : ∀ m ∈ calls, m.value h = m.value h' := fun m hm => hl m hm h h' h1 h2 e
  have hfold : ∀ (ms : List (Call F)), (∀ m ∈ ms, m.value h = m.value h') → ∀ p,
      ms.foldlM (fun (proba : List (List F)) c => do
        operate2d (.ofMat proba) (.ofMat (← c.value h)) Arith.add) p =
      ms.foldlM (fun (proba : List (List F)) c => do
        operate2d (.ofMat proba) (.ofMat (← c.value h')) Arith.add) p := by
    intro ms
    induction ms with
    | nil => intro _ p; rfl
    | cons m ms ih =>
      intro hm p
      rw [List.foldlM_cons, List.foldlM_cons, hm m (by simp)]
      congr 1; funext q
      exact ih (fun m' h' => hm m' (by simp [h'])) q
  cases calls with
  | nil => rfl
  | cons m ms =>
    simp only [hv m (by simp), List.drop_one, List.tail_cons]
    congr 1; funext p
    rw [hfold ms (fun m' hm' => hv m' (by simp [hm'])) p]

/-- **C58**, `DummyClassifierPure.predict_log_proba` alone. -/
theorem C58_dummy_log_proba (d : DummyObj) (h0 : Store F) (hd : d.classPrior < h0.length) :
    Stable (fun c => ∃ k, c = d.predictLogProba k) h0 := by
  apply stable_of_framed
  rintro c ⟨k, rfl⟩
  refine framed_fresh fun h h' h1 h2 e => ?_
  rw [dummy_local d hd k h h' h1 h2 e]

/-! ### The calls show what the value level models compute -/

theorem pyGet_mapM {α β : Type} {f : α → Py β} {l : List α} {r : List β} (h : l.mapM f = .ok r) (i : Int) :
    (pyGet l i >>= f) = pyGet r i := by
  have hl := mapM_length h
  have key : ∀ k : Nat, ((match l[k]? with
      | some a => .ok a
      | none => .error .indexError : Py α) >>= f) = (match r[k]? with
      | some a => .ok a
      | none => .error .indexError) := by
    intro k
    by_cases hk : k < l.length
    · have hk' : k < r.length := by omega
      rw [List.getElem?_eq_getElem hk, List.getElem?_eq_getElem hk']
      exact mapM_getElem h k hk hk'
    · rw [List.getElem?_eq_none (by omega), List.getElem?_eq_none (by omega)]
      rfl
  unfold pyGet
  simp only [hl]
  split
  · split
    · rfl
    · exact key _
  · exact key _

/-- **C58**, what the dummy classifier's methods show: the prior, or its logarithms, once per
record. -/
theorem C58_dummy_values (d : DummyObj) (h : Store F) {prior : List F}
    (hr : read h d.classPrior = .ok prior) (M : List (List F)) :
    (d.predictProba M.length : Call F).value h = (⟨prior⟩ : Dummy F).predictProba (.ofMat M) ∧
    (d.predictLogProba M.length : Call F).value h = (⟨prior⟩ : Dummy F).predictLogProba (.ofMat M) := by
  have h1 : (d.predictProba M.length : Call F).value h = .ok (List.replicate M.length prior) := by
    simp only [Call.value, DummyObj.predictProba, py_ok_bind, contents]
    rw [mapM_ok_map (g := fun _ => prior)]
    · simp
    · intro a ha
      rw [List.eq_of_mem_replicate ha]
      exact hr
  have h2 : (⟨prior⟩ : Dummy F).predictProba (.ofMat M) = .ok (List.replicate M.length prior) := by
    simp only [Dummy.predictProba, len_ofMat, py_ok_bind, py_pure]
  refine ⟨h1.trans h2.symm, ?_⟩
  rw [DummyObj.predictLogProba, freshCall_value, h1, Dummy.predictLogProba, h2]
  simp only [py_ok_bind]
  rw [apply2d_ofMat]

/-- **C58**, what a tree's methods show. -/
theorem C58_tree_values {C : Type} (t : TreeObj) (T : Tree F C) (h : Store F)
    (ht : ∀ a ∈ t.value, a < h.length) (hv : contents h t.value = .ok T.value)
    (M : List (List F)) (hM : M ≠ []) {nds : List Int}
    (hn : M.mapM (fun r => T.getLeafNode (.list r)) = .ok nds) :
    (t.predictProba nds : Call F).value h = T.predictProba (.ofMat M) ∧
    (t.predictLogProba nds : Call F).value h = T.predictLogProba (.ofMat M) := by
  have hleaf : ∀ nd, t.leafProba h nd = T.probaFromLeaf nd := by
    intro nd
    unfold TreeObj.leafProba Tree.probaFromLeaf
    have : (pyGet t.value nd >>= fun a => read h a) = pyGet T.value nd := pyGet_mapM hv nd
    rw [← this]
    cases pyGet t.value nd <;> rfl
  have h1 : (t.predictProba nds : Call F).value h = nds.mapM T.probaFromLeaf := by
    have e : (t.predictProba nds : Call F).value h =
        (freshCall (fun h => nds.mapM (t.leafProba h)) : Call F).value h := by
      simp only [Call.value, tree_call t ht nds (le_refl _)]
    rw [e, freshCall_value]
    exact mapM_congr fun nd _ => hleaf nd
  have h2 : T.predictProba (.ofMat M) = nds.mapM T.probaFromLeaf := by
    simp only [Tree.predictProba, checkArray_ofMat hM, py_ok_bind, rows_ofMat, mapM_map', hn]
  refine ⟨h1.trans h2.symm, ?_⟩
  rw [TreeObj.predictLogProba, freshCall_value, h1, Tree.predictLogProba, h2]

/-- Non-vacuity: a one-node tree with counts (3, 1) held at address 0, and the request `[[5]]`. -/
example : let T : Tree Ex Int := ⟨[-1], [-1], [-2], [.fin 0], [[.fin 3, .fin 1]], [0, 1]⟩
    (∀ a ∈ (⟨[0]⟩ : TreeObj).value, a < ([[.fin 3, .fin 1]] : Store Ex).length) ∧
    contents ([[.fin 3, .fin 1]] : Store Ex) [0] = .ok T.value ∧
    [[(.fin 5 : Ex)]].mapM (fun r => T.getLeafNode (.list r)) = .ok [0] :=
  ⟨by simp, rfl, rfl⟩

end tree

/-! ### The failures -/

/-- **C58 is false** of `DummyClassifierPure.predict_proba`: after one call a caller can turn the
model's later probabilities (for every request size) into any list whatever. -/
theorem C58_dummy_false (d : DummyObj) (h0 : Store F) (hd : d.classPrior < h0.length) (l : List F) :
    ∃ h own, Hist (fun c => ∃ k, c = d.predictProba k) h0 h own ∧
      ∀ k, (d.predictProba k : Call F).value h = .ok (List.replicate k l) := by
  refine ⟨_, _, Hist.mutate (a := d.classPrior) (fun _ => l)
    (Hist.call Hist.start ⟨1, rfl⟩ rfl) (by simp), ?_⟩
  intro k
  simp only [Call.value, DummyObj.predictProba, py_ok_bind, contents]
  have hr : read (mutate h0 d.classPrior fun _ => l) d.classPrior = .ok l := by
    rw [read_eq, Heap.mutate, List.getElem?_modify]
    simp [hd]
  rw [mapM_ok_map (g := fun _ => l)]
  · simp
  · intro a ha
    rw [List.eq_of_mem_replicate ha]
    exact hr

/-- So `predict_proba` is not stable as soon as there are two different lists. -/
theorem C58_dummy_not_stable [Nonempty F] (d : DummyObj) (h0 : Store F) (hd : d.classPrior < h0.length) :
    ¬ Stable (fun c => ∃ k, c = d.predictProba k) h0 := by
  intro hs
  obtain ⟨x⟩ := ‹Nonempty F›
  obtain ⟨h, own, hh, hv⟩ := C58_dummy_false d h0 hd (x :: h0[d.classPrior])
  have := hs h own hh (d.predictProba 1) ⟨1, rfl⟩
  rw [hv 1] at this
  have h1 : (d.predictProba 1 : Call F).value h0 = .ok [h0[d.classPrior]] := by
    simp only [Call.value, DummyObj.predictProba, py_ok_bind, contents, List.replicate_one]
    rw [mapM_cons', read_eq]
    simp [hd]
  rw [h1] at this
  simp at this

/-- The predicted class changes too: with prior (1, 0), writing 2 into the second entry of a
returned row makes `predict` return class index 1 instead of 0. -/
theorem C58_dummy_predict_changes :
    ∃ h own, Hist (fun c => ∃ k, c = (⟨0⟩ : DummyObj).predictProba k) [[.fin 1, .fin 0]] h own ∧
      (⟨0⟩ : DummyObj).predict (F := Ex) [[.fin 1, .fin 0]] 1 = .ok [0] ∧
      (⟨0⟩ : DummyObj).predict (F := Ex) h 1 = .ok [1] := by
  refine ⟨_, _, Hist.mutate (a := 0) (fun r => r.set 1 (.fin 2))
    (Hist.call Hist.start ⟨1, rfl⟩ rfl) (by simp [DummyObj.predictProba]), ?_, ?_⟩
  · have h1 : argmax (fins [1, 0]) = .ok 0 := by
      refine argmax_fins.2 ?_
      have := isFirstMax_pair (a := 1) (b := 0)
      rw [if_neg (by norm_num)] at this
      exact this
    show (argmax (fins [1, 0]) >>= fun i => (.ok (List.replicate 1 i) : Py (List Nat))) = _
    rw [h1]; rfl
  · have h2 : argmax (fins [1, 2]) = .ok 1 := by
      refine argmax_fins.2 ?_
      have := isFirstMax_pair (a := 1) (b := 2)
      rw [if_pos (by norm_num)] at this
      exact this
    show (argmax (fins [1, 2]) >>= fun i => (.ok (List.replicate 1 i) : Py (List Nat))) = _
    rw [h2]; rfl

/-- **C58 is false** of fastText's `get_word_vector`: after one call for a known word a caller can
turn the vector of that word into any list whatever. -/
theorem C58_fasttext_false (zero : F) (m : FastTextObj) (w : String) (h0 : Store F) {i : Nat} {a : Addr}
    (hw : m.words.findIdx? (· == w) = some i) (ha : m.inputMatrix[i]? = some a) (hl : a < h0.length)
    (l : List F) :
    ∃ h own, Hist (fun c => ∃ w, c = m.getWordVector zero w) h0 h own ∧
      (m.getWordVector zero w).value h = .ok [l] := by
  obtain ⟨hi, hia⟩ := List.getElem?_eq_some_iff.1 ha
  have hc : ∀ h : Store F, m.getWordVector zero w h = .ok (h, [a]) := by
    intro h
    simp only [FastTextObj.getWordVector, hw, pyGet_lt hi, hia, py_ok_bind, py_pure]
  refine ⟨_, _, Hist.mutate (a := a) (fun _ => l)
    (Hist.call Hist.start ⟨w, rfl⟩ (hc h0)) (by simp), ?_⟩
  simp only [Call.value, hc, py_ok_bind, contents]
  rw [mapM_cons', read_eq, Heap.mutate, List.getElem?_modify]
  simp [hl]

/-! ### Non-vacuity -/

/-- A stump's leaf values in a two-object store, a history with a call and a mutation, and the
conclusion. -/
example : ∃ h own, Hist (fun c => ∃ nds, c = (⟨[0, 1]⟩ : TreeObj).predictProba nds ∨
      c = (⟨[0, 1]⟩ : TreeObj).predictLogProba nds) ([[.fin 1, .fin 0], [.fin 0, .fin 1]] : Store Ex) h own ∧
    h ≠ [[.fin 1, .fin 0], [.fin 0, .fin 1]] ∧
    ((⟨[0, 1]⟩ : TreeObj).predictProba [0]).value h =
      ((⟨[0, 1]⟩ : TreeObj).predictProba [0]).value ([[.fin 1, .fin 0], [.fin 0, .fin 1]] : Store Ex) := by
  have hh : Hist (fun c => ∃ nds, c = (⟨[0, 1]⟩ : TreeObj).predictProba nds ∨
      c = (⟨[0, 1]⟩ : TreeObj).predictLogProba nds) ([[.fin 1, .fin 0], [.fin 0, .fin 1]] : Store Ex)
      _ _ := Hist.mutate (a := 2) (fun _ => []) (Hist.create [.fin 7] Hist.start) (by simp [alloc])
  exact ⟨_, _, hh, by simp [Heap.mutate, alloc], C58_tree _ _ (by simp) _ _ hh _ ⟨[0], .inl rfl⟩⟩

/-- A known fastText word. -/
example : ∃ h own, Hist (fun c => ∃ w, c = (⟨["a"], [0], 1⟩ : FastTextObj).getWordVector (XR.fin 0) w)
      ([[.fin 1]] : Store Ex) h own ∧
      ((⟨["a"], [0], 1⟩ : FastTextObj).getWordVector (XR.fin 0) "a").value h = .ok [[.fin 5]] :=
  C58_fasttext_false (XR.fin 0) ⟨["a"], [0], 1⟩ "a" [[XR.fin 1]] (i := 0) (a := 0) (by decide) rfl
    (by decide) _

end PurePredict
