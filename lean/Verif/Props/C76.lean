import Verif.Props.C13
/-
C76: bagging ensembles whose members saw only some of the classes, or have no probabilities.
-/
namespace PurePredict
open Spec
variable {C : Type}

/-- The probability a member that was fitted on the classes number `cls` (its own `classes_`, in
the order of its columns) gives to class number `c`: its column for `c` if it saw `c`, else 0. -/
noncomputable def Spec.classProba (cls : List Nat) (P : Nat → Nat → ℝ) (i c : Nat) : ℝ :=
  if c ∈ cls then P i (cls.idxOf c) else 0

/-- The probability of class `c`: the mean over the members, each column counted for the class it
belongs to. -/
noncomputable def Spec.baggedProba (ms : List (List Nat × (Nat → Nat → ℝ))) (i c : Nat) : ℝ :=
  (ms.map fun m => classProba m.1 m.2 i c).sum / ms.length

/-- **C76**, the case that works: if every member saw all `k` classes, `predict_proba` is the mean
of the members' probabilities class by class. -/
theorem C76_all_classes_partial (b : Bagging Ex C) (M : List (List ℝ)) (hM : M ≠ [])
    (hfit : b.Fits M) (k : Nat) (ms : List (List Nat × (Nat → Nat → ℝ))) (hne : ms ≠ [])
    (hall : ∀ m ∈ ms, m.1 = List.range k)
    (h : List.Forall₂ (fun e (m : List Nat × (Nat → Nat → ℝ)) => Returns M m.1.length e m.2)
      b.members ms) :
    b.predictProba (.ofMat (M.map fins)) =
      .ok (mat M.length k fun i c => .fin (baggedProba ms i c)) := by
  have h' : List.Forall₂ (Returns M k) b.members (ms.map Prod.snd) := by
    rw [List.forall₂_map_right_iff]
    rw [List.forall₂_iff_get] at h ⊢
    refine ⟨h.1, fun i h1 h2 => ?_⟩
    have := h.2 i h1 h2
    rwa [hall _ (List.get_mem _ _), List.length_range] at this
  rw [C13_proba_is_mean b M hM hfit k _ (by simpa using hne) h']
  congr 1
  refine List.map_congr_left fun i _ => List.map_congr_left fun c hc => ?_
  unfold meanEntry baggedProba
  simp only [List.length_map, List.map_map]
  congr 3
  apply List.map_congr_left
  intro m hm
  have hc' := List.mem_range.1 hc
  have : (List.range k).idxOf c = c := by
    have := List.Nodup.idxOf_getElem (List.nodup_range (n := k)) c (by simpa using hc')
    simpa using this
  simp [classProba, hall m hm, hc', this]

/-- Members accumulated after the first: as soon as one returns a different number of columns the
whole request is refused. -/
theorem accumulate_width_error {F : Type} [Arith F] {b : Bagging F C} {X : Arr F} {n k : Nat}
    (hn : 0 < n) (pre : List Nat) (j : Nat) (post : List Nat) (Ps : List (Nat → Nat → F))
    (hpre : List.Forall₂ (fun j P => b.memberProba X j = .ok (mat n k P)) pre Ps)
    {k' : Nat} (hk : k' ≠ k) (P' : Nat → Nat → F) (hj : b.memberProba X j = .ok (mat n k' P'))
    (P0 : Nat → Nat → F) :
    b.accumulate X (pre ++ j :: post) (mat n k P0) = .error .valueError := by
  induction hpre generalizing P0 with
  | nil =>
    have : operate2d (.ofMat (mat n k P0)) (.ofMat (mat n k' P')) Arith.add =
        (.error .valueError : Py (List (List F))) := by
      simp only [operate2d, issparse_ofMat, Bool.or_self, Bool.false_eq_true, if_false,
        shape_ofMat (mat_ne_nil hn) (mat_rect n k P0),
        shape_ofMat (mat_ne_nil hn) (mat_rect n k' P'), py_ok_bind]
      rw [if_pos]
      simpa using fun h => hk h.symm
    simp only [List.nil_append, Bagging.accumulate, hj, py_ok_bind, this, py_error_bind]
  | cons h1 _ ih =>
    simp only [List.cons_append, Bagging.accumulate, h1, py_ok_bind, operate2d_mat hn, ih]

/-- **C76**, the refusal: if the members before number `j` return `k` columns and member `j`
another number (it saw another number of classes), `predict_proba`, `predict_log_proba` and
`predict` raise ValueError. -/
theorem C76_different_widths_refused {F : Type} [Arith F] (b : Bagging F C) (hf : b.FeatsOk)
    (X : Arr F) (n k k' : Nat) (hn : 0 < n) (hk : k' ≠ k) (P0 P' : Nat → Nat → F)
    (Ps : List (Nat → Nat → F)) (pre : List (Member F × Option (List Int)))
    (m0 m' : Member F × Option (List Int)) (post : List (Member F × Option (List Int)))
    (hm : b.members = m0 :: pre ++ m' :: post)
    (h0 : List.Forall₂ (fun (m : Member F × Option (List Int)) P =>
      (featSlice X m.2 >>= m.1.predictProba) = .ok (mat n k P)) (m0 :: pre) (P0 :: Ps))
    (h' : (featSlice X m'.2 >>= m'.1.predictProba) = .ok (mat n k' P')) :
    b.predictProba X = .error .valueError ∧ b.predictLogProba X = .error .valueError ∧
      b.predict X = .error .valueError := by
  have hlen : b.members.length = pre.length + 1 + (post.length + 1) := by rw [hm]; simp; omega
  have hest := Bagging.members_length hf
  have hget : ∀ j (hj : j < b.members.length),
      b.memberProba X j = featSlice X b.members[j].2 >>= b.members[j].1.predictProba :=
    fun j hj => Bagging.memberProba_eq hf X hj
  cases h0 with
  | cons h00 h0s =>
    have e0 : b.memberProba X 0 = .ok (mat n k P0) := by
      rw [hget 0 (by omega)]
      simpa [hm] using h00
    have ej : b.memberProba X (pre.length + 1) = .ok (mat n k' P') := by
      rw [hget (pre.length + 1) (by omega)]
      simpa [hm] using h'
    have hidx : (List.range b.estimators.length).drop 1 =
        (List.range' 1 pre.length) ++ (pre.length + 1) ::
          List.range' (pre.length + 2) post.length := by
      rw [← hest, hlen, List.range_eq_range', List.drop_range',
        show pre.length + 1 + (post.length + 1) - 1 = pre.length + (1 + post.length) by omega,
        ← List.range'_append, ← List.range'_append]
      simp only [List.range'_one, List.singleton_append]
      rw [show 1 + 1 * pre.length = pre.length + 1 by omega,
        show pre.length + 1 + 1 * 1 = pre.length + 2 by omega]
    have hpre : List.Forall₂ (fun j P => b.memberProba X j = .ok (mat n k P))
        (List.range' 1 pre.length) Ps := by
      rw [List.forall₂_iff_get] at h0s ⊢
      refine ⟨by simpa using h0s.1, fun i h1 h2 => ?_⟩
      have hi : i < pre.length := by simpa using h1
      have := h0s.2 i hi h2
      simp only [List.get_eq_getElem, List.getElem_range'] at this ⊢
      rw [hget _ (by omega)]
      have hmem : b.members[1 + 1 * i]'(by omega) = pre[i] := by
        simp only [hm, Nat.one_mul, List.cons_append, Nat.add_comm 1 i, List.getElem_cons_succ]
        exact List.getElem_append_left hi
      rw [hmem]
      exact this
    have hp : b.predictProba X = .error .valueError := by
      simp only [Bagging.predictProba, e0, py_ok_bind, hidx]
      rw [accumulate_width_error hn _ _ _ Ps hpre hk P' ej P0, py_error_bind]
    exact ⟨hp, by simp only [Bagging.predictLogProba, hp, py_error_bind],
      by simp only [Bagging.predict, hp, py_error_bind]⟩

/-- **C76**, members without `predict_proba`: the first member that lacks the method makes every
request fail with AttributeError; there is no vote over labels. -/
theorem C76_no_probabilities {F : Type} [Arith F] (b : Bagging F C)
    (hne : ∃ e es, b.estimators = e :: es ∧ ∀ X, e.predictProba X = .error .attributeError)
    (hf : b.features = none) (X : Arr F) :
    b.predictProba X = .error .attributeError ∧ b.predict X = .error .attributeError := by
  obtain ⟨e, es, he, hp⟩ := hne
  have h0 : b.memberProba X 0 = .error .attributeError := by
    have : pyGet b.estimators ((0 : Nat) : Int) = .ok e := by rw [he]; exact pyGet_zero_cons e es
    simp only [Bagging.memberProba, this, py_ok_bind, Bagging.getFeats, hf, featSlice, hp]
  have h1 : b.predictProba X = .error .attributeError := by
    simp only [Bagging.predictProba, h0, py_error_bind]
  exact ⟨h1, by simp only [Bagging.predict, h1, py_error_bind]⟩

/-- **C76**, labels never predicted: if every member saw the same number `k` of classes, the
ensemble only ever predicts one of the first `k` labels, whichever classes the members saw. -/
theorem C76_first_labels (b : Bagging Ex C) (M : List (List ℝ)) (hM : M ≠ []) (hfit : b.Fits M)
    (k : Nat) (Ps : List (Nat → Nat → ℝ)) (hne : Ps ≠ [])
    (h : List.Forall₂ (Returns M k) b.members Ps) (ys : List C)
    (hy : b.predict (.ofMat (M.map fins)) = .ok ys) : ∀ y ∈ ys, y ∈ b.classes.take k := by
  simp only [Bagging.predict, C13_proba_is_mean b M hM hfit k Ps hne h, py_ok_bind] at hy
  obtain ⟨am, ham, hys⟩ := bind_ok_iff.1 hy
  intro y hmem
  obtain ⟨i, hi, hyi⟩ := mapM_mem hys hmem
  obtain ⟨row, hrow, hri⟩ := mapM_mem ham hi
  obtain ⟨r, _, rfl⟩ := List.mem_map.1 hrow
  have hlt : i < k := by
    have := (argmax_fins.1 (show argmax (fins ((List.range k).map fun c => meanEntry Ps r c)) = .ok i
      by simpa [fins, Function.comp_def] using hri)).1
    simpa using this
  have hyi' := pyGet_ok_nat.1 hyi
  exact List.mem_of_getElem? (i := i) (by rw [List.getElem?_take, if_pos hlt, hyi'])

/-- **C76** is false in general: a three-class ensemble whose two members both saw only the first
and the third class and are certain of the third; the ensemble predicts the second, to which both
members give probability 0. -/
theorem C76_partial_classes_false :
    ∃ (b : Bagging Ex String) (M : List (List ℝ)) (ms : List (List Nat × (Nat → Nat → ℝ))),
      b.Fits M ∧ b.classes = ["a", "b", "c"] ∧
      List.Forall₂ (fun e (m : List Nat × (Nat → Nat → ℝ)) => Returns M m.1.length e m.2)
        b.members ms ∧
      (∀ m ∈ ms, m.1 = [0, 2]) ∧
      baggedProba ms 0 1 = 0 ∧ baggedProba ms 0 2 = 1 ∧
      b.predictProba (.ofMat (M.map fins)) = .ok [[.fin 0, .fin 1]] ∧
      b.predict (.ofMat (M.map fins)) = .ok ["b"] := by
  let e : Member Ex := ⟨fun _ => .ok [[.fin 0, .fin 1]]⟩
  let P : Nat → Nat → ℝ := fun _ c => if c = 0 then 0 else 1
  let b : Bagging Ex String := ⟨none, ["a", "b", "c"], [e, e]⟩
  have hfit : b.Fits [[7]] := by
    constructor
    · intro fs h; cases h
    · intro fs h; cases h
  have hret : ∀ f, Returns [[7]] 2 (e, f) P := by
    intro f; simp [Returns, e, P, mat, List.range_succ]
  have hP : b.predictProba (.ofMat ([[7]].map fins)) = .ok [[.fin 0, .fin 1]] := by
    rw [C13_proba_is_mean b [[7]] (by simp) hfit 2 [P, P] (by simp)
      (.cons (hret _) (.cons (hret _) .nil))]
    norm_num [mat, meanEntry, List.range_succ, P]
  refine ⟨b, [[7]], [([0, 2], P), ([0, 2], P)], hfit, rfl,
    .cons (hret _) (.cons (hret _) .nil), by simp, by simp [baggedProba, classProba],
    ?_, hP, ?_⟩
  · have : List.idxOf 2 [0, 2] = 1 := by decide
    norm_num [baggedProba, classProba, P, this]
  · have ha : argmax [(.fin 0 : Ex), .fin 1] = .ok 1 :=
      (argmax_fins (l := [0, 1]) (i := 1)).2 (by
        have := isFirstMax_pair (a := 0) (b := 1)
        rwa [if_pos one_pos] at this)
    simp only [Bagging.predict, hP, py_ok_bind, mapM_cons', mapM_nil', ha, py_pure]
    rfl

/-- Non-vacuity of the refusal: the second of two members saw three classes, the first two. -/
example : (⟨none, ["a", "b", "c"], [⟨fun _ => .ok [[.fin 0, .fin 1]]⟩,
      ⟨fun _ => .ok [[.fin 0, .fin 1, .fin 0]]⟩]⟩ : Bagging Ex String).predict
        (.ofMat [[.fin 7]]) = .error .valueError := by
  refine (C76_different_widths_refused _ (fun fs h => by cases h) _ 1 2 3 one_pos (by decide)
    (fun _ c => if c = 0 then .fin 0 else .fin 1) (fun _ c => if c = 1 then .fin 1 else .fin 0) [] []
    _ _ [] rfl (.cons ?_ .nil) ?_).2.2 <;> rfl

end PurePredict
