import Verif.Lemmas.Argsort
import Verif.Spec.TopK
import Verif.Props.C50
/-
C49: fastText prediction returns the k best labels above the threshold.
-/
namespace PurePredict
open Spec

section selection
variable {F : Type} [Arith F] {α : Type} [LinearOrder α]

/-- Taking the first `k` of the positions above the threshold, in the order of `argsort` reversed. -/
theorem topK_of_sorted {s : Nat → α} {n : Nat} {t : α} {k : Nat} {L : List Nat}
    (hp : L.Perm (List.range n)) (hs : L.Pairwise (Before s)) :
    TopK s n t k ((L.reverse.filter fun i => decide (t ≤ s i)).take k) := by
  set Q := L.reverse.filter fun i => decide (t ≤ s i) with hQ
  have hnd : L.reverse.Nodup := List.nodup_reverse.2 (hp.nodup_iff.2 List.nodup_range)
  have hsub : (Q.take k).Sublist L.reverse := (List.take_sublist k Q).trans List.filter_sublist
  have hrev : L.reverse.Pairwise fun i j => Before s j i := List.pairwise_reverse.2 hs
  have hQp : Q.Pairwise fun i j => Before s j i := hrev.sublist List.filter_sublist
  have hle : ∀ {i j}, Before s j i → s j ≤ s i := by
    intro i j h
    rcases h with h | h
    · exact h.le
    · exact h.1.le
  have hout : ∀ i < n, t ≤ s i → i ∉ Q.take k → i ∈ Q.drop k := by
    intro i hi ht hn
    have hm : i ∈ Q := by
      rw [hQ, List.mem_filter]
      exact ⟨List.mem_reverse.2 (hp.mem_iff.2 (List.mem_range.2 hi)), by simpa using ht⟩
    rw [← List.take_append_drop k Q] at hm
    exact (List.mem_append.1 hm).resolve_left hn
  refine ⟨hsub.nodup hnd, ?_, ?_, List.length_take_le k Q, ?_, ?_, ?_⟩
  · intro i hi
    exact List.mem_range.1 (hp.mem_iff.1 (List.mem_reverse.1 (hsub.subset hi)))
  · intro i hi
    have := (List.mem_filter.1 (List.mem_of_mem_take hi)).2
    simpa using this
  · exact (hQp.sublist (List.take_sublist k Q)).imp hle
  · intro i hi ht hn j hj
    have h := hQp
    rw [← List.take_append_drop k Q, List.pairwise_append] at h
    exact hle (h.2.2 j hj i (hout i hi ht hn))
  · intro i hi ht hn
    have hlt : k < Q.length := by
      by_contra hc
      have := hout i hi ht hn
      rw [List.drop_eq_nil_of_le (not_lt.1 hc)] at this
      cases this
    rw [List.length_take, min_eq_left hlt.le]
end selection

variable {fp : FP}

/-- The scores as ordered numbers. -/
noncomputable def scoreAt (p : List (XR fp)) (i : Nat) : EReal := XR.toE (p.getD i (ofInt 0))

/-- What `_predict` selects, given the probabilities. -/
theorem predict_select (ws : Char → Bool) (m : FT.Model (XR fp)) (hl : m.lossSoftmax = true) (text : Str)
    (A p : List (XR fp)) (hA : m.getSentenceVector ws text = .ok A)
    (hp : FT.sfmax (FT.dot A m.outputMatrix) = .ok p) (hlab : p.length ≤ m.labels.length)
    (hnan : XR.nan ∉ p) (k : Int) (t : XR fp) (ht : t ≠ .nan) :
    m.predict_ ws text k t = .ok
      ((FT.Model.sliceTo ((FT.argsort p).reverse.filter fun i => decide (XR.toE t ≤ scoreAt p i)) k).map
          (fun i => m.labels.getD i []),
       (FT.Model.sliceTo ((FT.argsort p).reverse.filter fun i => decide (XR.toE t ≤ scoreAt p i)) k).map
          (fun i => p.getD i (ofInt 0))) := by
  obtain ⟨hperm, -⟩ := argsort_spec XR.toE (XR.ordOn_toE hnan)
  have hlt : ∀ i ∈ (FT.argsort p).reverse, i < p.length := by
    intro i hi
    simpa using hperm.mem_iff.1 (List.mem_reverse.1 hi)
  have horder : (FT.argsort p).reverse.mapM (fun (i : Nat) => do return (i, ← pyGet p (i : Int))) =
      .ok ((FT.argsort p).reverse.map fun i => (i, p.getD i (ofInt 0))) := by
    apply mapM_ok_map
    intro i hi
    rw [pyGet_lt (hlt i hi)]
    simp [List.getElem?_eq_getElem (hlt i hi)]
  have hle : ∀ i, i < p.length → (t ≤ₚ p.getD i (ofInt 0)) = decide (XR.toE t ≤ scoreAt p i) := by
    intro i hi
    have hm : p.getD i (ofInt 0) ≠ .nan := by
      rw [List.getD_eq_getElem?_getD, List.getElem?_eq_getElem hi]
      intro h
      exact hnan (h ▸ List.getElem_mem hi)
    have ho := XR.ordOn_toE (l := [t, p.getD i (ofInt 0)]) (by
      simp only [List.mem_cons, List.not_mem_nil, or_false, not_or]
      exact ⟨Ne.symm ht, Ne.symm hm⟩)
    show (XR.lt t (p.getD i (ofInt 0)) || XR.eq t (p.getD i (ofInt 0))) = _
    have h1 := ho.lt t (by simp) (p.getD i (ofInt 0)) (by simp)
    have h2 := ho.eq t (by simp) (p.getD i (ofInt 0)) (by simp)
    have h1' : XR.lt t (p.getD i (ofInt 0)) = decide (XR.toE t < XR.toE (p.getD i (ofInt 0))) := h1
    have h2' : XR.eq t (p.getD i (ofInt 0)) = decide (XR.toE t = XR.toE (p.getD i (ofInt 0))) := h2
    rw [h1', h2', scoreAt, ← Bool.decide_or]
    exact decide_eq_decide.2 le_iff_lt_or_eq.symm
  have hfil : ((FT.argsort p).reverse.map fun i => (i, p.getD i (ofInt 0))).filter (fun q => t ≤ₚ q.2) =
      ((FT.argsort p).reverse.filter fun i => decide (XR.toE t ≤ scoreAt p i)).map
        fun i => (i, p.getD i (ofInt 0)) := by
    rw [List.filter_map]
    congr 1
    apply List.filter_congr
    intro i hi
    exact hle i (hlt i hi)
  have hslice : ∀ (l : List Nat) (g : Nat → Nat × XR fp), FT.Model.sliceTo (l.map g) k =
      (FT.Model.sliceTo l k).map g := by
    intro l g
    unfold FT.Model.sliceTo
    split <;> simp [List.map_take]
  simp only [FT.Model.predict_, hA, py_ok_bind, hl, if_true, hp, horder, hfil, hslice]
  rw [mapM_map', mapM_ok_map (g := fun i => m.labels.getD i [])]
  · simp [Function.comp]
  · intro i hi
    have : i < p.length := by
      apply hlt
      have h1 : i ∈ ((FT.argsort p).reverse.filter fun i => decide (XR.toE t ≤ scoreAt p i)) := by
        unfold FT.Model.sliceTo at hi
        split at hi <;> exact List.mem_of_mem_take hi
      exact (List.mem_filter.1 h1).1
    have hi' : i < m.labels.length := by omega
    rw [pyGet_lt hi']
    simp [List.getElem?_eq_getElem hi']

/-- **C49**: for every supervised softmax model, text, `k ≥ 0` and threshold, given the probabilities
`p` of the labels (numbers, by C50), `predict` returns the labels and the scores of one list of
positions that is the top `k` above the threshold. -/
theorem C49_topk (ws : Char → Bool) (m : FT.Model (XR fp)) (hsup : m.supervised = true)
    (hl : m.lossSoftmax = true) (text : Str)
    (A p : List (XR fp)) (hA : m.getSentenceVector ws text = .ok A)
    (hp : FT.sfmax (FT.dot A m.outputMatrix) = .ok p) (hlab : p.length ≤ m.labels.length)
    (hnan : XR.nan ∉ p) (k : Nat) (t : XR fp) (ht : t ≠ .nan) :
    ∃ sel : List Nat, TopK (scoreAt p) p.length (XR.toE t) k sel ∧
      m.predict ws (.one text) k t = .ok [(sel.map (fun i => m.labels.getD i []),
        sel.map (fun i => p.getD i (ofInt 0)))] := by
  obtain ⟨h1, h2⟩ := argsort_spec XR.toE (XR.ordOn_toE hnan)
  refine ⟨_, topK_of_sorted (t := XR.toE t) (k := k) h1 h2, ?_⟩
  simp only [FT.Model.predict, hsup, Bool.not_true, Bool.false_eq_true, if_false,
    predict_select ws m hl text A p hA hp hlab hnan k t ht, py_ok_bind, py_pure]
  have hk : ∀ l : List Nat, FT.Model.sliceTo l (k : Int) = l.take k := by
    intro l; simp [FT.Model.sliceTo]
  simp only [hk]

/-- **C49** end to end: the hypothesis on the probabilities is discharged when the scores of the
sentence (its inner products with the rows of the output matrix, in the order of the labels) are
finite numbers. -/
theorem C49_finite (hs : fp.Sound) (ws : Char → Bool) (m : FT.Model (XR fp)) (hsup : m.supervised = true)
    (hl : m.lossSoftmax = true) (text : Str) (A : List (XR fp)) (hA : m.getSentenceVector ws text = .ok A)
    (sc : List ℝ) (hsc' : List.Forall₂ (fun row s => dotList A row = .fin s) m.outputMatrix sc) (hne : sc ≠ [])
    (hlab : m.outputMatrix.length = m.labels.length) (k : Nat) (t : XR fp) (ht : t ≠ .nan) :
    ∃ (p : List (XR fp)) (sel : List Nat), FT.sfmax (sc.map XR.fin) = .ok p ∧ p.length = m.labels.length ∧
      (∀ v ∈ p, XR.Unit v) ∧ TopK (scoreAt p) p.length (XR.toE t) k sel ∧
      m.predict ws (.one text) k t = .ok [(sel.map (fun i => m.labels.getD i []),
        sel.map (fun i => p.getD i (ofInt 0)))] := by
  have hsc : FT.dot A m.outputMatrix = sc.map XR.fin := by
    unfold FT.dot
    apply List.ext_getElem (by simp [hsc'.length_eq])
    intro i h1 h2
    simp only [List.length_map] at h1 h2
    simpa using hsc'.get h1 h2
  obtain ⟨p, hp, hlen, hunit⟩ := C50_safe_rounded fp hs sc hne
  have hscl : sc.length = m.outputMatrix.length := by
    have := congrArg List.length hsc
    simpa [FT.dot] using this.symm
  have hnan : XR.nan ∉ p := by
    intro h
    obtain ⟨r, hr, -⟩ := hunit _ h
    cases hr
  obtain ⟨sel, h1, h2⟩ := C49_topk ws m hsup hl text A p hA (by rw [hsc]; exact hp) (by omega) hnan k t ht
  exact ⟨p, sel, hp, by omega, hunit, h1, h2⟩

/-- The order among equal scores: the later label comes first (the C++ library does not promise an
order). -/
theorem C49_ties (p : List (XR fp)) (hnan : XR.nan ∉ p) :
    (FT.argsort p).reverse.Pairwise fun i j => scoreAt p j < scoreAt p i ∨ scoreAt p j = scoreAt p i ∧ j < i :=
  List.pairwise_reverse.2 (argsort_spec XR.toE (XR.ordOn_toE hnan)).2

/-- A negative `k` drops the least probable labels (`k = -1`, "all labels" in fastText, loses
one of them). -/
theorem C49_negative_k (ws : Char → Bool) (m : FT.Model (XR fp)) (hsup : m.supervised = true)
    (hl : m.lossSoftmax = true) (text : Str)
    (A p : List (XR fp)) (hA : m.getSentenceVector ws text = .ok A)
    (hp : FT.sfmax (FT.dot A m.outputMatrix) = .ok p) (hlab : p.length ≤ m.labels.length)
    (hnan : XR.nan ∉ p) (t : XR fp) (ht : t ≠ .nan) :
    ∃ sel all : List Nat, TopK (scoreAt p) p.length (XR.toE t) p.length all ∧ sel = all.dropLast ∧
      m.predict ws (.one text) (-1) t = .ok [(sel.map (fun i => m.labels.getD i []),
        sel.map (fun i => p.getD i (ofInt 0)))] := by
  obtain ⟨h1, h2⟩ := argsort_spec XR.toE (XR.ordOn_toE hnan)
  refine ⟨_, _, topK_of_sorted (t := XR.toE t) (k := p.length) h1 h2, rfl, ?_⟩
  simp only [FT.Model.predict, hsup, Bool.not_true, Bool.false_eq_true, if_false,
    predict_select ws m hl text A p hA hp hlab hnan (-1) t ht, py_ok_bind, py_pure]
  have hlen : ((FT.argsort p).reverse.filter fun i => decide (XR.toE t ≤ scoreAt p i)).length ≤ p.length := by
    refine (List.length_filter_le _ _).trans ?_
    rw [List.length_reverse, h1.length_eq, List.length_range]
  have hk : ∀ l : List Nat, FT.Model.sliceTo l (-1) = l.dropLast := by
    intro l; rw [List.dropLast_eq_take]; simp [FT.Model.sliceTo]
  simp only [hk]
  have htake : (List.filter (fun i => decide (XR.toE t ≤ scoreAt p i)) (FT.argsort p).reverse).take p.length =
      List.filter (fun i => decide (XR.toE t ≤ scoreAt p i)) (FT.argsort p).reverse :=
    List.take_of_length_le hlen
  show _ = Except.ok [(List.map _ (List.take p.length (List.filter
    (fun i => decide (XR.toE t ≤ scoreAt p i)) (FT.argsort p).reverse)).dropLast, _)]
  rw [htake]

section structural
variable {F : Type} [Arith F]
/-- Errors: an unsupervised model and a text with a newline raise `ValueError`. -/
theorem C49_errors (ws : Char → Bool) (m : FT.Model F) (text : Str) (k : Int) (t : F) :
    (m.supervised = false → m.predict ws (.one text) k t = .error .valueError) ∧
    (m.supervised = true → '\n' ∈ text → m.predict ws (.one text) k t = .error .valueError) := by
  constructor
  · intro h; simp [FT.Model.predict, h]
  · intro h hn
    simp [FT.Model.predict, h, FT.Model.predict_, FT.Model.getSentenceVector, hn]
end structural

/-- Non-vacuity: a model with two labels, one word and the end-of-sentence token. -/
example : ∃ (m : FT.Model Ex) (A p : List Ex), m.supervised = true ∧ m.lossSoftmax = true ∧
    m.getSentenceVector (fun c => c == ' ' || c == '\n') ['a'] = .ok A ∧
    FT.sfmax (FT.dot A m.outputMatrix) = .ok p ∧ p.length ≤ m.labels.length ∧ XR.nan ∉ p ∧ p ≠ [] := by
  refine ⟨⟨true, [['a']], [fins [2]], 1, [['x'], ['y']], [fins [1], fins [3]], true⟩, fins [2],
    fins (softmaxR [2, 6]), rfl, rfl, ?_, ?_, ?_, ?_, ?_⟩
  · have h1 : splitWs (fun c => c == ' ' || c == '\n') (['a'] ++ ['\n']) = [['a']] := by decide
    have h2 : (([['a']] : List Str) ++ [FT.Model.eos]).filter (fun w => ([['a']] : List Str).contains w) =
        [['a']] := by decide
    have h3 : (['a'] : Str).contains '\n' = false := by decide
    simp only [FT.Model.getSentenceVector, h1, h2, h3, Bool.false_eq_true, if_false, if_true]
    have h4 : pySum [(.fin 2 : Ex)] /ₚ .fin 1 = .ok (.fin 2) := by
      rw [show pySum [(.fin 2 : Ex)] = .fin [2].sum from pySum_fins [2], XR.div_exact _ one_ne_zero]
      simp
    simp [FT.Model.getWordVector, FT.Model.getWordId, List.findIdx?_cons, pyGet, FT.average,
      zipStar, minLen, h4]
  · have : FT.dot (fins [2]) [fins [1], fins [3]] = fins [2, 6] := by
      simp [FT.dot, dotList_fins, -fins_cons]; norm_num
    rw [this]
    exact C50_exact _ (by simp)
  · simp [softmaxR]
  · simp [fins_def]
  · simp [softmaxR]

end PurePredict
