import Verif.Lemmas.Union
import Verif.Lemmas.XR
/-
C42: `FeatureUnion.transform` lays the outputs of its transformers side by side.
-/
namespace PurePredict
open Spec
variable {F : Type} [Arith F]

namespace Spec
/-- What a transformer contributes to a union on an input with `n` records: whether it is sparse, its
number of columns and, after scaling by the weight, its matrix. -/
structure Block (F : Type) where
  isSparse : Bool
  width : Nat
  mat : List (List F)

/-- The transformer `t`, with its weight, contributes the block `b` on the input `X`. -/
def Yields (t : Arr F → Py (Arr F)) (weight : Option F) (X : Arr F) (n : Nat) (b : Block F) : Prop :=
  ∃ A M, t X = .ok A ∧ A.issparse = b.isSparse ∧ Denotes (ofInt 0) A b.width M ∧ M.length = n ∧
    0 < b.width ∧
    b.mat = match weight with
      | none => M
      | some c => M.map fun r => r.map (· *ₚ c)

/-- The weight of the transformer `name`: what the dict of weights, if there is one, holds for it. -/
def weightFor (weights : Option (List (String × F))) (name : String) : Option F :=
  weights.bind fun ws => (ws.find? fun kv => kv.1 == name).map (·.2)

/-- The claim of C42 for a union and an input of `n` records, when its transformers contribute `bs`. -/
def UnionClaim (u : FeatureUnion F) (X : Arr F) (n : Nat) (bs : List (Block F)) : Prop :=
  ∃ R, u.transform X = .ok R ∧
    Denotes (ofInt 0) R (bs.map Block.width).sum ((List.range n).map (hrow (bs.map Block.mat))) ∧
    R.issparse = bs.any Block.isSparse
end Spec

omit [Arith F] in
theorem weightOf_eq (u : FeatureUnion F) (name : String) :
    u.weightOf name = weightFor u.weights name := by
  unfold FeatureUnion.weightOf weightFor
  cases u.weights with
  | none => rfl
  | some ws =>
    induction ws with
    | nil => rfl
    | cons kv ws ih =>
      simp only [Dict.get?, Option.bind_some] at ih ⊢
      rw [List.lookup_cons, List.find?_cons, show (name == kv.1) = (kv.1 == name) from Bool.eq_iff_iff.2 (by simp only [beq_iff_eq]; exact eq_comm)]
      cases kv.1 == name with
      | true => rfl
      | false => exact ih

omit [Arith F] in
theorem denotes_len {z : F} {A : Arr F} {w : Nat} {M : List (List F)} (h : Denotes z A w M) :
    M ≠ [] ∧ Rect w M := by
  cases h with
  | dense h1 h2 => exact ⟨h1, h2⟩
  | sparse h1 h2 =>
    refine ⟨by simpa using h1, fun r hr => ?_⟩
    obtain ⟨d, -, rfl⟩ := List.mem_map.1 hr
    exact dense_length _ _ _

theorem apply2d_ofMat_ok {G : Type} (M : List (List F)) (g : F → G) :
    apply2d (.ofMat M) (fun x => .ok (g x)) = .ok (M.map fun r => r.map g) := by
  simp only [apply2d, issparse_ofMat, Bool.false_eq_true, if_false, rows_ofMat, py_ok_bind]
  rw [mapM_map']
  apply mapM_ok_map
  intro r _
  simp only [Row.iter, py_ok_bind]
  exact mapM_ok_map fun x _ => rfl

theorem transformOne_yields {t : Arr F → Py (Arr F)} {weight : Option F} {X : Arr F} {n : Nat} {b : Block F}
    (h : Yields t weight X n b) (hs : weight ≠ none → b.isSparse = false) :
    ∃ A, transformOne t X weight = .ok A ∧ A.issparse = b.isSparse ∧
      Denotes (ofInt 0) A b.width b.mat ∧ b.mat.length = n := by
  obtain ⟨A, M, hA, hsp, hD, hn, -, hb⟩ := h
  unfold transformOne
  rw [hA]
  cases weight with
  | none => exact ⟨A, rfl, hsp, by rw [hb]; exact hD, by rw [hb]; exact hn⟩
  | some c =>
    have hf := hs (by simp)
    rw [hf] at hsp
    cases hD with
    | sparse _ _ => exact absurd hsp (by simp [Arr.issparse])
    | dense h1 h2 =>
      simp only [py_ok_bind, apply2d_ofMat_ok, py_pure]
      refine ⟨_, rfl, by rw [hf]; rfl, ?_, by rw [hb]; simpa using hn⟩
      rw [hb]
      refine .dense (by simpa using h1) ?_
      intro r hr
      obtain ⟨r', hr', rfl⟩ := List.mem_map.1 hr
      rw [List.length_map]; exact h2 r' hr'

/-- A block as a list of sparse rows. -/
theorem toBlock_ok (h0 : ∀ v : F, (v ==ₚ ofInt 0) = true → v = ofInt 0) {A : Arr F} {w : Nat}
    {M : List (List F)} (h : Denotes (ofInt 0) A w M) (hw : 0 < w) :
    ∃ ds, toBlock A = .ok (ds, w) ∧ (∀ d ∈ ds, ValidRow w d) ∧ ds.map (dense (ofInt 0) w) = M := by
  cases h with
  | sparse h1 h2 => exact ⟨_, rfl, h2, rfl⟩
  | dense h1 h2 =>
    obtain ⟨x, hx⟩ : ∃ x, pyGet (M.headD []) 0 = .ok x := by
      cases M with
      | nil => exact absurd rfl h1
      | cons r M =>
        have : 0 < r.length := by rw [h2 r (by simp)]; exact hw
        exact ⟨_, pyGet_lt this⟩
    refine ⟨M.map fun r => sparsePairs r w, ?_, ?_, ?_⟩
    · simp only [toBlock, issparse_ofMat, Bool.false_eq_true, if_false]
      rw [tosparse_ofMat h1 h2 hx]
      rfl
    · intro d hd
      obtain ⟨r, -, rfl⟩ := List.mem_map.1 hd
      exact sparsePairs_valid r w
    · rw [List.map_map]
      conv_rhs => rw [← List.map_id M]
      apply List.map_congr_left
      intro r hr
      have := dense_sparsePairs r (ofInt 0)
      rw [h2 r hr] at this
      simp only [Function.comp, this, id]
      conv_rhs => rw [← List.map_id r]
      apply List.map_congr_left
      intro v _
      split
      · rename_i hv; exact (h0 v hv).symm
      · rfl

/-- **C42**.  For any number of transformers, any shapes and any mixture of sparse and dense outputs,
with weights on dense outputs only: the result is the horizontal concatenation of the (scaled)
outputs, sparse exactly when one of them is.  `h0` (a number that is `== 0` is the number zero)
holds in every sound arithmetic, see `C42_xr_partial`.  Missing from the full claim: weights on
sparse outputs, for which it is false (`C42_false`). -/
theorem C42_concat_partial (h0 : ∀ v : F, (v ==ₚ ofInt 0) = true → v = ofInt 0) (u : FeatureUnion F)
    {X : Arr F} (hX : checkArray X .allow = .ok X) {n : Nat} (hn : X.len = .ok n) (hpos : 0 < n)
    {bs : List (Block F)} (hne : bs ≠ [])
    (hbs : List.Forall₂ (fun t b => Yields t.2 (weightFor u.weights t.1) X n b ∧
      (weightFor u.weights t.1 ≠ none → b.isSparse = false)) u.transformers bs) : UnionClaim u X n bs := by
  -- outputs of the transformers
  obtain ⟨Xs, hXs, hF⟩ : ∃ Xs, u.transformers.mapM (fun t => transformOne t.2 X (u.weightOf t.1)) = .ok Xs ∧
      List.Forall₂ (fun A b => A.issparse = b.isSparse ∧ Denotes (ofInt 0) A b.width b.mat ∧
        b.mat.length = n ∧ 0 < b.width) Xs bs := by
    clear hne
    generalize u.transformers = ts at hbs
    induction hbs with
    | nil => exact ⟨[], rfl, .nil⟩
    | @cons t b ts bs h _ ih =>
      obtain ⟨Xs, h1, h2⟩ := ih
      rw [← weightOf_eq] at h
      obtain ⟨A, hA, ha, hb, hc⟩ := transformOne_yields h.1 h.2
      have hw : 0 < b.width := by
        obtain ⟨_, _, _, _, _, _, hw, _⟩ := h.1
        exact hw
      refine ⟨A :: Xs, ?_, .cons ⟨ha, hb, hc, hw⟩ h2⟩
      rw [mapM_cons', hA, h1]
      rfl
  have hXne : Xs ≠ [] := by
    rintro rfl
    cases hF
    exact hne rfl
  have hany : Xs.any Arr.issparse = bs.any Block.isSparse := by
    clear hXs hXne hne hbs
    induction hF with
    | nil => rfl
    | cons h _ ih => rw [List.any_cons, List.any_cons, ih, h.1]
  have hrectangle : ∀ i < n, (hrow (bs.map Block.mat) i).length = (bs.map Block.width).sum := by
    clear hXs hXne hne hbs hany
    intro i hi
    induction hF with
    | nil => rfl
    | @cons A b Xs bs h _ ih =>
      obtain ⟨-, hD, hl, -⟩ := h
      have hi' : i < b.mat.length := by omega
      simp only [hrow, List.map_cons, List.flatten_cons, List.length_append, List.sum_cons] at ih ⊢
      rw [ih, List.getElem?_eq_getElem hi', Option.getD_some,
        (denotes_len hD).2 _ (List.getElem_mem hi')]
  unfold UnionClaim FeatureUnion.transform unionOf
  rw [hX]
  simp only [py_ok_bind, hXs]
  rw [if_neg (by simpa using hXne), hany]
  cases hsp : bs.any Block.isSparse with
  | false =>
    have hden : ∃ mats, Xs.mapM Arr.rows = .ok (mats.map fun M => M.map Row.list) ∧
        mats = bs.map Block.mat := by
      clear hXs hXne hne hbs hrectangle hany
      induction hF with
      | nil => exact ⟨[], rfl, rfl⟩
      | @cons A b Xs bs h _ ih =>
        rw [List.any_cons, Bool.or_eq_false_iff] at hsp
        obtain ⟨mats, h1, h2⟩ := ih hsp.2
        refine ⟨b.mat :: mats, ?_, by rw [h2]; rfl⟩
        have hA : A.rows = .ok (b.mat.map Row.list) := by
          have h3 := h.2.1
          have h4 := h.1
          rw [hsp.1] at h4
          generalize b.mat = M at h3
          cases h3 with
          | dense => rfl
          | sparse => exact absurd h4 (by simp [Arr.issparse])
        rw [mapM_cons', hA, h1]
        rfl
    obtain ⟨mats, hm, rfl⟩ := hden
    simp only [Bool.false_eq_true, if_false, hm, py_ok_bind, hn]
    have hrows : (List.range n).mapM (fun (i : Nat) =>
        unionDenseRow ((bs.map Block.mat).map fun M => M.map Row.list) i) =
        .ok ((List.range n).map fun (i : Nat) => hrow (bs.map Block.mat) i) := by
      apply range_mapM
      intro i hi
      have hlen : ∀ b ∈ bs, i < b.mat.length := by
        intro b hb
        obtain ⟨A, -, h⟩ := forall₂_right hF b hb
        rw [h.2.2.1]; exact hi
      have h1 : ((bs.map Block.mat).map fun M => M.map (Row.list (F := F))).mapM
          (fun X => pyGet X (i : Int)) =
          .ok (bs.map fun b => Row.list ((b.mat[i]?).getD [])) := by
        rw [List.map_map, mapM_map']
        apply mapM_ok_map
        intro b hb
        have := hlen b hb
        simp only [Function.comp]
        rw [pyGet_lt (by simpa using this), List.getElem?_eq_getElem this]
        simp
      unfold unionDenseRow
      rw [h1]
      simp only [py_ok_bind]
      match bs, hne with
      | [b], _ => simp [Row.iter, hrow]
      | b :: b' :: bs', _ =>
        simp only [List.map_cons]
        have h2 : (Row.list ((b.mat[i]?).getD []) :: Row.list ((b'.mat[i]?).getD []) ::
            bs'.map fun b => Row.list ((b.mat[i]?).getD [])).mapM Row.asList =
            .ok ((b :: b' :: bs').map fun b => (b.mat[i]?).getD []) := by
          rw [show (Row.list ((b.mat[i]?).getD []) :: Row.list ((b'.mat[i]?).getD []) ::
            bs'.map fun b => Row.list ((b.mat[i]?).getD [])) =
            (b :: b' :: bs').map fun b => Row.list ((b.mat[i]?).getD []) from rfl, mapM_map']
          exact mapM_ok_map fun _ _ => rfl
        rw [h2]
        simp [hrow, List.map_map, Function.comp_def]
    rw [hrows]
    simp only [py_ok_bind, py_pure]
    refine ⟨_, rfl, .dense ?_ ?_, rfl⟩
    · intro h
      have := congrArg List.length h
      simp at this
      omega
    · intro r hr
      obtain ⟨i, hi, rfl⟩ := List.mem_map.1 hr
      exact hrectangle i (by simpa using hi)
  | true =>
    have hblk : ∃ blocks, Xs.mapM toBlock = .ok blocks ∧
        List.Forall₂ (fun B b => B.2 = b.width ∧ B.1.length = n ∧ (∀ d ∈ B.1, ValidRow B.2 d) ∧
          B.1.map (dense (ofInt 0) B.2) = b.mat) blocks bs := by
      clear hXs hXne hne hbs hrectangle hany hsp
      induction hF with
      | nil => exact ⟨[], rfl, .nil⟩
      | @cons A b Xs bs h _ ih =>
        obtain ⟨blocks, h1, h2⟩ := ih
        obtain ⟨ds, h3, h4, h5⟩ := toBlock_ok h0 h.2.1 h.2.2.2
        refine ⟨(ds, b.width) :: blocks, by rw [mapM_cons', h3, h1]; rfl, .cons ⟨rfl, ?_, h4, h5⟩ h2⟩
        have := congrArg List.length h5
        rw [List.length_map] at this
        simp only [this, h.2.2.1]
    obtain ⟨blocks, hb1, hb2⟩ := hblk
    simp only [if_true, hb1, py_ok_bind, hn]
    have hval : ∀ B ∈ blocks, B.1.length = n ∧ ∀ d ∈ B.1, ValidRow B.2 d := by
      intro B hB
      obtain ⟨b, -, h⟩ := forall₂_left hb2 B hB
      exact ⟨h.2.1, h.2.2.1⟩
    have hsizes : blocks.map (·.2) = bs.map Block.width := by
      clear hval hb1 hXs hXne hne hbs hrectangle hany hsp hF
      induction hb2 with
      | nil => rfl
      | cons h _ ih => rw [List.map_cons, List.map_cons, ih, h.1]
    have hrows : (List.range n).mapM (fun (i : Nat) =>
        unionRow blocks (0 :: accumu (blocks.map (·.2))) i) =
        .ok ((List.range n).map fun (i : Nat) => concatFrom 0 (blocks.map fun B => ((B.1[i]?).getD [], B.2))) := by
      apply range_mapM
      intro i hi
      exact unionRow_ok i blocks fun B hB => ⟨by rw [(hval B hB).1]; exact hi, (hval B hB).2⟩
    rw [hrows]
    simp only [py_ok_bind]
    rw [sparseList_dicts (by simpa using Nat.pos_iff_ne_zero.1 hpos)]
    have hpart : ∀ i < n, ∀ p ∈ blocks.map (fun B => ((B.1[i]?).getD [], B.2)), ValidRow p.2 p.1 := by
      intro i hi p hp
      obtain ⟨B, hB, rfl⟩ := List.mem_map.1 hp
      have hi' : i < B.1.length := by rw [(hval B hB).1]; exact hi
      rw [List.getElem?_eq_getElem hi']
      exact (hval B hB).2 _ (List.getElem_mem hi')
    have hsnd : ∀ i : Nat, (blocks.map fun B => ((B.1[i]?).getD [], B.2)).map Prod.snd = blocks.map (·.2) := by
      intro i; simp [List.map_map, Function.comp_def]
    refine ⟨_, rfl, ?_, rfl⟩
    rw [hsizes]
    have hD := Denotes.sparse (z := (ofInt 0 : F)) (dt := .float) (w := (bs.map Block.width).sum)
      (ds := (List.range n).map fun (i : Nat) => concatFrom 0 (blocks.map fun B => ((B.1[i]?).getD [], B.2)))
      (by simpa using Nat.pos_iff_ne_zero.1 hpos) (by
        intro d hd
        obtain ⟨i, hi, rfl⟩ := List.mem_map.1 hd
        obtain ⟨h1, h2⟩ := concatFrom_valid _ (hpart i (by simpa using hi)) 0
        refine ⟨h1, fun p hp => ?_⟩
        have := h2 p hp
        rw [hsnd, hsizes] at this
        simpa using this)
    rw [List.map_map] at hD
    have heq : (List.range n).map (hrow (bs.map Block.mat)) =
        (List.range n).map (dense (ofInt 0) (bs.map Block.width).sum ∘ fun (i : Nat) =>
          concatFrom 0 (blocks.map fun B => ((B.1[i]?).getD [], B.2))) := by
      apply List.map_congr_left
      intro i hi
      have hi : i < n := by simpa using hi
      have := concatFrom_dense (ofInt 0 : F) _ (hpart i hi) 0
      rw [hsnd, hsizes] at this
      simp only [Nat.zero_add] at this
      simp only [Function.comp, dense]
      rw [this, hrow, List.map_map, List.map_map]
      congr 1
      clear this hpart hD hrows hsizes hb1 hsnd
      have hval' := hval
      clear hval hXs hXne hne hbs hrectangle hany hsp hF
      induction hb2 with
      | nil => rfl
      | @cons B b blocks bs h _ ih =>
        rw [List.map_cons, List.map_cons, ih (fun B hB => hval' B (by simp [hB]))]
        congr 1
        simp only [Function.comp]
        have hi' : i < B.1.length := by rw [h.2.1]; exact hi
        rw [← h.2.2.2, List.getElem?_map, List.getElem?_eq_getElem hi']
        rfl
    rw [heq]
    exact hD

/-- **C42** in every sound floating point arithmetic. -/
theorem C42_xr_partial {fp : FP} (hs : fp.Sound) (u : FeatureUnion (XR fp))
    {X : Arr (XR fp)} (hX : checkArray X .allow = .ok X) {n : Nat} (hn : X.len = .ok n) (hpos : 0 < n)
    {bs : List (Block (XR fp))} (hne : bs ≠ [])
    (hbs : List.Forall₂ (fun t b => Yields t.2 (weightFor u.weights t.1) X n b ∧
      (weightFor u.weights t.1 ≠ none → b.isSparse = false)) u.transformers bs) : UnionClaim u X n bs :=
  C42_concat_partial (fun v hv => by rw [XR.eq_zero_of_eqp hs hv, XR.ofInt_zero hs]) u hX hn hpos hne hbs

/-- A weight on a transformer with sparse output raises `ValueError` (`apply_2d` rejects sparse
input), whatever the later transformers do. -/
theorem C42_weight_sparse (u : FeatureUnion F) {X : Arr F} (hX : checkArray X .allow = .ok X)
    {name : String} {t : Arr F → Py (Arr F)} {rest : List (String × (Arr F → Py (Arr F)))}
    (hu : u.transformers = (name, t) :: rest) {c : F} (hc : weightFor u.weights name = some c)
    {A : Arr F} (hA : t X = .ok A) (hs : A.issparse = true) :
    u.transform X = .error .valueError := by
  unfold FeatureUnion.transform unionOf
  rw [hX]
  simp only [py_ok_bind, hu, mapM_cons']
  have : transformOne t X (u.weightOf name) = .error .valueError := by
    simp [transformOne, hA, weightOf_eq, hc, apply2d, hs]
  rw [this]
  rfl

/-- **C42 is false** as stated: a weighted transformer with sparse output makes the union fail, so the
claim does not hold for all unions (here: the identity with weight 2 on the sparse 1×1 matrix (1)). -/
theorem C42_false : ¬ ∀ (u : FeatureUnion Ex) (X : Arr Ex) (n : Nat) (bs : List (Block Ex)),
    checkArray X .allow = .ok X → X.len = .ok n → 0 < n → bs ≠ [] →
    List.Forall₂ (fun t b => Yields t.2 (weightFor u.weights t.1) X n b) u.transformers bs → UnionClaim u X n bs := by
  intro h
  have h1 := h ⟨[("a", fun X => .ok X)], some [("a", ofInt 2)]⟩ (.sparse [[(0, ofInt 1)]] (some 1) .float) 1
    [⟨true, 1, [[ofInt 1 *ₚ ofInt 2]]⟩] rfl rfl (by norm_num) (by simp) ?_
  · obtain ⟨R, hR, -⟩ := h1
    rw [C42_weight_sparse _ rfl (name := "a") (t := fun X => .ok X) (rest := []) rfl (c := ofInt 2) rfl rfl rfl] at hR
    cases hR
  · refine .cons ⟨_, [[ofInt 1]], rfl, rfl, ?_, rfl, by norm_num, rfl⟩ .nil
    exact .sparse (ds := [[(0, ofInt 1)]]) (by simp) (by
      intro d hd
      simp only [List.mem_singleton] at hd
      subst hd
      exact ⟨by simp, by simp⟩)

/-- **C42**, errors: the union raises the first error among its transformers (when the earlier ones
return something that can be weighted). -/
theorem C42_error (u : FeatureUnion F) {X : Arr F} (hX : checkArray X .allow = .ok X)
    {pre post : List (String × (Arr F → Py (Arr F)))} {t : String × (Arr F → Py (Arr F))} {e : PyErr}
    (hu : u.transformers = pre ++ t :: post)
    (hpre : ∀ p ∈ pre, ∃ A, p.2 X = .ok A ∧ (weightFor u.weights p.1 = none ∨ ∃ M, A = .ofMat M))
    (ht : t.2 X = .error e) : u.transform X = .error e := by
  unfold FeatureUnion.transform unionOf
  rw [hX]
  simp only [py_ok_bind]
  obtain ⟨As, hAs⟩ := mapM_total (f := fun (p : String × (Arr F → Py (Arr F))) =>
    transformOne p.2 X (u.weightOf p.1)) (l := pre) (by
      intro p hp
      obtain ⟨A, hA, h⟩ := hpre p hp
      unfold transformOne
      rw [hA, weightOf_eq]
      cases hw : weightFor u.weights p.1 with
      | none => exact ⟨A, rfl⟩
      | some c =>
        rw [hw] at h
        obtain ⟨M, rfl⟩ := h.resolve_left (by simp)
        simp only [py_ok_bind, apply2d_ofMat_ok, py_pure]
        exact ⟨_, rfl⟩)
  have h2 : transformOne t.2 X (u.weightOf t.1) = .error e := by simp [transformOne, ht]
  rw [hu, mapM_append', hAs, mapM_cons', h2]
  rfl

/-- A union without transformers returns a matrix of zeros of the shape of the input. -/
theorem C42_no_transformers (ws : Option (Dict String F)) {M : List (List F)} {w : Nat} (hM : M ≠ [])
    (hw : Rect w M) : (⟨[], ws⟩ : FeatureUnion F).transform (.ofMat M) =
      .ok (.ofMat (List.replicate M.length (List.replicate w (ofInt 0)))) := by
  unfold FeatureUnion.transform unionOf
  rw [checkArray_ofMat hM]
  simp only [py_ok_bind, mapM_nil', py_pure, List.isEmpty_nil, if_true, shape_ofMat hM hw]

/-- Non-vacuity: a dense block scaled by 3, a sparse block and an unscaled dense block. -/
example : ∃ R, (⟨[("a", fun _ => .ok (.ofMat [[.fin 1, .fin 0], [.fin 2, .fin 5]])),
      ("b", fun _ => .ok (.sparse [[(1, .fin 7)], []] (some 2) .float)),
      ("c", fun X => .ok X)], some [("a", .fin 3)]⟩ : FeatureUnion Ex).transform
        (.ofMat [[.fin 4], [.nan]]) = .ok R ∧ R.issparse = true ∧
      Denotes (.fin 0) R 5 [[.fin 3, .fin 0, .fin 0, .fin 7, .fin 4], [.fin 6, .fin 15, .fin 0, .fin 0, .nan]] := by
  obtain ⟨R, h1, h2, h3⟩ := C42_xr_partial FP.exact_sound
    (⟨[("a", fun _ => .ok (.ofMat [[.fin 1, .fin 0], [.fin 2, .fin 5]])),
      ("b", fun _ => .ok (.sparse [[(1, .fin 7)], []] (some 2) .float)),
      ("c", fun X => .ok X)], some [("a", .fin 3)]⟩ : FeatureUnion Ex) (X := .ofMat [[.fin 4], [.nan]])
    rfl (n := 2) rfl (by norm_num)
    (bs := [⟨false, 2, [[.fin 1 *ₚ .fin 3, .fin 0 *ₚ .fin 3], [.fin 2 *ₚ .fin 3, .fin 5 *ₚ .fin 3]]⟩,
      ⟨true, 2, [[ofInt 0, .fin 7], [ofInt 0, ofInt 0]]⟩, ⟨false, 1, [[.fin 4], [.nan]]⟩]) (by simp)
    (.cons ⟨⟨_, _, rfl, rfl, .dense (by simp) (by simp), rfl, by norm_num, rfl⟩, fun _ => rfl⟩
      (.cons ⟨⟨_, [[ofInt 0, .fin 7], [ofInt 0, ofInt 0]], rfl, rfl,
          .sparse (w := 2) (ds := [[(1, (.fin 7 : Ex))], []]) (by simp) (by simp [ValidRow]), rfl, by norm_num, rfl⟩,
          fun h => absurd rfl h⟩
        (.cons ⟨⟨_, _, rfl, rfl, .dense (by simp) (by simp), rfl, by norm_num, rfl⟩, fun _ => rfl⟩ .nil)))
  refine ⟨R, h1, h3, ?_⟩
  norm_num [hrow, List.range_succ] at h2
  exact h2

end PurePredict
