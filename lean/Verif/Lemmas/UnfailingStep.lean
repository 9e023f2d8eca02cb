import Verif.Spec.Unfailing
import Verif.Lemmas.NoTrap
import Verif.Lemmas.AnsweredStep
import Verif.Lemmas.TransformBatch
/-
Transformers answer whatever numbers a well-formed request contains.
-/
namespace PurePredict
open Spec

theorem mapM_all {α β : Type} {f : α → Py β} {l : List α} {Q : β → Prop} (h : ∀ x ∈ l, ∃ y, f x = .ok y ∧ Q y) :
    ∃ ys, l.mapM f = .ok ys ∧ ys.length = l.length ∧ ∀ y ∈ ys, Q y := by
  obtain ⟨ys, hys⟩ := mapM_total fun x hx => (h x hx).imp fun _ h => h.1
  refine ⟨ys, hys, mapM_length hys, fun y hy => ?_⟩
  obtain ⟨x, hx, e⟩ := mapM_mem hys hy
  obtain ⟨y', e', hq⟩ := h x hx
  rw [e] at e'
  cases e'
  exact hq

theorem ne_nil_of_length {α β : Type} {l : List α} {l' : List β} (h : l'.length = l.length) (hl : l ≠ []) : l' ≠ [] := by
  rintro rfl
  exact hl (List.length_eq_zero_iff.1 h.symm)

/-- Entries of a sparse row are replaced. -/
theorem validRow_mapM {F G : Type} {w : Nat} {f : Int × F → Py (Int × G)} {d : Dict Int F} (hd : ValidRow w d)
    (h : ∀ kv ∈ d, ∃ y, f kv = .ok (kv.1, y)) : ∃ d' : Dict Int G, d.mapM f = .ok d' ∧ ValidRow w d' := by
  obtain ⟨d', hd'⟩ := mapM_total (f := f) fun kv hkv => let ⟨y, e⟩ := h kv hkv; ⟨_, e⟩
  refine ⟨d', hd', ?_⟩
  have hk : d'.map Prod.fst = d.map Prod.fst := by
    clear hd
    induction d generalizing d' with
    | nil => simp at hd'; subst hd'; rfl
    | cons p d ih =>
      obtain ⟨y, ys, hy, hys, rfl⟩ := mapM_cons_ok.1 hd'
      obtain ⟨z, hz⟩ := h p (by simp)
      rw [hy] at hz
      cases hz
      simp [ih (fun kv hkv => h kv (by simp [hkv])) ys hys]
  refine ⟨by rw [hk]; exact hd.1, fun p hp => ?_⟩
  have : p.1 ∈ d.map Prod.fst := by rw [← hk]; exact List.mem_map.2 ⟨p, hp, rfl⟩
  obtain ⟨q, hq, e⟩ := List.mem_map.1 this
  rw [← e]
  exact hd.2 q hq

theorem rows_mapM {α F G : Type} {w : Nat} {M : List α} {f : α → Py (List G)} (h : ∀ r ∈ M, ∃ y, f r = .ok y ∧ y.length = w) :
    ∃ M', M.mapM f = .ok M' ∧ M'.length = M.length ∧ ∀ r ∈ M', r.length = w := mapM_all h

variable {fp : FP}

theorem Spec.Posed.Holds.matrix_cases {l : Layout} {w n : Nat} {X : Data (XR fp)} (h : (Posed.matrix l w).Holds X n) :
    (∃ M : List (List (XR fp)), X = .arr (.ofMat M) ∧ M ≠ [] ∧ Rect w M ∧ M.length = n ∧ l.Fits false) ∨
    ∃ (ds : List (Dict Int (XR fp))) (dt : DType), X = .arr (.sparse ds (some w) dt) ∧ ds ≠ [] ∧ (∀ d ∈ ds, ValidRow w d) ∧
      ds.length = n ∧ l.Fits true := by
  cases h with
  | dense h1 h2 h3 h4 => exact .inl ⟨_, rfl, h2, h3, h4, h1⟩
  | sparse h1 h2 h3 h4 => exact .inr ⟨_, _, rfl, h2, h3, h4, h1⟩

theorem unfailing_of {A B : Posed} {t : Data (XR fp) → Py (Arr (XR fp))}
    (h : ∀ X n, A.Holds X n → ∃ Y, t X = .ok Y ∧ B.Holds (.arr Y) n) : Unfailing (transformer t) A (.form B) := by
  refine ⟨_, rfl, fun X n hX => ?_⟩
  obtain ⟨Y, h1, h2⟩ := h X n hX
  exact ⟨.arr Y, by simp only [h1, py_ok_bind, py_pure], h2⟩

/-! ### Scalers -/

section
variable {F : Type} [Arith F]

theorem columnwise_total {p : List F} {op : F → F → Py F} (hop : ∀ a, ∀ b ∈ p, ∃ c, op a b = .ok c) {M : List (List F)}
    (hw : Rect p.length M) :
    ∃ M' : List (List F), columnwise p op (M.map Row.list) = .ok (M'.map Row.list) ∧ M'.length = M.length ∧ Rect p.length M' := by
  have h : ∀ r ∈ M, ∃ y : List F, ((List.range p.length).mapM fun (i : Nat) => do
      op (← (Row.list r).getItem (i : Int)) (← pyGet p (i : Int))) = .ok y ∧ y.length = p.length := by
    intro r hr
    obtain ⟨y, hy⟩ : ∃ y : List F, ((List.range p.length).mapM fun (i : Nat) => do
      op (← (Row.list r).getItem (i : Int)) (← pyGet p (i : Int))) = .ok y := by
      refine mapM_total fun i hi => ?_
      have hi := List.mem_range.1 hi
      have h1 : (Row.list r).getItem (i : Int) = .ok (r[i]'(by rw [hw r hr]; exact hi)) := pyGet_lt _
      obtain ⟨c, hc⟩ := hop (r[i]'(by rw [hw r hr]; exact hi)) p[i] (List.getElem_mem _)
      exact ⟨c, by rw [h1, pyGet_lt hi]; exact hc⟩
    exact ⟨y, hy, by simpa using mapM_length hy⟩
  obtain ⟨M', h1, h2, h3⟩ := mapM_all h
  refine ⟨M', ?_, h2, h3⟩
  unfold columnwise
  rw [mapM_map']
  exact ((OkEq.mapM_map _ Row.list M) _).1 (by rw [h1]; rfl)

theorem scaleDicts_total {S : List F} (hS : ∀ a, ∀ b ∈ S, ∃ c : F, a /ₚ b = .ok c) {ds : List (Dict Int F)}
    (hd : ∀ d ∈ ds, ValidRow S.length d) :
    ∃ ds', scaleDicts (some S) ds = .ok ds' ∧ ds'.length = ds.length ∧ ∀ d ∈ ds', ValidRow S.length d := by
  refine mapM_all fun d hdm => validRow_mapM (hd d hdm) fun kv hkv => ?_
  have hr := (hd d hdm).2 kv hkv
  obtain ⟨i, hi⟩ : ∃ i : Nat, kv.1 = (i : Int) := ⟨kv.1.toNat, by omega⟩
  have hi' : i < S.length := by omega
  obtain ⟨c, hc⟩ := hS kv.2 S[i] (List.getElem_mem _)
  exact ⟨c, by simp only [notNone, py_ok_bind, hi, pyGet_lt hi', hc, py_pure]⟩

theorem MinMaxScaler.total {a b : List F} (hab : b.length = a.length) {M : List (List F)} (hM : M ≠ []) (hw : Rect a.length M) :
    ∃ M', (⟨some a, some b⟩ : MinMaxScaler F).transform (.ofMat M) = .ok (.ofMat M') ∧ M'.length = M.length ∧ Rect a.length M' := by
  simp only [MinMaxScaler.transform, issparse_ofMat, Bool.false_eq_true, if_false, checkArray_ofMat hM, py_ok_bind, rows_ofMat, notNone]
  rw [mapM_map']
  have h : ∀ r ∈ M, ∃ y : List F, ((List.range a.length).mapM fun (i : Nat) => do
      return ((← (Row.list r).getItem (i : Int)) *ₚ (← pyGet a (i : Int))) +ₚ (← pyGet b (i : Int))) = .ok y ∧ y.length = a.length := by
    intro r hr
    obtain ⟨y, hy⟩ : ∃ y : List F, ((List.range a.length).mapM fun (i : Nat) => do
      return ((← (Row.list r).getItem (i : Int)) *ₚ (← pyGet a (i : Int))) +ₚ (← pyGet b (i : Int))) = .ok y := by
      refine mapM_total fun i hi => ?_
      have hi := List.mem_range.1 hi
      have h1 : (Row.list r).getItem (i : Int) = .ok (r[i]'(by rw [hw r hr]; exact hi)) := pyGet_lt _
      exact ⟨_, by rw [h1, pyGet_lt hi, pyGet_lt (by rw [hab]; exact hi)]; rfl⟩
    exact ⟨y, hy, by simpa using mapM_length hy⟩
  obtain ⟨M', h1, h2, h3⟩ := mapM_all h
  exact ⟨M', by rw [h1]; rfl, h2, h3⟩

end



theorem standard_calm {s : StandardScaler (XR fp)} {l : Layout} {w : Nat}
    (h1 : s.withMean = true → l = .dense ∧ ∃ m, s.mean = some m ∧ m.length = w)
    (h2 : s.withStd = true → Divisors s.scale w) (h3 : s.withStd = false → s.scale = none) :
    Unfailing (transformer (Data.onArr s.transform)) (.matrix l w) (.form (.matrix l w)) := by
  refine unfailing_of fun X n hX => ?_
  rcases hX.matrix_cases with ⟨M, rfl, hM, hw, rfl, hl⟩ | ⟨ds, dt, rfl, hds, hd, rfl, hl⟩
  · obtain ⟨M1, e1, g1, g2⟩ : ∃ M1 : List (List (XR fp)), (if s.withMean then notNone s.mean >>= fun m =>
          columnwise m (fun a b => .ok (a -ₚ b)) (M.map Row.list) else .ok (M.map Row.list)) = .ok (M1.map Row.list) ∧
        M1.length = M.length ∧ Rect w M1 := by
      by_cases hm : s.withMean = true
      · obtain ⟨-, m, e, rfl⟩ := h1 hm
        obtain ⟨M', k1, k2, k3⟩ := columnwise_total (p := m) (op := fun a b => .ok (a -ₚ b)) (fun _ _ _ => ⟨_, rfl⟩) hw
        exact ⟨M', by simp only [hm, if_true, e, notNone, py_ok_bind, k1], k2, k3⟩
      · exact ⟨M, by simp only [hm, if_false]; rfl, rfl, hw⟩
    obtain ⟨M2, e2, g3, g4⟩ : ∃ M2 : List (List (XR fp)), (if s.withStd then notNone s.scale >>= fun sc =>
          columnwise sc Arith.div (M1.map Row.list) else .ok (M1.map Row.list)) = .ok (M2.map Row.list) ∧
        M2.length = M1.length ∧ Rect w M2 := by
      by_cases hm : s.withStd = true
      · obtain ⟨S, e, rfl, hne⟩ := h2 hm
        obtain ⟨M', k1, k2, k3⟩ := columnwise_total (p := S) (op := Arith.div) (fun _ b hb => XR.div_total (hne b hb)) g2
        exact ⟨M', by simp only [hm, if_true, e, notNone, py_ok_bind, k1], k2, k3⟩
      · exact ⟨M1, by simp only [hm, if_false]; rfl, rfl, g2⟩
    refine ⟨.ofMat M2, ?_, .dense hl (ne_nil_of_length (g3.trans g1) hM) g4 (g3.trans g1)⟩
    show s.transform _ = _
    obtain ⟨wm, ws, sc, mn⟩ := s
    simp only [StandardScaler.transform, checkArray_dense hM, py_ok_bind, rows_list] at e1 e2 ⊢
    cases wm <;> cases ws <;> simp only [Bool.false_eq_true, if_false, if_true, py_pure, py_ok_bind] at e1 e2 ⊢
    · rw [Except.ok.injEq] at e1 e2; rw [e1, e2]; rfl
    · rw [Except.ok.injEq] at e1
      rw [e1]
      cases sc with
      | none => cases e2
      | some v => simp only [notNone, py_ok_bind] at e2 ⊢; rw [e2]; rfl
    · rw [Except.ok.injEq] at e2
      cases mn with
      | none => cases e1
      | some v => simp only [notNone, py_ok_bind] at e1 ⊢; rw [e1, e2]; rfl
    · cases mn with
      | none => cases e1
      | some v =>
        cases sc with
        | none => cases e2
        | some u => simp only [notNone, py_ok_bind] at e1 e2 ⊢; rw [e1, py_ok_bind, e2]; rfl
  · have hm : s.withMean = false := by
      cases hm : s.withMean with
      | false => rfl
      | true =>
        obtain ⟨rfl, -⟩ := h1 hm
        cases hl
    by_cases hs : s.withStd = true
    · obtain ⟨S, hsc, rfl, hne⟩ := h2 hs
      obtain ⟨ds', k1, k2, k3⟩ := scaleDicts_total (S := S) (fun _ b hb => XR.div_total (hne b hb)) hd
      have hne' := ne_nil_of_length k2 hds
      refine ⟨.sparse ds' (some S.length) dt, ?_, .sparse hl hne' k3 k2⟩
      show s.transform _ = _
      simp only [StandardScaler.transform, checkArray, py_ok_bind, hm, Bool.false_eq_true, if_false, hsc, k1]
      exact sparseList_dicts hne' _ _
    · refine ⟨.sparse ds (some w) dt, ?_, .sparse hl hds hd rfl⟩
      show s.transform _ = _
      simp [StandardScaler.transform, checkArray, hm, h3 (by simpa using hs)]

theorem maxAbs_calm {s : MaxAbsScaler (XR fp)} {l : Layout} {w : Nat} (h : Divisors s.scale w) :
    Unfailing (transformer (Data.onArr s.transform)) (.matrix l w) (.form (.matrix l w)) := by
  refine unfailing_of fun X n hX => ?_
  obtain ⟨S, hsc, rfl, hne⟩ := h
  rcases hX.matrix_cases with ⟨M, rfl, hM, hw, rfl, hl⟩ | ⟨ds, dt, rfl, hds, hd, rfl, hl⟩
  · obtain ⟨M', k1, k2, k3⟩ := columnwise_total (p := S) (op := Arith.div) (fun _ b hb => XR.div_total (hne b hb)) hw
    refine ⟨.ofMat M', ?_, .dense hl (ne_nil_of_length k2 hM) k3 k2⟩
    show s.transform _ = _
    simp only [MaxAbsScaler.transform, checkArray_dense hM, py_ok_bind, rows_list, hsc, notNone, k1]
    rfl
  · obtain ⟨ds', k1, k2, k3⟩ := scaleDicts_total (S := S) (fun _ b hb => XR.div_total (hne b hb)) hd
    have hne' := ne_nil_of_length k2 hds
    refine ⟨.sparse ds' (some S.length) dt, ?_, .sparse hl hne' k3 k2⟩
    show s.transform _ = _
    simp only [MaxAbsScaler.transform, checkArray, py_ok_bind, hsc, k1]
    exact sparseList_dicts hne' _ _

theorem minMax_calm {s : MinMaxScaler (XR fp)} {w : Nat} {a b : List (XR fp)} (h1 : s.scale = some a) (h2 : a.length = w)
    (h3 : s.min = some b) (h4 : b.length = w) :
    Unfailing (transformer (Data.onArr s.transform)) (.matrix .dense w) (.form (.matrix .dense w)) := by
  refine unfailing_of fun X n hX => ?_
  subst h2
  rcases hX.matrix_cases with ⟨M, rfl, hM, hw, rfl, hl⟩ | ⟨ds, dt, rfl, hds, hd, rfl, hl⟩
  · obtain ⟨M', k1, k2, k3⟩ := MinMaxScaler.total h4 hM hw
    refine ⟨.ofMat M', ?_, .dense hl (ne_nil_of_length k2 hM) k3 k2⟩
    obtain ⟨sc, mn⟩ := s
    simp only at h1 h3
    subst h1 h3
    exact k1
  · cases hl

/-! ### Normalizer -/

section
variable {F : Type} [Arith F]

theorem denseNorms_rowwise (n : Norm) (w : Nat) {A : List (List F)} (hA : A ≠ []) (hw : Rect w A) :
    OkEq (denseNorms n (.ofMat A)) (A.mapM (denseNorm n)) := by
  cases n with
  | l1 =>
    simp only [denseNorms, apply2d_ofMat]
    rw [mapM_ok_map (g := fun a : List F => a.map Arith.abs) fun a _ => mapM_ok_map fun _ _ => rfl,
      py_ok_bind, applyAxis2d_ofMat, mapM_map']
    exact OkEq.refl _
  | l2 =>
    have hm : matmultSameDim (.ofMat A) (.ofMat A) =
        .ok (.ofMat (A.map fun r => List.zipWith Arith.mul r r)) := by
      have hsh := shape_ofMat hA (w := w) hw
      have e : matmultSameDim (.ofMat A) (.ofMat A) = (do
          let rs ← (List.zip (A.map Row.list) (A.map Row.list)).mapM fun p => mulRows w p.1 p.2
          return .ofMat rs) := by
        simp only [matmultSameDim, hsh, py_ok_bind, bne_self_eq_false, Bool.false_eq_true, if_false]
        rfl
      rw [e]
      have hz : List.zip (A.map Row.list) (A.map Row.list) = A.map fun r => (Row.list r, Row.list r) := by
        clear hA hw hsh e
        induction A with
        | nil => rfl
        | cons r A ih => simpa using ih
      rw [hz, mapM_map', mapM_ok_map (g := fun r => List.zipWith Arith.mul r r)]
      · rfl
      · intro r hr
        rw [← hw r hr]
        exact mulRows_self r
    simp only [denseNorms, rowNorms, hm, py_ok_bind]
    show OkEq ((applyAxis2d (.ofMat _) _) >>= _) _
    rw [applyAxis2d_ofMat, mapM_map', mapM_ok_map (g := fun r => pySum (List.zipWith Arith.mul r r))
      fun _ _ => rfl, py_ok_bind, mapM_map']
    exact OkEq.refl _
  | max =>
    simp only [denseNorms, applyAxis2d_ofMat]
    exact OkEq.refl _
  | bad =>
    obtain ⟨r, hr⟩ := List.exists_mem_of_ne_nil A hA
    have := mapM_error_same (f := denseNorm (F := F) .bad) hr (e := .valueError) rfl
      fun _ _ e he => by cases he; rfl
    rw [this]
    exact OkEq.refl _

theorem denseNorms_total (hF : NoTrap F) {n : Norm} (hn : n ≠ .bad) {w : Nat} (hw' : n = .max → 0 < w) {M : List (List F)} (hM : M ≠ [])
    (hw : Rect w M) : ∃ q, denseNorms n (.ofMat M) = .ok q ∧ q.length = M.length := by
  have h : ∀ r ∈ M, ∃ y, denseNorm n r = .ok y := by
    intro r hr
    cases n with
    | l1 => exact ⟨_, rfl⟩
    | l2 =>
      obtain ⟨y, hy⟩ := hF.norm r
      exact ⟨y, by simp only [denseNorm, zipWith_self]; exact hy⟩
    | max =>
      have : r ≠ [] := by
        rintro rfl
        have := hw _ hr
        have := hw' rfl
        simp at *; omega
      obtain ⟨x, l, rfl⟩ := List.exists_cons_of_ne_nil this
      exact ⟨_, rfl⟩
    | bad => exact absurd rfl hn
  obtain ⟨q, hq⟩ := mapM_total h
  exact ⟨q, (denseNorms_rowwise n w hM hw q).2 hq, mapM_length hq⟩

theorem nonzero_total (hF : NoTrap F) (a b : F) : ∃ c, a /ₚ (if b ==ₚ ofInt 0 then ofInt 1 else b) = .ok c := by
  refine hF.div _ _ ?_
  cases h : b ==ₚ ofInt 0
  · simpa using h
  · simpa using hF.one

theorem sparseNorm_total (hF : NoTrap F) {n : Norm} (hn : n ≠ .bad) {w : Nat} {d : Dict Int F} (hd : ValidRow w d) :
    ∃ y, sparseNorm n d = .ok y := by
  cases n with
  | l1 => exact ⟨_, rfl⟩
  | l2 =>
    obtain ⟨y, hy⟩ := hF.norm (d.map Prod.snd)
    refine ⟨y, ?_⟩
    simp only [sparseNorm, mulDicts_self hd.1, Dict.values, List.map_map] at hy ⊢
    exact hy
  | max =>
    obtain ⟨x, l, e⟩ := List.exists_cons_of_ne_nil (l := d.values ++ [(ofInt 0 : F)]) (by simp)
    simp only [sparseNorm, e]
    exact ⟨_, rfl⟩
  | bad => exact absurd rfl hn

theorem normalizePure_sparse_total (hF : NoTrap F) {n : Norm} (hn : n ≠ .bad) {w : Nat} {dt : DType} {ds : List (Dict Int F)} (hds : ds ≠ [])
    (hd : ∀ d ∈ ds, ValidRow w d) : ∃ ds' : List (Dict Int F), normalizePure (.sparse ds (some w) dt) n = .ok (.sparse ds' (some w) dt) ∧
      ds'.length = ds.length ∧ ∀ d ∈ ds', ValidRow w d := by
  obtain ⟨q, hq⟩ := mapM_total fun d h => sparseNorm_total hF hn (hd d h)
  have hql := mapM_length hq
  obtain ⟨ds', k1, k2, k3⟩ := mapM_all (l := ds.zip q) (f := fun p => divDict p) (Q := ValidRow w) fun p hp => by
    refine validRow_mapM (hd _ (List.of_mem_zip hp).1) fun kv _ => ?_
    obtain ⟨c, hc⟩ := nonzero_total hF kv.2 p.2
    exact ⟨c, by simp only [hc, py_ok_bind, py_pure]⟩
  have hl : ds'.length = ds.length := by rw [k2]; simp [hql]
  refine ⟨ds', ?_, hl, k3⟩
  simp only [normalizePure, normalizePure', Arr.issparse, Bool.and_true, Bool.false_eq_true,
    if_false, hn, checkArray, py_ok_bind, show ((1 : Int) == 0) = false from rfl,
    show ((1 : Int) == 1) = true from rfl, Bool.or_true, Bool.not_true, py_pure, Bool.and_false,
    Bool.false_and, normalizeRows, bind_assoc, (sparseNorms_rowwise n (some w) dt hds q).2 hq]
  have hz : List.zip ds (handleZeros q) =
      (ds.zip q).map fun p => (p.1, if p.2 ==ₚ ofInt 0 then ofInt 1 else p.2) := by
    conv_lhs => rw [← List.map_id ds, handleZeros, List.zip_map]
    rfl
  rw [hz, mapM_map']
  simp only [divDict, py_pure] at k1
  rw [k1, py_ok_bind, sparseList_dicts (ne_nil_of_length hl hds)]
  rfl

theorem normalizer_dense_total (hF : NoTrap F) {n : Norm} (hn : n ≠ .bad) {w : Nat} (hw' : n = .max → 0 < w) {M : List (List F)} (hM : M ≠ [])
    (hw : Rect w M) : ∃ M' : List (List F), normalizerTransform n (.ofMat M) = .ok (.ofMat M') ∧ M'.length = M.length ∧ Rect w M' := by
  obtain ⟨q, hq, hql⟩ := denseNorms_total hF hn hw' hM hw
  have e : normalizeRows (.ofMat M : Arr F) n = (do
      let norms := handleZeros (← denseNorms n (.ofMat M))
      let rs' ← (List.zip (← (Arr.ofMat M : Arr F).rows) norms).mapM fun p => do
        (← p.1.iter).mapM fun a => a /ₚ p.2
      return (.ofMat rs', norms)) := rfl
  obtain ⟨M', k1, k2, k3⟩ := mapM_all (l := M.zip q) (Q := fun r : List F => r.length = w)
    (f := fun p : List F × F => p.1.mapM fun a => a /ₚ (if p.2 ==ₚ ofInt 0 then ofInt 1 else p.2)) fun p hp => by
    obtain ⟨r, hr⟩ := mapM_total (l := p.1) fun a _ => nonzero_total hF a p.2
    exact ⟨r, hr, (mapM_length hr).trans (hw _ (List.of_mem_zip hp).1)⟩
  refine ⟨M', ?_, by rw [k2]; simp [hql], k3⟩
  simp only [normalizerTransform, normalizePure, normalizePure', issparse_ofMat,
    Bool.and_false, Bool.false_eq_true, if_false, hn, checkArray_ofMat hM, py_ok_bind,
    show ((1 : Int) == 0) = false from rfl, show ((1 : Int) == 1) = true from rfl, Bool.or_true,
    Bool.not_true, py_pure, Bool.false_and, e, bind_assoc, rows_ofMat, hq]
  have hz : List.zip (M.map Row.list) (handleZeros q) =
      (M.zip q).map fun p => ((Row.list p.1 : Row F), if p.2 ==ₚ ofInt 0 then ofInt 1 else p.2) := by
    rw [handleZeros, List.zip_map]
    rfl
  rw [hz, mapM_map']
  simp only [Row.iter, py_ok_bind]
  rw [k1]
  rfl

end

theorem normalizer_calm (hF : NoTrap (XR fp)) {nm : Norm} {l : Layout} {w : Nat} (hn : nm ≠ .bad) (hw' : nm = .max → 0 < w) :
    Unfailing (transformer (Data.onArr (normalizerTransform (F := XR fp) nm))) (.matrix l w) (.form (.matrix l w)) := by
  refine unfailing_of fun X n hX => ?_
  rcases hX.matrix_cases with ⟨M, rfl, hM, hw, rfl, hl⟩ | ⟨ds, dt, rfl, hds, hd, rfl, hl⟩
  · obtain ⟨M', k1, k2, k3⟩ := normalizer_dense_total hF hn hw' hM hw
    exact ⟨_, k1, .dense hl (ne_nil_of_length k2 hM) k3 k2⟩
  · obtain ⟨ds', k1, k2, k3⟩ := normalizePure_sparse_total (dt := dt) hF hn hds hd
    refine ⟨.sparse ds' (some w) dt, ?_, .sparse hl (ne_nil_of_length k2 hds) k3 k2⟩
    show normalizerTransform _ _ = _
    simp only [normalizerTransform, checkArray, py_ok_bind]
    exact k1

/-! ### Text -/

section
variable {F : Type} [Arith F]

theorem validRow_set {w : Nat} {d : Dict Int F} (h : ValidRow w d) {k : Int} {v : F} (hk : 0 ≤ k ∧ k < w) : ValidRow w (d.set k v) := by
  refine ⟨Dict.nodup_keys_set h.1, fun p hp => ?_⟩
  rcases dict_mem_set hp with hp | rfl
  · exact h.2 p hp
  · exact hk

theorem validRow_ofList {w : Nat} (l : List (Int × F)) (h : ∀ p ∈ l, 0 ≤ p.1 ∧ p.1 < w) : ValidRow w (Dict.ofList l) := by
  unfold Dict.ofList
  suffices ∀ d : Dict Int F, ValidRow w d → ValidRow w (l.foldl (fun d p => Dict.set d p.1 p.2) d) from
    this _ ⟨List.nodup_nil, by simp⟩
  induction l with
  | nil => exact fun d hd => hd
  | cons p l ih =>
    exact fun d hd => ih (fun q hq => h q (by simp [hq])) _ (validRow_set hd (h p (by simp)))

theorem tfidf_total (hF : NoTrap F) {t : Tfidf F} {w : Nat} (hs : t.sublinearTf = false) (hi : t.idf.length = w)
    (hw : t.expectedNFeatures = w) (hn : t.norm ≠ some .bad) {ds : List (Dict Int F)} (hds : ds ≠ [])
    (hd : ∀ d ∈ ds, ValidRow w d) (dt : DType) :
    ∃ (ds' : List (Dict Int F)) (X' : Arr F), t.transform (.sparse ds (some w) dt) = .ok (.sparse ds' (some w) dt, X') ∧
      ds'.length = ds.length ∧ ∀ d ∈ ds', ValidRow w d := by
  subst hw
  rw [tfidf_transform t (ofInt 0) hs hi hds hd dt]
  have hgood : ∀ d ∈ (if t.useIdf = true then ds.map (weighted (ofInt 0) t.idf) else ds), ValidRow t.expectedNFeatures d := by
    split
    · intro d hdm
      obtain ⟨d', hd', rfl⟩ := List.mem_map.1 hdm
      exact validRow_mapKV (g := fun k v => v *ₚ t.idf.getD k.toNat (ofInt 0)) (hd d' hd')
    · exact hd
  have hlen : (if t.useIdf = true then ds.map (weighted (ofInt 0) t.idf) else ds).length = ds.length := by split <;> simp
  generalize (if t.useIdf = true then ds.map (weighted (ofInt 0) t.idf) else ds) = es at hgood hlen
  have hes : es ≠ [] := ne_nil_of_length hlen hds
  cases hnm : t.norm with
  | none => exact ⟨es, _, rfl, hlen, hgood⟩
  | some n =>
    obtain ⟨ds', e1, e2, e3⟩ := normalizePure_sparse_total (dt := dt) hF (n := n) (fun h => hn (by rw [hnm, h])) hes hgood
    exact ⟨ds', .sparse es (some t.expectedNFeatures) dt, by simp only [e1, py_ok_bind, py_pure], by rw [e2, hlen], e3⟩

theorem countRow_valid {v : Dict Str Int} (hv : GoodVocabulary v) (fs : List Str) : ValidRow v.length (countRow v fs : Dict Int F) := by
  refine ⟨?_, fun p hp => ?_⟩
  · have : (Dict.keys (countRow v fs : Dict Int F)).Nodup := by
      rw [countRow, Dict.keys_mapVals]; exact countDoc_nodup v fs
    exact this
  · have hk : p.1 ∈ Dict.keys (countRow v fs : Dict Int F) := List.mem_map.2 ⟨p, hp, rfl⟩
    have hne : (countRow v fs : Dict Int F).get? p.1 ≠ none := by
      rw [Ne, Dict.get?_eq_none_iff]; simpa using hk
    rw [countRow_get?] at hne
    have h0 : codeCount v fs p.1 ≠ 0 := by
      intro h; rw [if_pos h] at hne; exact hne rfl
    obtain ⟨f, hf⟩ := List.exists_mem_of_length_pos (Nat.pos_of_ne_zero h0)
    exact hv _ (Dict.mem_of_get? (by simpa using (List.mem_filter.1 hf).2 : v.get? f = some p.1))

theorem hashRow_valid (encode : Str → List Nat) {n : Nat} (hn : 0 < n) (alt : Bool) (x : List (Str × FeatVal F)) :
    ValidRow n (hashRow encode n alt x : Dict Int F) := by
  unfold hashRow
  suffices ∀ d : Dict Int F, ValidRow n d → ValidRow n (x.foldl (hashStep encode n alt 0) d) from this _ ⟨List.nodup_nil, by simp⟩
  induction x with
  | nil => exact fun d hd => hd
  | cons a x ih =>
    intro d hd
    refine ih _ ?_
    obtain ⟨f, v⟩ := a
    cases v <;> simp only [hashStep] <;> split
    all_goals first
      | exact hd
      | (refine validRow_set hd ?_
         have := fun g => C38_range (murmur (encode g) 0) hn
         exact ⟨Int.natCast_nonneg _, Int.ofNat_lt.2 (this _)⟩)

end

theorem FormedTfidf.total (hF : NoTrap (XR fp)) {t : Tfidf (XR fp)} {w : Nat} (h : FormedTfidf t w) {ds : List (Dict Int (XR fp))}
    (hds : ds ≠ []) (hd : ∀ d ∈ ds, ValidRow w d) (dt : DType) :
    ∃ (ds' : List (Dict Int (XR fp))) (X' : Arr (XR fp)), t.transform (.sparse ds (some w) dt) = .ok (.sparse ds' (some w) dt, X') ∧
      ds'.length = ds.length ∧ ∀ d ∈ ds', ValidRow w d := tfidf_total hF h.1 h.2.1 h.2.2.1 h.2.2.2 hds hd dt

theorem tfidf_calm (hF : NoTrap (XR fp)) {t : Tfidf (XR fp)} {w : Nat} (h : FormedTfidf t w) :
    Unfailing (transformer (Data.onArr fun X => do return (← t.transform X).1)) (.matrix .sparse w) (.form (.matrix .sparse w)) := by
  refine unfailing_of fun X m hX => ?_
  rcases hX.matrix_cases with ⟨R, rfl, hR, hw, rfl, hl⟩ | ⟨ds, dt, rfl, hds, hd, rfl, hl⟩
  · cases hl
  · obtain ⟨ds', X', e1, e2, e3⟩ := FormedTfidf.total hF h hds hd dt
    refine ⟨.sparse ds' (some w) dt, ?_, .sparse hl (ne_nil_of_length e2 hds) e3 e2⟩
    show (t.transform _ >>= fun p => .ok p.1) = _
    rw [e1]; rfl

theorem count_calm (lib : TextLib) {v : CountVectorizer} (hb : v.binary = false) (ho : GoodOpts v.opts)
    (hv : GoodVocabulary v.vocabulary) :
    Unfailing (transformer (Data.onDocs fun ds => v.transform (F := XR fp) lib (some ds))) .docs
      (.form (.matrix .sparse v.vocabulary.length)) := by
  refine unfailing_of fun X m hX => ?_
  obtain ⟨an, han⟩ := buildAnalyzer_ok lib ho
  cases hX with
  | @docs ds _ hds hl =>
    subst hl
    exact ⟨_, C34_transform lib v hb han hds, .sparse rfl (by simpa using hds)
      (fun d hd => by obtain ⟨x, -, rfl⟩ := List.mem_map.1 hd; exact countRow_valid hv _) (by simp)⟩

theorem tfidfVec_calm (hF : NoTrap (XR fp)) (lib : TextLib) {v : CountVectorizer} {t : Tfidf (XR fp)} (hb : v.binary = false)
    (ho : GoodOpts v.opts) (hv : GoodVocabulary v.vocabulary) (ht : FormedTfidf t v.vocabulary.length) :
    Unfailing (transformer (Data.onDocs fun ds => tfidfVectorizerTransform lib v t (some ds))) .docs
      (.form (.matrix .sparse v.vocabulary.length)) := by
  refine unfailing_of fun X m hX => ?_
  obtain ⟨an, han⟩ := buildAnalyzer_ok lib ho
  cases hX with
  | @docs ds _ hds hl =>
    subst hl
    obtain ⟨ds', X', e1, e2, e3⟩ := FormedTfidf.total hF ht (ds := ds.map fun d => (countRow v.vocabulary (an d) : Dict Int (XR fp)))
      (by simpa using hds) (fun d hd => by obtain ⟨x, -, rfl⟩ := List.mem_map.1 hd; exact countRow_valid hv _) v.dtype
    rw [List.length_map] at e2
    refine ⟨.sparse ds' (some v.vocabulary.length) v.dtype, ?_, .sparse rfl (ne_nil_of_length e2 hds) e3 e2⟩
    show tfidfVectorizerTransform lib v t (some ds) = _
    rw [tfidfVectorizerTransform, C34_transform lib v hb han hds]
    simp only [py_ok_bind, e1, py_pure]

theorem hashing_calm (hF : NoTrap (XR fp)) (lib : TextLib) (encode : Str → List Nat) {v : HashingVectorizer} (hb : v.binary = false)
    (ho : GoodOpts v.opts) (h1 : 1 ≤ v.nFeatures) (h2 : v.nFeatures ≤ 2147483647) (hn : v.norm ≠ some .bad) :
    Unfailing (transformer (Data.onDocs fun ds => v.transform (F := XR fp) lib encode (some ds))) .docs
      (.form (.matrix .sparse v.nFeatures.toNat)) := by
  refine unfailing_of fun X m hX => ?_
  obtain ⟨an, han⟩ := buildAnalyzer_ok lib ho
  cases hX with
  | @docs ds _ hds hl =>
    subst hl
    have hpos : 0 < v.nFeatures.toNat := by omega
    have hval := ((C38_validate v.nFeatures).2 v.nFeatures.toNat).2 ⟨h1, h2, rfl⟩
    have hT := (C38_transform (F := XR fp) encode hpos v.dtype v.alternateSign
      (X := ds.map fun d => (an d).map fun f => (f, .num (ofInt 1))) (by simpa using hds)).1
    set es : List (Dict Int (XR fp)) := (ds.map fun d => (an d).map fun f => (f, FeatVal.num (ofInt 1))).map
      (hashRow encode v.nFeatures.toNat v.alternateSign) with hes
    have hg : ∀ d ∈ es, ValidRow v.nFeatures.toNat d := by
      intro d hd
      rw [hes, List.map_map] at hd
      obtain ⟨x, -, rfl⟩ := List.mem_map.1 hd
      exact hashRow_valid encode hpos _ _
    have hne : es ≠ [] := by simpa [hes] using hds
    have hlen : es.length = ds.length := by simp [hes]
    have e : v.transform lib encode (some ds) = (match v.norm with
        | some nm => normalizePure (Arr.sparse es (some v.nFeatures.toNat) v.dtype) nm
        | none => .ok (Arr.sparse es (some v.nFeatures.toNat) v.dtype)) := by
      simp only [HashingVectorizer.transform, han, py_ok_bind, hval, featureHasher_string, hT, hb, Bool.false_eq_true, if_false,
        py_pure]
      cases v.norm <;> rfl
    cases hnm : v.norm with
    | none =>
      rw [hnm] at e
      exact ⟨_, e, .sparse rfl hne hg hlen⟩
    | some nm =>
      rw [hnm] at e
      obtain ⟨ds', e1, e2, e3⟩ := normalizePure_sparse_total (dt := v.dtype) hF (n := nm) (fun h => hn (by rw [hnm, h])) hne hg
      exact ⟨_, e.trans e1, .sparse rfl (ne_nil_of_length e2 hne) e3 (e2.trans hlen)⟩

/-! ### Encoders -/

theorem castTo_total {dt : DType} (h : dt ≠ .int) (x : XR fp) : ∃ y, castTo dt x = .ok y := by
  cases dt with
  | int => exact absurd rfl h
  | float => exact ⟨_, rfl⟩
  | bool => exact ⟨_, rfl⟩

theorem dense_length' {F : Type} (z : F) (w : Nat) (d : Dict Int F) : (dense z w d).length = w := by simp [dense]

theorem layout_total {ds : List (Dict Int (XR fp))} (hne : ds ≠ []) {w : Nat} (h : ∀ d ∈ ds, ValidRow w d) {dt : DType} (hdt : dt ≠ .int)
    (b : Bool) : ∃ A, (if (!b) = true then todense (Arr.sparse ds (some w) dt) else pure (Arr.sparse ds (some w) dt)) = .ok A ∧
      (Posed.matrix (if b then .sparse else .dense) w).Holds (.arr A) ds.length := by
  cases b with
  | true => exact ⟨_, rfl, .sparse rfl hne h rfl⟩
  | false =>
    obtain ⟨z, hz⟩ := castTo_total (fp := fp) hdt (ofInt 0)
    refine ⟨_, todense_sparse hz, .dense rfl (by simpa using hne) (fun r hr => ?_) (by simp)⟩
    obtain ⟨d, -, rfl⟩ := List.mem_map.1 hr
    exact dense_length' _ _ _

theorem dictVec_calm {v : DictVectorizer} (hv : GoodVocabulary v.vocabulary) (hdt : v.dtype ≠ .int) :
    Unfailing (transformer (Data.onRecords (v.transform (F := XR fp)))) .records
      (.form (.matrix (if v.sparse then .sparse else .dense) v.vocabulary.length)) := by
  refine unfailing_of fun X m hX => ?_
  cases hX with
  | @records xs _ hxs hl =>
    subst hl
    obtain ⟨ds, hm, hl, hg⟩ := mapM_all (l := xs) (f := v.row) (Q := ValidRow v.vocabulary.length) fun x hx => by
      clear hx
      unfold DictVectorizer.row
      suffices ∀ s : Dict Int (XR fp), ValidRow v.vocabulary.length s → ∃ y, x.foldlM v.step s = .ok y ∧ ValidRow v.vocabulary.length y from
        this _ ⟨List.nodup_nil, by simp⟩
      induction x with
      | nil => exact fun s hs => ⟨s, rfl, hs⟩
      | cons a x ih =>
        intro s hs
        rw [List.foldlM_cons]
        have : ∃ s', v.step s a = .ok s' ∧ ValidRow v.vocabulary.length s' := by
          rw [dvStep_eq]
          cases hj : v.vocabulary.get? (feature v.separator a).1 with
          | none => exact ⟨_, rfl, hs⟩
          | some j =>
            obtain ⟨y, hy⟩ := castTo_total hdt (feature v.separator a).2
            exact ⟨Dict.set s j y, by simp only [hy, py_ok_bind, py_pure], validRow_set hs (hv _ (Dict.mem_of_get? hj))⟩
        obtain ⟨s', h1, h2⟩ := this
        rw [h1, py_ok_bind]
        exact ih s' h2
    have hds := ne_nil_of_length hl hxs
    obtain ⟨A, h1, h2⟩ := layout_total hds hg hdt v.sparse
    refine ⟨A, ?_, hl ▸ h2⟩
    show v.transform (.many xs) = _
    simp only [DictVectorizer.transform, hm, py_ok_bind, sparseList_dicts hds]
    exact h1

theorem ordinal_calm {e : Encoder Str} (hf : FittedCategories e e.categories.length) (hdt : e.dtype ≠ .int) :
    Unfailing (transformer (Data.onTable fun X => do return .ofMat (← e.ordinal X)) : Methods (XR fp)) (.table e.categories)
      (.form (.matrix .dense e.categories.length)) := by
  refine unfailing_of fun X m hX => ?_
  cases hX with
  | @table xs _ _ hxs hk hl =>
    subst hl
    have hR : Rect e.categories.length xs := fun x hx => (hk x hx).1
    have ho := (C29_ordinal (F := XR fp) e _ hf xs hxs hR fun x hx => (hk x hx).2).1
    obtain ⟨M, h1, h2, h3⟩ := mapM_all (l := xs.map fun x => (codes e.categories x).map fun (k : Nat) => (ofInt k : XR fp))
      (f := fun r => r.mapM (castTo e.dtype)) (Q := fun r : List (XR fp) => r.length = e.categories.length) fun r hr => by
        obtain ⟨x, hx, rfl⟩ := List.mem_map.1 hr
        obtain ⟨y, hy⟩ := mapM_total (l := (codes e.categories x).map fun (k : Nat) => (ofInt k : XR fp)) fun a _ => castTo_total hdt a
        exact ⟨y, hy, by rw [mapM_length hy]; simp [codes, hR x hx]⟩
    rw [List.length_map] at h2
    refine ⟨.ofMat M, ?_, .dense rfl (ne_nil_of_length h2 hxs) h3 h2⟩
    show (e.ordinal (.ofMat xs) >>= fun M => .ok (Arr.ofMat M)) = _
    rw [ho, h1]
    rfl

theorem codeItems_keys {C : Type} [DecidableEq C] [Inhabited C] {F : Type} {cats : List (List C)} {x : List C} (hl : cats.length = x.length)
    (hne : ∀ c ∈ cats, c ≠ []) (one : F) : ∀ p ∈ codeItems one cats x, 0 ≤ p.1 ∧ p.1 < (totalCats cats : Nat) := by
  intro p hp
  have := codeItems_range hl hne (XR.fin (fp := FP.exact) 0) (p.1, XR.fin 0) ?_
  · exact this.1
  · unfold codeItems at hp ⊢
    obtain ⟨i, hi, h⟩ := List.mem_filterMap.1 hp
    refine List.mem_filterMap.2 ⟨i, hi, ?_⟩
    split at h
    · rename_i hm
      rw [if_pos hm]
      cases h
      rfl
    · cases h

theorem oneHot_calm {e : Encoder Str} (hf : FittedCategories e e.categories.length) (hdt : e.dtype ≠ .int) :
    Unfailing (transformer (Data.onTable e.oneHot) : Methods (XR fp)) (.table e.categories)
      (.form (.matrix (if e.sparse then .sparse else .dense) (e.categories.map List.length).sum)) := by
  refine unfailing_of fun X m hX => ?_
  cases hX with
  | @table xs _ _ hxs hk hl =>
    subst hl
    have hR : Rect e.categories.length xs := fun x hx => (hk x hx).1
    obtain ⟨one, h1⟩ := castTo_total (fp := fp) hdt (ofInt 1)
    have ho := oneHot_code (F := XR fp) e _ hf xs hxs hR (fun _ x hx => (hk x hx).2) one h1
    obtain ⟨A, g1, g2⟩ := layout_total (ds := xs.map fun x => Dict.ofList (codeItems one e.categories x)) (by simpa using hxs)
      (w := totalCats e.categories) (fun r hr => by
        obtain ⟨x, hx, rfl⟩ := List.mem_map.1 hr
        exact validRow_ofList _ (codeItems_keys (hR x hx).symm (fun c hc => (hf.2 c hc).2) one)) hdt e.sparse
    refine ⟨A, ho.trans g1, ?_⟩
    rw [List.length_map] at g2
    exact g2

/-! ### Imputation -/

theorem imputer_calm {s : SimpleImputer (XR fp)} (h : s.statistics ≠ []) (ha : s.addIndicator = false) :
    Unfailing (transformer (Data.onArr s.transform)) (.matrix .dense s.statistics.length) (.form (.matrix .dense (keptColumns s))) := by
  refine unfailing_of fun X n hX => ?_
  rcases hX.matrix_cases with ⟨M, rfl, hM, hw, rfl, hl⟩ | ⟨ds, dt, rfl, hds, hd, rfl, hl⟩
  · refine ⟨_, C30_transform s (ofInt 0) hM hw h ha, .dense rfl (by simpa using hM) (fun r hr => ?_) (by simp)⟩
    obtain ⟨x, hx, rfl⟩ := List.mem_map.1 hr
    exact s.out_length _ _
  · cases hl

theorem imputerFlags_calm {s : SimpleImputer (XR fp)} {i : MissingIndicator (XR fp)} (h : s.statistics ≠ []) (ha : s.addIndicator = true)
    (hi : s.indicator = some i) (he : i.errorOnNew = false) (hn : i.nFeatures = s.statistics.length) (hf : FittedFlags i) :
    Unfailing (transformer (Data.onArr s.transform)) (.matrix .dense s.statistics.length)
      (.form (.matrix .dense (keptColumns s + flagColumns i))) := by
  refine unfailing_of fun X n hX => ?_
  rcases hX.matrix_cases with ⟨M, rfl, hM, hw, rfl, hl⟩ | ⟨ds, dt, rfl, hds, hd, rfl, hl⟩
  · refine ⟨_, C30_indicator s (ofInt 0) hM hw h ha hi he hn hf.1 hf.2, .dense rfl (by simpa using hM) (fun r hr => ?_) (by simp)⟩
    obtain ⟨x, hx, rfl⟩ := List.mem_map.1 hr
    rw [List.length_append, s.out_length, i.out_length hf]
  · cases hl

theorem indicator_calm {m : MissingIndicator (XR fp)} (hf : FittedFlags m) (he : m.errorOnNew = false ∨ m.missingOnly = false) :
    Unfailing (transformer (Data.onArr fun X => do return .ofMat (← m.transform X))) (.matrix .dense m.nFeatures)
      (.form (.matrix .dense (flagColumns m))) := by
  refine unfailing_of fun X n hX => ?_
  rcases hX.matrix_cases with ⟨M, rfl, hM, hw, rfl, hl⟩ | ⟨ds, dt, rfl, hds, hd, rfl, hl⟩
  · refine ⟨.ofMat (M.map (m.out (ofInt 0))), ?_, .dense rfl (by simpa using hM) (fun r hr => ?_) (by simp)⟩
    · show (m.transform (.ofMat M) >>= fun M => .ok (Arr.ofMat M)) = _
      rw [C31_total_partial m (ofInt 0) hM hw hf.1 hf.2 he]
      rfl
    · obtain ⟨x, hx, rfl⟩ := List.mem_map.1 hr
      exact m.out_length hf _ _
  · cases hl

/-- Every transformer whose parameters have the right sizes answers. -/
theorem calmStep_unfailing (hF : NoTrap (XR fp)) (lib : String → TextLib) (encode : Str → List Nat) {s : Single (XR fp)} {A B : Posed}
    (h : CalmStep s A B) : Unfailing (s.est lib encode) A (.form B) := by
  cases h with
  | standard h1 h2 h3 => exact standard_calm h1 h2 h3
  | minMax h1 h2 h3 h4 => exact minMax_calm h1 h2 h3 h4
  | maxAbs h => exact maxAbs_calm h
  | normalizer h1 h2 => exact normalizer_calm hF h1 h2
  | tfidf h => exact tfidf_calm hF h
  | imputer h1 h2 => exact imputer_calm h1 h2
  | imputerFlags h1 h2 h3 h4 h5 h6 => exact imputerFlags_calm h1 h2 h3 h4 h5 h6
  | indicator h1 h2 => exact indicator_calm h1 h2
  | count h1 h2 h3 => exact count_calm _ h1 h2 h3
  | tfidfVec h1 h2 h3 h4 => exact tfidfVec_calm hF _ h1 h2 h3 h4
  | hashing h1 h2 h3 h4 h5 => exact hashing_calm hF _ _ h1 h2 h3 h4 h5
  | dictVec h1 h2 => exact dictVec_calm h1 h2
  | ordinal h1 h2 => exact ordinal_calm h1 h2
  | oneHot h1 h2 => exact oneHot_calm h1 h2

end PurePredict
