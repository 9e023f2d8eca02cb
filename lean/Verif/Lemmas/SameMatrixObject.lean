import Verif.Lemmas.SameMatrix
import Verif.Lemmas.ObjectBatch
import Verif.Props.C28
import Verif.Props.C40
/-
Vectorizers, encoders, unions, ensembles and pipelines on dense and sparse presentations of one matrix.
-/
namespace PurePredict
open Spec
variable {fp : FP} {g : Regime}

theorem rel_left {α β : Type} {R : α → β → Prop} {l : List α} {l' : List β} (h : List.Forall₂ R l l') :
    ∀ a ∈ l, ∃ b ∈ l', R a b := by
  induction h with
  | nil => simp
  | cons h _ ih =>
    intro a ha
    rcases List.mem_cons.1 ha with rfl | ha
    · exact ⟨_, by simp, h⟩
    · obtain ⟨b, hb, hr⟩ := ih a ha
      exact ⟨b, by simp [hb], hr⟩

theorem rel_right {α β : Type} {R : α → β → Prop} {l : List α} {l' : List β} (h : List.Forall₂ R l l') :
    ∀ b ∈ l', ∃ a ∈ l, R a b := rel_left h.flip

/-! ### Rows built as dicts -/

theorem dict_mem_set {α : Type} {d : Dict Int α} {k : Int} {v : α} {p : Int × α} (h : p ∈ d.set k v) : p ∈ d ∨ p = (k, v) := by
  induction d with
  | nil => exact .inr (by simpa [Dict.set] using h)
  | cons q d ih =>
    obtain ⟨k', v'⟩ := q
    simp only [Dict.set] at h
    by_cases e : (k' == k) = true
    · rw [if_pos e] at h
      rcases List.mem_cons.1 h with rfl | h
      · exact .inr (by simp [show k' = k by simpa using e])
      · exact .inl (by simp [h])
    · rw [if_neg e] at h
      rcases List.mem_cons.1 h with rfl | h
      · exact .inl (by simp)
      · rcases ih h with h | h
        · exact .inl (by simp [h])
        · exact .inr h

/-- Rows of finite numbers with columns below the width, in exact arithmetic. -/
def GoodRow (w : Nat) (d : Dict Int Ex) : Prop := ValidRow w d ∧ ∀ kv ∈ d, ∃ r, kv.2 = XR.fin r

theorem GoodRow.nil (w : Nat) : GoodRow w [] := ⟨⟨by simp, by simp⟩, by simp⟩

theorem GoodRow.set {w : Nat} {d : Dict Int Ex} (h : GoodRow w d) {k : Int} {v : Ex} (hk : 0 ≤ k ∧ k < w)
    (hv : ∃ r, v = XR.fin r) : GoodRow w (d.set k v) := by
  refine ⟨⟨Dict.nodup_keys_set h.1.1, fun p hp => ?_⟩, fun p hp => ?_⟩
  · rcases dict_mem_set hp with hp | rfl
    · exact h.1.2 p hp
    · exact hk
  · rcases dict_mem_set hp with hp | rfl
    · exact h.2 p hp
    · exact hv

theorem GoodRow.ofList {w : Nat} (l : List (Int × Ex)) (h : ∀ p ∈ l, (0 ≤ p.1 ∧ p.1 < w) ∧ ∃ r, p.2 = XR.fin r) :
    GoodRow w (Dict.ofList l) := by
  unfold Dict.ofList
  suffices ∀ d, GoodRow w d → GoodRow w (l.foldl (fun d p => Dict.set d p.1 p.2) d) from this _ (.nil w)
  induction l with
  | nil => exact fun d hd => hd
  | cons p l ih =>
    intro d hd
    exact ih (fun q hq => h q (by simp [hq])) _ (hd.set (h p (by simp)).1 (h p (by simp)).2)

theorem GoodRow.shows {ds : List (Dict Int Ex)} (hne : ds ≠ []) {w : Nat} (h : ∀ d ∈ ds, GoodRow w d) (dt : DType) :
    Shows .exact (.sparse ds (some w) dt) w (ds.map (dense (.fin 0) w)) :=
  .sparse hne fun d hd => ⟨(h d hd).1, trivial, (h d hd).2⟩

/-- Sparse rows, made dense or not: the same matrix. -/
theorem shows_option {ds : List (Dict Int Ex)} (hne : ds ≠ []) {w : Nat} (h : ∀ d ∈ ds, GoodRow w d) (dt : DType) (b : Bool) :
    ∃ A, (if !b then todense (.sparse ds (some w) dt) else pure (.sparse ds (some w) dt)) = .ok A ∧
      Shows .exact A w (ds.map (dense (.fin 0) w)) := by
  cases b with
  | true => exact ⟨_, rfl, GoodRow.shows hne h dt⟩
  | false =>
    obtain ⟨h1, h2⟩ := dense_of_todense (GoodRow.shows hne h dt)
    exact ⟨_, h1, h2⟩

/-- Two results: the same error, or two presentations of one matrix of width `w` with `n` rows. -/
def Twin (g : Regime) (w n : Nat) : Py (Arr (XR fp)) → Py (Arr (XR fp)) → Prop :=
  Meet fun A B => ∃ M, Shows g A w M ∧ Shows g B w M ∧ M.length = n

theorem DictVectorizer.row_good {d : DictVectorizer} (hv : GoodVocabulary d.vocabulary) {x : Dict Str (FeatVal Ex)}
    (hx : ∀ kv ∈ x, ∀ v, kv.2 = .num v → ∃ r, v = XR.fin r) {r : Dict Int Ex} (h : d.row x = .ok r) :
    GoodRow d.vocabulary.length r := by
  unfold DictVectorizer.row at h
  suffices ∀ s, GoodRow d.vocabulary.length s → x.foldlM d.step s = .ok r → GoodRow d.vocabulary.length r from
    this _ (.nil _) h
  clear h
  induction x with
  | nil => intro s hs h; cases h; exact hs
  | cons a x ih =>
    intro s hs h
    rw [List.foldlM_cons] at h
    obtain ⟨s', h1, h2⟩ := bind_ok_iff.1 h
    refine ih (fun kv hkv => hx kv (by simp [hkv])) s' ?_ h2
    rw [dvStep_eq] at h1
    cases hg : d.vocabulary.get? (feature d.separator a).1 with
    | none => rw [hg] at h1; cases h1; exact hs
    | some j =>
      rw [hg] at h1
      obtain ⟨y, hy, h1⟩ := bind_ok_iff.1 h1
      cases h1
      refine hs.set (hv _ (Dict.mem_of_get? hg)) (castTo_fin ?_ hy)
      obtain ⟨f, v | s⟩ := a
      · exact hx _ List.mem_cons_self v rfl
      · exact ⟨_, XR.ofInt_exact 1⟩

theorem DictVectorizer.twin {d : DictVectorizer} (b : Bool) (hv : GoodVocabulary d.vocabulary)
    {xs : List (Dict Str (FeatVal Ex))} (hne : xs ≠ []) (hx : ∀ x ∈ xs, ∀ kv ∈ x, ∀ v, kv.2 = .num v → ∃ r, v = XR.fin r) :
    Twin .exact d.vocabulary.length xs.length (d.transform (.many xs)) (({ d with sparse := b } : DictVectorizer).transform (.many xs)) := by
  unfold DictVectorizer.transform
  simp only
  have hrow : ({ d with sparse := b } : DictVectorizer).row = (d.row : Dict Str (FeatVal Ex) → _) := rfl
  rw [hrow]
  cases hm : xs.mapM d.row with
  | error e => exact rfl
  | ok ds =>
    have hl := mapM_length hm
    have hds : ds ≠ [] := by
      rintro rfl
      exact hne (List.length_eq_zero_iff.1 (by simpa using hl.symm))
    have hg : ∀ r ∈ ds, GoodRow d.vocabulary.length r := by
      intro r hr
      obtain ⟨x, hxm, h⟩ := rel_right (mapM_ok_iff.1 hm) r hr
      exact row_good hv (hx x hxm) h
    simp only [py_ok_bind]
    rw [sparseList_dicts hds]
    simp only [py_ok_bind]
    obtain ⟨A, h1, h2⟩ := shows_option hds hg d.dtype d.sparse
    obtain ⟨B, h3, h4⟩ := shows_option hds hg d.dtype b
    simp only [py_pure] at h1 h3 ⊢
    rw [h1, h3]
    exact ⟨_, h2, h4, by simpa using hl⟩

theorem codeItems_range {C : Type} [DecidableEq C] [Inhabited C] {cats : List (List C)} {x : List C} (hl : cats.length = x.length) (hne : ∀ c ∈ cats, c ≠ [])
    (one : Ex) : ∀ p ∈ codeItems one cats x, (0 ≤ p.1 ∧ p.1 < (totalCats cats : Nat)) ∧ p.2 = one := by
  intro p hp
  unfold codeItems at hp
  obtain ⟨i, hi, h⟩ := List.mem_filterMap.1 hp
  have hi := List.mem_range.1 hi
  split at h
  · rename_i hm
    cases h
    refine ⟨⟨by positivity, ?_⟩, rfl⟩
    have hi' : i < cats.length := by omega
    have hc : codeOf (cats.getD i []) (x.getD i default) < (cats.getD i []).length := by
      unfold codeOf
      rw [if_pos hm]
      exact List.idxOf_lt_length_of_mem hm
    have hsum : codeOffset cats i + (cats.getD i []).length ≤ totalCats cats := by
      clear hm hc hp hl hi
      unfold codeOffset totalCats
      cases i with
      | zero =>
        cases cats with
        | nil => simp at hi'
        | cons c cats => simp
      | succ i =>
        clear hne
        clear * - hi'
        induction cats generalizing i with
        | nil => simp at hi'
        | cons c cats ih =>
          cases i with
          | zero =>
            cases cats with
            | nil => simp at hi'
            | cons c' cats => simp
          | succ i =>
            have := ih i (by simpa using hi')
            simp only [List.map_cons, List.getD_cons_succ, List.sum_cons] at this ⊢
            omega
    show ((codeOffset cats i + codeOf (cats.getD i []) (x.getD i default) : Nat) : Int) < _
    exact_mod_cast by omega
  · cases h

theorem Encoder.oneHot_twin {d : Encoder Str} (b : Bool) {w : Nat} (hf : FittedCategories d w) {xs : List (List Str)}
    (hne : xs ≠ []) (hw : ∀ x ∈ xs, x.length = w) :
    Twin .exact (d.categories.map List.length).sum xs.length (d.oneHot (.ofMat xs) : Py (Arr Ex))
      (({ d with sparse := b } : Encoder Str).oneHot (.ofMat xs)) := by
  by_cases hk : d.handleUnknownError = true → ∀ x ∈ xs, Known d.categories x
  · obtain ⟨one, h1⟩ : ∃ one, castTo d.dtype (ofInt 1 : Ex) = .ok one := by
      cases d.dtype with
      | int =>
        rw [XR.ofInt_exact]
        exact ⟨_, rfl⟩
      | float => exact ⟨_, rfl⟩
      | bool => exact ⟨_, rfl⟩
    have hone : ∃ r, one = XR.fin r := castTo_fin ⟨_, XR.ofInt_exact 1⟩ h1
    have key : ∀ b : Bool, ∃ A, ({ d with sparse := b } : Encoder Str).oneHot (.ofMat xs) = .ok A ∧
        Shows .exact A (totalCats d.categories)
          ((xs.map fun x => Dict.ofList (codeItems one d.categories x)).map (dense (.fin 0) (totalCats d.categories))) := by
      intro b
      rw [oneHot_code ({ d with sparse := b } : Encoder Str) w hf xs hne hw hk one h1]
      refine shows_option (by simpa using hne) ?_ d.dtype b
      intro r hr
      obtain ⟨x, hx, rfl⟩ := List.mem_map.1 hr
      refine GoodRow.ofList _ fun p hp => ?_
      obtain ⟨h2, h3⟩ := codeItems_range (by rw [hf.1, hw x hx]) (fun c hc => (hf.2 c hc).2) one p hp
      exact ⟨h2, h3 ▸ hone⟩
    obtain ⟨A, h2, h3⟩ := key d.sparse
    obtain ⟨B, h4, h5⟩ := key b
    rw [show ({ d with sparse := d.sparse } : Encoder Str) = d from rfl] at h2
    rw [h2, h4]
    exact ⟨_, h3, h5, by simp⟩
  · push Not at hk
    rw [C28_unknown_error d w hf hk.1 xs hw hk.2, C28_unknown_error ({ d with sparse := b } : Encoder Str) w hf hk.1 xs hw hk.2]
    exact rfl

theorem Encoder.ordinal_twin (hg : g.Holds fp) {d : Encoder Str} {w : Nat} (hf : FittedCategories d w) {xs : List (List Str)}
    (hne : xs ≠ []) (hw : ∀ x ∈ xs, x.length = w) :
    Twin g w xs.length ((do return .ofMat (← d.ordinal (.ofMat xs))) : Py (Arr (XR fp))) (do return .ofMat (← d.ordinal (.ofMat xs))) := by
  cases hr : (d.ordinal (.ofMat xs) : Py (List (List (XR fp)))) with
  | error e => exact rfl
  | ok M =>
    by_cases hk : ∀ x ∈ xs, Known d.categories x
    · rw [(C29_ordinal (F := XR fp) d w hf xs hne hw hk).1] at hr
      have hF := mapM_ok_iff.1 hr
      have hlen : M.length = xs.length := by simpa using hF.length_eq.symm
      have hsh : Shows g (.ofMat M) w M := by
        refine .dense ?_ fun r hm => ?_
        · rintro rfl
          exact hne (List.length_eq_zero_iff.1 (by simpa using hlen.symm))
        · obtain ⟨q, hq, h⟩ := rel_right hF r hm
          obtain ⟨x, hx, rfl⟩ := List.mem_map.1 hq
          have hG := mapM_ok_iff.1 h
          refine ⟨?_, fun y hy => ?_⟩
          · have := hG.length_eq
            simp [codes, hf.1, hw x hx] at this
            exact this.symm
          · cases g with
            | rounded => trivial
            | exact =>
              obtain rfl : fp = FP.exact := hg
              obtain ⟨z, hz, h⟩ := rel_right hG y hy
              obtain ⟨k, -, rfl⟩ := List.mem_map.1 hz
              exact castTo_fin ⟨_, XR.ofInt_exact _⟩ h
      exact ⟨M, hsh, hsh, hlen⟩
    · push Not at hk
      rw [C29_unknown d w hf xs hw hk] at hr
      cases hr

/-! ### Unions -/

theorem sparsePairs_sorted (r : List (XR fp)) (w : Nat) : ((sparsePairs r w).map Prod.fst).Pairwise (· < ·) := by
  refine List.Pairwise.sublist (sparsePairs_keys_sublist r w) ?_
  rw [List.pairwise_map]
  exact List.pairwise_lt_range.imp fun h => by exact_mod_cast h

/-- What `Shows` says of the sparse rows. -/
def RowOk (g : Regime) (w : Nat) (d : Dict Int (XR fp)) : Prop := ValidRow w d ∧ g.Order d ∧ ∀ kv ∈ d, g.Entry kv.2

theorem shows_block (hg : g.Holds fp) {A : Arr (XR fp)} {w : Nat} {M : List (List (XR fp))} (h : Shows g A w M) (hw : 0 < w) :
    ∃ ds, toBlock A = .ok (ds, w) ∧ (∀ d ∈ ds, RowOk g w d) ∧ ds.map (dense (.fin 0) w) = M := by
  cases h with
  | sparse h1 h2 => exact ⟨_, rfl, h2, rfl⟩
  | dense h1 h2 =>
    obtain ⟨x, hx⟩ : ∃ x, pyGet (M.headD []) 0 = .ok x := by
      cases M with
      | nil => exact absurd rfl h1
      | cons r M =>
        have : 0 < r.length := by rw [(h2 r (by simp)).1]; exact hw
        exact ⟨_, pyGet_lt this⟩
    refine ⟨M.map fun r => sparsePairs r w, ?_, ?_, ?_⟩
    · simp only [toBlock, issparse_ofMat, Bool.false_eq_true, if_false]
      rw [tosparse_ofMat h1 (fun r hr => (h2 r hr).1) hx]
      rfl
    · intro d hd
      obtain ⟨r, hr, rfl⟩ := List.mem_map.1 hd
      refine ⟨sparsePairs_valid r w, ?_, fun kv hkv => ?_⟩
      · cases g with
        | exact => trivial
        | rounded => exact sparsePairs_sorted r w
      · obtain ⟨i, -, -, h, -⟩ := mem_sparsePairs.1 hkv
        exact (h2 r hr).2 _ (List.mem_of_getElem? h)
    · rw [List.map_map]
      conv_rhs => rw [← List.map_id M]
      apply List.map_congr_left
      intro r hr
      have := dense_sparsePairs r (.fin 0)
      rw [(h2 r hr).1] at this
      simp only [Function.comp, this, id]
      conv_rhs => rw [← List.map_id r]
      apply List.map_congr_left
      intro v _
      split
      · rename_i h
        exact (XR.eq_zero_of_eqp hg.sound h).symm
      · rfl

theorem concatFrom_ok (l : List (Dict Int (XR fp) × Nat)) (hl : ∀ p ∈ l, RowOk g p.2 p.1) (s : Nat) :
    g.Order (concatFrom s l) ∧ ∀ kv ∈ concatFrom s l, g.Entry kv.2 := by
  constructor
  · cases g with
    | exact => trivial
    | rounded =>
      induction l generalizing s with
      | nil => exact List.Pairwise.nil
      | cons q rest ih =>
        obtain ⟨d, w⟩ := q
        obtain ⟨h1, h2, -⟩ := hl (d, w) (by simp)
        have hr := fun p hp => hl p (List.mem_cons_of_mem (d, w) hp)
        have hv := (concatFrom_valid rest (fun p hp => (hr p hp).1) (s + w)).2
        show List.Pairwise _ _
        rw [concatFrom, List.map_append, List.pairwise_append]
        refine ⟨?_, ih (s + w) hr, ?_⟩
        · rw [shift_keys, List.pairwise_map]
          refine List.Pairwise.imp ?_ h2
          intro a b h
          omega
        · intro a ha b hb
          obtain ⟨p, hp, rfl⟩ := List.mem_map.1 ha
          obtain ⟨q, hq, rfl⟩ := List.mem_map.1 hp
          obtain ⟨p', hp', rfl⟩ := List.mem_map.1 hb
          have e1 := (hv p' hp').1
          have e2 := (h1.2 q hq).2
          push_cast at e1
          simp only
          omega
  · induction l generalizing s with
    | nil => intro kv h; cases h
    | cons q rest ih =>
      obtain ⟨d, w⟩ := q
      intro kv h
      rw [concatFrom, List.mem_append] at h
      rcases h with h | h
      · obtain ⟨p, hp, rfl⟩ := List.mem_map.1 h
        exact (hl (d, w) (by simp)).2.2 p hp
      · exact ih (fun p hp => hl p (by simp [hp])) _ _ h

theorem hrow_length {bs : List (Nat × List (List (XR fp)))} {n i : Nat} (hi : i < n)
    (h : ∀ b ∈ bs, b.2.length = n ∧ Rect b.1 b.2) : (hrow (bs.map Prod.snd) i).length = (bs.map Prod.fst).sum := by
  induction bs with
  | nil => rfl
  | cons b bs ih =>
    have hi' : i < b.2.length := by rw [(h b (by simp)).1]; exact hi
    have := ih fun c hc => h c (by simp [hc])
    simp only [hrow, List.map_cons, List.flatten_cons, List.length_append, List.sum_cons] at this ⊢
    rw [this, List.getElem?_eq_getElem hi', Option.getD_some, (h b (by simp)).2 _ (List.getElem_mem hi')]

/-- The union of presented matrices presents their concatenation. -/
theorem unionOf_shows (hg : g.Holds fp) {n : Nat} (hn : 0 < n) (sh : Py Shape) {Xs : List (Arr (XR fp))}
    {bs : List (Nat × List (List (XR fp)))} (hne : bs ≠ [])
    (hF : List.Forall₂ (fun A b => Shows g A b.1 b.2 ∧ b.2.length = n ∧ 0 < b.1) Xs bs) :
    ∃ R, unionOf (.ok n) sh Xs = .ok R ∧
      Shows g R (bs.map Prod.fst).sum ((List.range n).map fun i => hrow (bs.map Prod.snd) i) := by
  have hXne : Xs ≠ [] := by
    rintro rfl
    cases hF
    exact hne rfl
  have hb : ∀ b ∈ bs, b.2.length = n ∧ Rect b.1 b.2 := by
    intro b hb
    obtain ⟨A, -, h⟩ := rel_right hF b hb
    exact ⟨h.2.1, h.1.rect.2⟩
  unfold unionOf
  rw [if_neg (by simpa using hXne)]
  cases hsp : Xs.any Arr.issparse with
  | false =>
    have hden : Xs.mapM Arr.rows = .ok ((bs.map Prod.snd).map fun M => M.map Row.list) := by
      clear hXne hne hb
      induction hF with
      | nil => rfl
      | @cons A b Xs bs h _ ih =>
        rw [List.any_cons, Bool.or_eq_false_iff] at hsp
        have hA : A.rows = .ok (b.2.map Row.list) := by
          have h3 := h.1
          have h4 := hsp.1
          generalize b.2 = M at h3
          cases h3 with
          | dense => rfl
          | sparse => exact absurd h4 (by simp [Arr.issparse])
        rw [mapM_cons', hA, ih hsp.2]
        rfl
    simp only [Bool.false_eq_true, if_false, hden, py_ok_bind]
    have hrows : (List.range n).mapM (fun (i : Nat) =>
        unionDenseRow ((bs.map Prod.snd).map fun M => M.map Row.list) i) =
        .ok ((List.range n).map fun (i : Nat) => hrow (bs.map Prod.snd) i) := by
      apply range_mapM
      intro i hi
      have h1 : ((bs.map Prod.snd).map fun M => M.map (Row.list (F := XR fp))).mapM
          (fun X => pyGet X (i : Int)) =
          .ok (bs.map fun b => Row.list ((b.2[i]?).getD [])) := by
        rw [List.map_map, mapM_map']
        apply mapM_ok_map
        intro b hm
        have : i < b.2.length := by rw [(hb b hm).1]; exact hi
        simp only [Function.comp]
        rw [pyGet_lt (by simpa using this), List.getElem?_eq_getElem this]
        simp
      unfold unionDenseRow
      rw [h1]
      simp only [py_ok_bind]
      match bs, hne with
      | [b], _ => simp [Row.iter, hrow]
      | b :: b' :: bs', _ =>
        simp only [List.map_cons]
        have h2 : (Row.list ((b.2[i]?).getD []) :: Row.list ((b'.2[i]?).getD []) ::
            bs'.map fun b => Row.list ((b.2[i]?).getD [])).mapM Row.asList =
            .ok ((b :: b' :: bs').map fun b => (b.2[i]?).getD []) := by
          rw [show (Row.list ((b.2[i]?).getD []) :: Row.list ((b'.2[i]?).getD []) ::
            bs'.map fun b => Row.list ((b.2[i]?).getD [])) =
            (b :: b' :: bs').map fun b => Row.list ((b.2[i]?).getD []) from rfl, mapM_map']
          exact mapM_ok_map fun _ _ => rfl
        rw [h2]
        simp [hrow, List.map_map, Function.comp_def]
    rw [hrows]
    simp only [py_ok_bind, py_pure]
    refine ⟨_, rfl, .dense ?_ ?_⟩
    · intro h
      have := congrArg List.length h
      simp at this
      omega
    · intro r hr
      obtain ⟨i, hi, rfl⟩ := List.mem_map.1 hr
      have hi : i < n := by simpa using hi
      refine ⟨hrow_length hi hb, fun x hx => ?_⟩
      unfold hrow at hx
      obtain ⟨l, hl, hx⟩ := List.mem_flatten.1 hx
      obtain ⟨M, hM, rfl⟩ := List.mem_map.1 hl
      obtain ⟨b, hbm, rfl⟩ := List.mem_map.1 hM
      obtain ⟨A, -, h⟩ := rel_right hF b hbm
      cases hq : b.2[i]? with
      | none => rw [hq] at hx; cases hx
      | some r =>
        rw [hq] at hx
        exact h.1.entries r (List.mem_of_getElem? hq) x hx
  | true =>
    have hblk : ∃ blocks, Xs.mapM toBlock = .ok blocks ∧
        List.Forall₂ (fun B b => B.2 = b.1 ∧ B.1.length = n ∧ (∀ d ∈ B.1, RowOk g B.2 d) ∧
          B.1.map (dense (.fin 0) B.2) = b.2) blocks bs := by
      clear hXne hne hsp hb
      induction hF with
      | nil => exact ⟨[], rfl, .nil⟩
      | @cons A b Xs bs h _ ih =>
        obtain ⟨blocks, h1, h2⟩ := ih
        obtain ⟨ds, h3, h4, h5⟩ := shows_block hg h.1 h.2.2
        refine ⟨(ds, b.1) :: blocks, by rw [mapM_cons', h3, h1]; rfl, .cons ⟨rfl, ?_, h4, h5⟩ h2⟩
        have := congrArg List.length h5
        rw [List.length_map] at this
        simp only [this, h.2.1]
    obtain ⟨blocks, hb1, hb2⟩ := hblk
    simp only [if_true, hb1, py_ok_bind]
    have hval : ∀ B ∈ blocks, B.1.length = n ∧ ∀ d ∈ B.1, RowOk g B.2 d := by
      intro B hB
      obtain ⟨b, -, h⟩ := rel_left hb2 B hB
      exact ⟨h.2.1, h.2.2.1⟩
    have hsizes : blocks.map (·.2) = bs.map Prod.fst := by
      clear hval hb1 hXne hne hsp hF hb
      induction hb2 with
      | nil => rfl
      | cons h _ ih => rw [List.map_cons, List.map_cons, ih, h.1]
    have hrows : (List.range n).mapM (fun (i : Nat) =>
        unionRow blocks (0 :: accumu (blocks.map (·.2))) i) =
        .ok ((List.range n).map fun (i : Nat) => concatFrom 0 (blocks.map fun B => ((B.1[i]?).getD [], B.2))) := by
      apply range_mapM
      intro i hi
      exact unionRow_ok i blocks fun B hB => ⟨by rw [(hval B hB).1]; exact hi, fun d hd => ((hval B hB).2 d hd).1⟩
    rw [hrows]
    simp only [py_ok_bind]
    rw [sparseList_dicts (by simpa using Nat.pos_iff_ne_zero.1 hn)]
    have hpart : ∀ i < n, ∀ p ∈ blocks.map (fun B => ((B.1[i]?).getD [], B.2)), RowOk g p.2 p.1 := by
      intro i hi p hp
      obtain ⟨B, hB, rfl⟩ := List.mem_map.1 hp
      have hi' : i < B.1.length := by rw [(hval B hB).1]; exact hi
      rw [List.getElem?_eq_getElem hi']
      exact (hval B hB).2 _ (List.getElem_mem hi')
    have hsnd : ∀ i : Nat, (blocks.map fun B => ((B.1[i]?).getD [], B.2)).map Prod.snd = blocks.map (·.2) := by
      intro i; simp [List.map_map, Function.comp_def]
    refine ⟨_, rfl, ?_⟩
    rw [hsizes]
    have hD := Shows.sparse (g := g) (dt := .float) (w := (bs.map Prod.fst).sum)
      (ds := (List.range n).map fun (i : Nat) => concatFrom 0 (blocks.map fun B => ((B.1[i]?).getD [], B.2)))
      (by simpa using Nat.pos_iff_ne_zero.1 hn) (by
        intro d hd
        obtain ⟨i, hi, rfl⟩ := List.mem_map.1 hd
        have hi : i < n := by simpa using hi
        obtain ⟨h1, h2⟩ := concatFrom_valid _ (fun p hp => (hpart i hi p hp).1) 0
        refine ⟨⟨h1, fun p hp => ?_⟩, concatFrom_ok _ (hpart i hi) 0⟩
        have := h2 p hp
        rw [hsnd, hsizes] at this
        simpa using this)
    rw [List.map_map] at hD
    have heq : (List.range n).map (hrow (bs.map Prod.snd)) =
        (List.range n).map (dense (.fin 0) (bs.map Prod.fst).sum ∘ fun (i : Nat) =>
          concatFrom 0 (blocks.map fun B => ((B.1[i]?).getD [], B.2))) := by
      apply List.map_congr_left
      intro i hi
      have hi : i < n := by simpa using hi
      have := concatFrom_dense (.fin 0 : XR fp) _ (fun p hp => (hpart i hi p hp).1) 0
      rw [hsnd, hsizes] at this
      simp only [Nat.zero_add] at this
      simp only [Function.comp, dense]
      rw [this, hrow, List.map_map, List.map_map]
      congr 1
      clear this hpart hD hrows hsizes hb1 hsnd hb
      have hval' := hval
      clear hval hXne hne hsp hF
      induction hb2 with
      | nil => rfl
      | @cons B b blocks bs h _ ih =>
        rw [List.map_cons, List.map_cons, ih (fun B hB => hval' B (by simp [hB]))]
        congr 1
        simp only [Function.comp]
        have hi' : i < B.1.length := by rw [h.2.1]; exact hi
        rw [← h.2.2.2, List.getElem?_map, List.getElem?_eq_getElem hi']
        rfl
    rw [heq]
    exact hD

end PurePredict
