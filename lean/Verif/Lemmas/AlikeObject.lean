import Verif.Lemmas.AlikeFit
/-
Compound objects with alike parts.
-/
namespace PurePredict
open Spec
variable {F G : Type} [Arith F] [Arith G] {k : Likeness F G} {lib : String → TextLib} {encode : Str → List Nat}

/-! ### Pipelines -/

/-- a step of two pipelines -/
def StepAlike (k : Likeness F G) (p : String × Option (Methods F)) (q : String × Option (Methods G)) : Prop := Option.Rel (MethodsAlike k) p.2 q.2

theorem applyAll_alike {ss : List (String × Option (Methods F))} {ts : List (String × Option (Methods G))} (h : List.Forall₂ (StepAlike k) ss ts)
    {X : Data F} {Y : Data G} (hX : RequestsAlike k X Y) : Par (RequestsAlike k) (Pipeline.applyAll ss X) (Pipeline.applyAll ts Y) := by
  induction h generalizing X Y with
  | nil => exact .done hX
  | @cons p q ss ts h _ ih =>
    obtain ⟨n, p⟩ := p
    obtain ⟨m, q⟩ := q
    replace h : Option.Rel (MethodsAlike k) p q := h
    cases h with
    | none => exact ih hX
    | @some e e' h =>
      unfold Pipeline.applyAll
      have ht := h.transform
      unfold MethodAlike at ht
      revert ht
      generalize e.transform = t
      generalize e'.transform = t'
      intro ht
      cases ht with
      | none => exact .fail
      | some ht => exact (ht X Y hX).bind fun A B hAB => ih hAB

theorem dropLast_alike {α β : Type} {R : α → β → Prop} {l : List α} {l' : List β} (h : List.Forall₂ R l l') : List.Forall₂ R l.dropLast l'.dropLast := by
  rw [List.dropLast_eq_take, List.dropLast_eq_take, h.length_eq]
  exact List.forall₂_take _ h

theorem getLast?_alike {α β : Type} {R : α → β → Prop} {l : List α} {l' : List β} (h : List.Forall₂ R l l') : Option.Rel R l.getLast? l'.getLast? := by
  rw [List.getLast?_eq_getElem?, List.getLast?_eq_getElem?, h.length_eq]
  exact getElem?_alike h _

theorem pipeline_alike {ss : List (String × Option (Methods F))} {ts : List (String × Option (Methods G))} (h : List.Forall₂ (StepAlike k) ss ts) :
    MethodsAlike k (Pipeline.asEst ⟨ss⟩) (Pipeline.asEst ⟨ts⟩) := by
  have hfin : Par (Option.Rel (MethodsAlike k)) (Pipeline.finalEstimator ⟨ss⟩) (Pipeline.finalEstimator ⟨ts⟩) := by
    unfold Pipeline.finalEstimator
    have := getLast?_alike h
    simp only
    revert this
    generalize ss.getLast? = p
    generalize ts.getLast? = q
    intro h
    cases h with
    | none => exact .fail
    | some h => exact .done h
  have hfront : List.Forall₂ (StepAlike k) (Pipeline.front ⟨ss⟩) (Pipeline.front ⟨ts⟩) := dropLast_alike h
  have deleg : ∀ {α β : Type} {A : α → β → Prop} {m : Methods F → Option (Data F → Py α)} {m' : Methods G → Option (Data G → Py β)}
      (_ : ∀ e e', MethodsAlike k e e' → MethodAlike k A (m e) (m' e')),
      Par (fun t u => ∀ X Y, RequestsAlike k X Y → Par A (t X) (u Y)) (Pipeline.delegated ⟨ss⟩ m) (Pipeline.delegated ⟨ts⟩ m') := by
    intro α β A m m' hm
    unfold Pipeline.delegated
    refine hfin.bind fun p q hpq => ?_
    cases hpq with
    | none => exact .fail
    | @some e e' he =>
      have := hm e e' he
      simp only
      revert this
      generalize m e = p
      generalize m' e' = q
      intro h
      cases h with
      | none => exact .fail
      | some h => exact .done h
  have hall : ∀ X Y, RequestsAlike k X Y → Par (RequestsAlike k) (Pipeline.applyAll ss X) (Pipeline.applyAll ts Y) := fun X Y => applyAll_alike h
  refine ⟨?_, ?_, ?_, ?_⟩
  · unfold Pipeline.asEst Pipeline.transform
    simp only
    revert hfin
    generalize Pipeline.finalEstimator ⟨ss⟩ = p
    generalize Pipeline.finalEstimator ⟨ts⟩ = q
    intro hfin
    cases hfin with
    | fail => exact .none
    | @done a b hab =>
      cases hab with
      | none => exact .some fun X Y hXY => hall X Y hXY
      | @some e e' he =>
        have ht := he.transform
        unfold MethodAlike at ht
        simp only [py_ok_bind]
        revert ht
        generalize e.transform = t
        generalize e'.transform = t'
        intro ht
        cases ht with
        | none => exact .none
        | some ht => exact .some fun X Y hXY => hall X Y hXY
  · have hd := deleg (m := Est.predict) (m' := Est.predict) fun _ _ h => h.predict
    unfold Pipeline.asEst Pipeline.predict
    simp only
    revert hd
    generalize Pipeline.delegated ⟨ss⟩ Est.predict = p
    generalize Pipeline.delegated ⟨ts⟩ Est.predict = q
    intro hd
    cases hd with
    | fail => exact .none
    | done h => exact .some fun X Y hXY => (applyAll_alike hfront hXY).bind fun A B hAB => h A B hAB
  · have hd := deleg (m := Est.predictProba) (m' := Est.predictProba) fun _ _ h => h.proba
    unfold Pipeline.asEst Pipeline.predictProba
    simp only
    revert hd
    generalize Pipeline.delegated ⟨ss⟩ Est.predictProba = p
    generalize Pipeline.delegated ⟨ts⟩ Est.predictProba = q
    intro hd
    cases hd with
    | fail => exact .none
    | done h => exact .some fun X Y hXY => (applyAll_alike hfront hXY).bind fun A B hAB => h A B hAB
  · have hd := deleg (m := Est.predictLogProba) (m' := Est.predictLogProba) fun _ _ h => h.logProba
    unfold Pipeline.asEst Pipeline.predictLogProba
    simp only
    revert hd
    generalize Pipeline.delegated ⟨ss⟩ Est.predictLogProba = p
    generalize Pipeline.delegated ⟨ts⟩ Est.predictLogProba = q
    intro hd
    cases hd with
    | fail => exact .none
    | done h => exact .some fun X Y hXY => (applyAll_alike hfront hXY).bind fun A B hAB => h A B hAB

/-! ### Unions -/

theorem dataCheck_alike {X : Data F} {Y : Data G} (h : RequestsAlike k X Y) : Par (RequestsAlike k) X.check Y.check := by
  cases h with
  | arr h => exact (checkArray_alike h _).bind fun _ _ h => .done (.arr h)
  | @docs ds =>
    unfold Data.check
    simp only
    split
    · exact .fail
    · exact .done .docs
  | @table T => exact (par_self (checkArray T .allow)).bind fun A _ e => by cases e; exact .done .table

theorem dataLen_alike {X : Data F} {Y : Data G} (h : RequestsAlike k X Y) : Par Eq X.len Y.len := by
  cases h with
  | arr h => exact len_alike h
  | docs => exact .done rfl
  | @table T => exact par_self T.len

theorem dataShape_alike {X : Data F} {Y : Data G} (h : RequestsAlike k X Y) : Par Eq X.shape Y.shape := by
  cases h with
  | arr h => exact shape_alike h
  | docs => exact .done rfl
  | @table T => exact par_self T.shape

theorem runTransform_alike {e : Methods F} {e' : Methods G} (h : MethodsAlike k e e') {X : Data F} {Y : Data G} (hX : RequestsAlike k X Y) :
    Par (ArraysAlike k) (e.runTransform X) (e'.runTransform Y) := by
  unfold Est.runTransform
  have ht := h.transform
  unfold MethodAlike at ht
  revert ht
  generalize e.transform = t
  generalize e'.transform = t'
  intro ht
  cases ht with
  | none => exact .fail
  | some ht =>
    refine (ht X Y hX).bind fun A B hAB => ?_
    cases hAB with
    | arr h => exact .done h
    | docs => exact .fail
    | table => exact .fail

theorem transformOne_alike (hk : k.Sound) {e : Methods F} {e' : Methods G} (h : MethodsAlike k e e') {X : Data F} {Y : Data G} (hX : RequestsAlike k X Y)
    {w : Option F} {w' : Option G} (hw : Option.Rel k.flt w w') :
    Par (ArraysAlike k) (transformOne e.runTransform X w) (transformOne e'.runTransform Y w') := by
  unfold transformOne
  refine (runTransform_alike h hX).bind fun A B hAB => ?_
  cases hw with
  | none => exact .done hAB
  | some hw =>
    refine Par.bind (R := NumMat k) ?_ fun _ _ h => .done (ofMat_alike h)
    unfold apply2d
    rw [← issparse_alike hAB]
    split
    · exact .fail
    · rename_i hs
      exact (rows_dense_alike hAB (by simpa using hs)).bind fun rs ss hrs => Par.mapM hrs fun r s hr => (iter_alike hr).bind fun x y hxy =>
        Par.mapM hxy fun a b hab => .done (hk.num_of_flt (hk.mul_right (hk.value_of_num hab) hw))

/-- blocks of a sparse union -/
def BlockAlike (k : Likeness F G) (p : List (Dict Int F) × Nat) (q : List (Dict Int G) × Nat) : Prop :=
  List.Forall₂ (List.Forall₂ (EntryAlike k.num)) p.1 q.1 ∧ p.2 = q.2

theorem toBlock_alike (hk : k.Sound) {X : Arr F} {Y : Arr G} (h : ArraysAlike k X Y) : Par (BlockAlike k) (toBlock X) (toBlock Y) := by
  have last : ∀ {A : Arr F} {B : Arr G}, ArraysAlike k A B → Par (BlockAlike k)
      (match A with | .sparse rs (some n) _ => pure (rs, n) | _ => .error .typeError)
      (match B with | .sparse rs (some n) _ => pure (rs, n) | _ => .error .typeError) := by
    intro A B h
    cases h with
    | @sparse _ _ n _ _ h =>
      cases n with
      | none => exact .fail
      | some n => exact .done ⟨h, rfl⟩
    | list _ => exact .fail
    | errObj => exact .fail
    | other => exact .fail
  unfold toBlock
  rw [← issparse_alike h]
  split
  · exact last h
  · exact (tosparse_alike hk h).bind fun A B hAB => last hAB

theorem shiftKeys_alike {x : Dict Int F} {y : Dict Int G} (n : Nat) (h : List.Forall₂ (EntryAlike k.num) x y) :
    List.Forall₂ (EntryAlike k.num) (shiftKeys n x) (shiftKeys n y) := by
  unfold shiftKeys
  exact dictOfList_alike (moved_map h fun p q hpq => ⟨by simp only [hpq.1], hpq.2⟩)

theorem unionRow_alike {bs : List (List (Dict Int F) × Nat)} {cs : List (List (Dict Int G) × Nat)} (h : List.Forall₂ (BlockAlike k) bs cs) (starts : List Nat)
    (i : Nat) : Par (List.Forall₂ (EntryAlike k.num)) (unionRow bs starts i) (unionRow cs starts i) := by
  unfold unionRow
  refine Par.bind (R := List.Forall₂ (List.Forall₂ (EntryAlike k.num)))
    (Par.mapM (zip_alike (R := BlockAlike k) (S := Eq) h (forall₂_same (fun _ => rfl) starts)) fun p q hpq => ?_) fun u v huv => .done (dictOfList_alike (flatten_alike huv))
  rw [hpq.2]
  exact (pyGet_alike hpq.1.1 i).bind fun x y hxy => .done (shiftKeys_alike _ hxy)

theorem denseUnionRow_alike {Xs : List (List (Row F))} {Ys : List (List (Row G))} (h : List.Forall₂ (List.Forall₂ (RowsAlike k)) Xs Ys) (i : Nat) :
    Par (List.Forall₂ k.num) (unionDenseRow Xs i) (unionDenseRow Ys i) := by
  unfold unionDenseRow
  refine (Par.mapM h fun X Y hXY => pyGet_alike hXY i).bind fun rs ss hrs => ?_
  have flat : Par (List.Forall₂ k.num) (rs.mapM Row.asList >>= fun ls => .ok ls.flatten) (ss.mapM Row.asList >>= fun ls => .ok ls.flatten) := by
    refine (Par.mapM (S := List.Forall₂ k.num) hrs fun r s hr => ?_).bind fun _ _ h => .done (flatten_alike h)
    cases hr with
    | list h => exact .done h
    | dict _ => exact .fail
    | scalar _ => exact .fail
  cases hrs with
  | nil => exact flat
  | cons hr hrs =>
    cases hrs with
    | nil => exact iter_alike hr
    | cons _ _ => exact flat

theorem unionOf_alike (hk : k.Sound) {n n' : Py Nat} (hn : Par Eq n n') {s s' : Py Shape} (hs : Par Eq s s') {Xs : List (Arr F)} {Ys : List (Arr G)}
    (h : List.Forall₂ (ArraysAlike k) Xs Ys) : Par (ArraysAlike k) (unionOf n s Xs) (unionOf n' s' Ys) := by
  cases hn.eq
  cases hs.eq
  unfold unionOf
  have e1 : Xs.isEmpty = Ys.isEmpty := by
    rw [Bool.eq_iff_iff, List.isEmpty_iff_length_eq_zero, List.isEmpty_iff_length_eq_zero, h.length_eq]
  have e2 : Xs.any Arr.issparse = Ys.any Arr.issparse := by
    clear e1
    induction h with
    | nil => rfl
    | cons h _ ih => simp only [List.any_cons, issparse_alike h, ih]
  rw [e1, e2]
  split
  · refine (par_self s).bind fun sh _ e => ?_
    cases e
    cases sh with
    | d1 _ => exact .fail
    | d2 n w =>
      cases w with
      | none => exact .fail
      | some w => exact .done (ofMat_alike (replicate_alike n (replicate_alike w hk.zero)))
  · split
    · refine (Par.mapM h fun A B hAB => toBlock_alike hk hAB).bind fun bs cs hbs => ?_
      have : (bs.map (·.2)) = cs.map (·.2) := forall₂_mem_eq hbs fun _ _ h => h.2
      simp only [this]
      refine (par_self n).bind fun n _ e => ?_
      cases e
      exact (range_alike n fun i => unionRow_alike hbs _ i).bind fun u v huv => sparseDicts_alike huv _ _ _
    · rename_i hd
      refine Par.bind (R := List.Forall₂ (List.Forall₂ (RowsAlike k))) ?_ fun ms ms' hms => ?_
      · have hd' : ∀ A ∈ Xs, A.issparse = false := by
          rw [← e2] at hd
          intro A hA
          by_contra hc
          exact hd (List.any_eq_true.2 ⟨A, hA, by simpa using hc⟩)
        clear e1 e2 hd
        rename_i h0
        clear h0
        induction h with
        | nil => exact .done .nil
        | cons h _ ih =>
          simp only [mapM_cons']
          exact (rows_dense_alike h (hd' _ (by simp))).bind fun a b hab => (ih fun A hA => hd' A (by simp [hA])).bind fun c d hcd => .done (.cons hab hcd)
      · refine (par_self n).bind fun n _ e => ?_
        cases e
        exact (range_alike n fun i => denseUnionRow_alike hms i).bind fun u v huv => .done (ofMat_alike huv)

theorem weightOf_alike {ws : Option (List (String × F))} {us : Option (List (String × G))}
    (h : Option.Rel (List.Forall₂ fun p q => p.1 = q.1 ∧ k.flt p.2 q.2) ws us) (n : String) : Option.Rel k.flt (weightOf ws n) (weightOf us n) := by
  cases h with
  | none => exact .none
  | some h => exact lookup_alike h n

theorem union_alike (hk : k.Sound) {ns : List String} {es : List (Methods F)} {es' : List (Methods G)} (he : List.Forall₂ (MethodsAlike k) es es')
    {ws : Option (List (String × F))} {us : Option (List (String × G))}
    (hw : Option.Rel (List.Forall₂ fun p q => p.1 = q.1 ∧ k.flt p.2 q.2) ws us) :
    MethodsAlike k (unionEst (ns.zip es) ws) (unionEst (ns.zip es') us) := by
  refine ⟨.some fun X Y hXY => ?_, .none, .none, .none⟩
  refine Par.bind (R := ArraysAlike k) ?_ fun _ _ h => .done (.arr h)
  refine (dataCheck_alike hXY).bind fun X Y hXY => ?_
  refine Par.bind (R := List.Forall₂ (ArraysAlike k))
    (Par.mapM (zip_alike (R := Eq) (S := MethodsAlike k) (forall₂_same (fun _ => rfl) ns) he) fun p q hpq => ?_)
    fun A B hAB => unionOf_alike hk (dataLen_alike hXY) (dataShape_alike hXY) hAB
  rw [hpq.1]
  exact transformOne_alike hk hpq.2 hXY (weightOf_alike hw _)

/-! ### Ensembles -/

theorem runProba_alike {e : Methods F} {e' : Methods G} (h : MethodsAlike k e e') {X : Arr F} {Y : Arr G} (hX : ArraysAlike k X Y) :
    Par (MatAlike k) (e.runProba X) (e'.runProba Y) := by
  unfold Est.runProba
  have ht := h.proba
  unfold MethodAlike at ht
  revert ht
  generalize e.predictProba = t
  generalize e'.predictProba = t'
  intro ht
  cases ht with
  | none => exact .fail
  | some ht => exact ht _ _ (.arr hX)

theorem featSlice_alike {X : Arr F} {Y : Arr G} (hX : ArraysAlike k X Y) (o : Option (List Int)) : Par (ArraysAlike k) (featSlice X o) (featSlice Y o) := by
  unfold featSlice
  cases o with
  | none => exact .done hX
  | some fs =>
    refine (rows_alike hX).bind fun rs ss hrs => ?_
    refine Par.bind (R := NumMat k) (Par.mapM hrs fun r s hr => ?_) fun _ _ h => .done (ofMat_alike h)
    exact Par.mapM (forall₂_same (R := Eq) (fun _ => rfl) fs) fun i _ e => by cases e; exact getItem_alike hr i

theorem ensemble_alike (hk : k.Sound) {fs : Option (List (List Int))} {cs : List (PVal F)} {ds : List (PVal G)} (hc : List.Forall₂ (LabelsAlike k) cs ds)
    {es : List (Methods F)} {es' : List (Methods G)} (he : List.Forall₂ (MethodsAlike k) es es') (hn : k.value (ofInt es.length) (ofInt es.length)) :
    MethodsAlike k (ensembleEst fs cs es) (ensembleEst fs ds es') := by
  unfold ensembleEst
  refine classifier_alike fun X Y hX => ?_
  generalize hb : (⟨fs, cs, es.map fun m => ⟨m.runProba⟩⟩ : Bagging F (PVal F)) = b
  generalize hb' : (⟨fs, ds, es'.map fun m => ⟨m.runProba⟩⟩ : Bagging G (PVal G)) = b'
  have hm : List.Forall₂ (fun (m : Member F) (m' : Member G) => ∀ X Y, ArraysAlike k X Y → Par (MatAlike k) (m.predictProba X) (m'.predictProba Y))
      b.estimators b'.estimators := by
    subst hb hb'
    exact moved_map he fun e e' he X Y hX => runProba_alike he hX
  have hf : b.features = b'.features := by subst hb hb'; rfl
  have hl : b.classes = cs ∧ b'.classes = ds ∧ b.estimators.length = es.length := by subst hb hb'; simp
  have mem : ∀ i : Nat, Par (MatAlike k) (b.memberProba X i) (b'.memberProba Y i) := by
    intro i
    unfold Bagging.memberProba
    refine (pyGet_alike hm i).bind fun m m' hmm => ?_
    unfold Bagging.getFeats
    rw [hf]
    refine (par_self _).bind fun o _ e => ?_
    cases e
    exact (featSlice_alike hX o).bind fun A B hAB => hmm A B hAB
  have acc : ∀ (l : List Nat) (P : List (List F)) (Q : List (List G)), MatAlike k P Q → Par (MatAlike k) (b.accumulate X l P) (b'.accumulate Y l Q) := by
    intro l
    induction l with
    | nil => exact fun P Q h => .done h
    | cons i l ih =>
      intro P Q h
      unfold Bagging.accumulate
      exact (mem i).bind fun p q hpq => (operate2d_alike (V := k.flt) (U := k.flt) (T := k.flt) (f := Arith.add) (g := Arith.add) (fun _ _ h _ _ h' => hk.add_left h (hk.value_of_flt h')) h hpq).bind fun u v huv => ih u v huv
  have proba : Par (MatAlike k) (b.predictProba X) (b'.predictProba Y) := by
    unfold Bagging.predictProba
    rw [← hm.length_eq]
    refine (mem 0).bind fun p q hpq => (acc _ p q hpq).bind fun u v huv => ?_
    exact apply2d_alike (fun a c hac => hk.div_left hac (by rw [hl.2.2]; exact hn)) huv
  refine ⟨?_, proba, ?_⟩
  · unfold Bagging.predict
    refine proba.bind fun u v huv => ?_
    refine Par.bind (R := List.Forall₂ Eq) (Par.mapM (S := Eq) huv fun a c hac => argmax_alike hk (forall₂_mono (fun _ _ h => hk.num_of_flt h) hac))
      fun p q hpq => ?_
    rw [hl.1, hl.2.1]
    refine Par.mapM hpq fun i j e => ?_
    rw [e]
    exact pyGet_alike hc _
  · unfold Bagging.predictLogProba
    exact proba.bind fun u v huv => apply2d_alike (fun _ _ h => safeLog_alike hk (hk.num_of_flt h)) huv

/-! ### Gradient boosting -/

theorem number_alike (hk : k.Sound) {a : PVal F} {b : PVal G} (h : LabelsAlike k a b) : Par k.value a.num b.num := by
  cases h with
  | float h => exact .done (hk.value_of_flt h)
  | npFloat h => exact .done (hk.value_of_flt h)
  | int h => exact .done h
  | bool => exact .done (hk.value_of_num (ofBool_alike hk _))
  | str => exact .fail
  | npStr => exact .fail

theorem runNumbers_alike (hk : k.Sound) {e : Methods F} {e' : Methods G} (h : MethodsAlike k e e') {X : Arr F} {Y : Arr G} (hX : ArraysAlike k X Y) :
    Par (List.Forall₂ k.value) (e.runNumbers X) (e'.runNumbers Y) := by
  unfold Est.runNumbers
  have ht := h.predict
  unfold MethodAlike at ht
  revert ht
  generalize e.predict = t
  generalize e'.predict = t'
  intro ht
  cases ht with
  | none => exact .fail
  | some ht => exact (ht _ _ (.arr hX)).bind fun u v huv => Par.mapM huv fun _ _ h => number_alike hk h

theorem clip_alike (hk : k.Sound) {a lo hi : F} {b lo' hi' : G} (h : k.flt a b) (h1 : k.flt lo lo') (h2 : k.flt hi hi') : k.flt (clip a lo hi) (clip b lo' hi') := by
  unfold clip
  rw [hk.lt (hk.num_of_flt h) (hk.num_of_flt h1), hk.lt (hk.num_of_flt h2) (hk.num_of_flt h)]
  split
  · exact h1
  · split
    · exact h2
    · exact h

theorem initRaw_alike (hk : k.Sound) (l : Loss) {P : List (List F)} {Q : List (List G)} (h : MatAlike k P Q) :
    Par (MatAlike k) (l.initRaw P) (l.initRaw Q) := by
  have one : ∀ {a : F} {b : G}, k.flt a b → k.flt (ofInt 1 -ₚ a) (ofInt 1 -ₚ b) := fun h => hk.sub_right (hk.value_of_num hk.one) h
  have c : ∀ {a : F} {b : G}, k.flt a b → k.flt (clip a gbEps (ofInt 1 -ₚ gbEps)) (clip b gbEps (ofInt 1 -ₚ gbEps)) := fun h =>
    clip_alike hk h (hk.rat _ _) (one (hk.rat _ _))
  unfold Loss.initRaw
  cases l with
  | multinomial n => exact apply2d_alike (fun a b hab => safeLog_alike hk (hk.num_of_flt (c hab))) h
  | binomial =>
    exact Par.mapM h fun x y hxy => (pyGet_alike hxy 1).bind fun a b hab => (hk.div_left (c hab) (hk.value_of_flt (one (c hab)))).bind fun u v huv =>
      (safeLog_alike hk (hk.num_of_flt huv)).bind fun s t hst => .done (.cons hst .nil)
  | exponential =>
    exact Par.mapM h fun x y hxy => (pyGet_alike hxy 1).bind fun a b hab => (hk.div_left (c hab) (hk.value_of_flt (one (c hab)))).bind fun u v huv =>
      (safeLog_alike hk (hk.num_of_flt huv)).bind fun s t hst => .done (.cons (hk.mul_left (hk.rat _ _) (hk.value_of_flt hst)) .nil)

theorem rawToProba_alike (hk : k.Sound) (l : Loss) {P : List (List F)} {Q : List (List G)} (h : MatAlike k P Q) :
    Par (MatAlike k) (l.rawToProba P) (l.rawToProba Q) := by
  have two : ∀ {u : List F} {v : List G}, VecAlike k u v → Par (MatAlike k) (transpose (.ofMat [u.map fun x => ofInt 1 -ₚ x, u]))
      (transpose (.ofMat [v.map fun x => ofInt 1 -ₚ x, v])) := by
    intro u v huv
    rw [transpose_ofMat, transpose_ofMat]
    exact .done (zipStar_alike (.cons (moved_map huv fun _ _ h => hk.sub_right (hk.value_of_num hk.one) h) (.cons huv .nil)))
  unfold Loss.rawToProba
  cases l with
  | multinomial n =>
    refine (apply2d_alike (fun _ _ h => safeExp_alike hk (hk.num_of_flt h)) h).bind fun u v huv => ?_
    rw [applyAxis2d_ofMat, applyAxis2d_ofMat]
    refine Par.bind (R := List.Forall₂ k.num) (Par.mapM huv fun _ _ h => .done (pySum_alike hk h)) fun s t hst => ?_
    · refine (Par.mapM hst fun _ _ h => safeLog_alike hk h).bind fun s t hst => ?_
      refine Par.mapM (zip_alike (R := VecAlike k) (S := k.flt) h hst) fun p q hpq => range_alike n fun i => ?_
      exact (pyGet_alike hpq.1 i).bind fun a b hab => safeExp_alike hk (hk.num_of_flt (hk.sub_left hab (hk.value_of_flt hpq.2)))
  | binomial =>
    simp only
    rw [width_form (sameForm h)]
    refine (par_self _).bind fun w _ e => ?_
    cases e
    split
    · exact (ravel_alike h).bind fun u v huv => (Par.mapM huv fun _ _ h => expit_alike hk (hk.num_of_flt h)).bind fun s t hst => two hst
    · exact .fail
  | exponential =>
    simp only
    rw [width_form (sameForm h)]
    refine (par_self _).bind fun w _ e => ?_
    cases e
    split
    · exact (ravel_alike h).bind fun u v huv => Par.bind (R := VecAlike k) (Par.mapM huv fun _ _ h =>
        (expit_alike hk (hk.num_of_flt h)).bind fun a b hab => .done (hk.mul_left hab hk.two)) fun s t hst => two hst
    · exact .fail

theorem rawColumn_alike (hk : k.Sound) {C D : Type} {g : GB F C} {g' : GB G D} (hlr : k.flt g.learningRate g'.learningRate) {X : Arr F} {Y : Arr G} (c : Nat)
    {sts : List (List (Arr F → Py (List F)))} {sts' : List (List (Arr G → Py (List G)))}
    (h : List.Forall₂ (List.Forall₂ fun f f' => Par (List.Forall₂ k.value) (f X) (f' Y)) sts sts') {u : List F} {v : List G} (huv : List.Forall₂ k.num u v) :
    Par (List.Forall₂ k.num) (g.rawColumn X c sts u) (g'.rawColumn Y c sts' v) := by
  induction h generalizing u v with
  | nil => exact .done huv
  | cons h _ ih =>
    unfold GB.rawColumn
    refine (pyGet_alike h c).bind fun f f' hf => hf.bind fun p q hpq => ?_
    rw [hpq.length_eq]
    refine Par.bind (R := List.Forall₂ k.num) (range_alike _ fun i => ?_) fun s t hst => ih hst
    exact (pyGet_alike huv i).bind fun a b hab => (pyGet_alike hpq i).bind fun c d hcd =>
      .done (hk.num_of_flt (hk.add_right (hk.value_of_num hab) (hk.mul_right hcd hlr)))

theorem boosting_alike (hk : k.Sound) {cs : List (PVal F)} {ds : List (PVal G)} (hc : List.Forall₂ (LabelsAlike k) cs ds)
    {stages : List (List (Methods F))} {stages' : List (List (Methods G))} (hs : List.Forall₂ (List.Forall₂ (MethodsAlike k)) stages stages')
    {init : Methods F} {init' : Methods G} (hi : MethodsAlike k init init') (l : Loss) {lr : F} {lr' : G} (hlr : k.flt lr lr') (nf : Nat) :
    MethodsAlike k (boostingEst cs stages init l lr nf) (boostingEst ds stages' init' l lr' nf) := by
  unfold boostingEst
  refine classifier_alike fun X Y hX => ?_
  generalize hg : (⟨cs, stages.map fun st => st.map fun m => m.runNumbers, init.runProba, lr, nf, l⟩ : GB F (PVal F)) = g
  generalize hg' : (⟨ds, stages'.map fun st => st.map fun m => m.runNumbers, init'.runProba, lr', nf, l⟩ : GB G (PVal G)) = g'
  have e1 : g.classes = cs ∧ g'.classes = ds ∧ g.loss = l ∧ g'.loss = l ∧ g.nFeatures = nf ∧ g'.nFeatures = nf := by subst hg hg'; simp
  obtain ⟨c1, c2, l1, l2, n1, n2⟩ := e1
  have hlr' : k.flt g.learningRate g'.learningRate := by subst hg hg'; exact hlr
  have hinit : Par (MatAlike k) (g.rawPredictInit X) (g'.rawPredictInit Y) := by
    unfold GB.rawPredictInit
    refine (checkArray_alike hX _).bind fun A B hAB => (width_alike hAB).bind fun w _ e => ?_
    cases e
    rw [l1, l2, n1, n2]
    cases w with
    | none => exact .fail
    | some w =>
      simp only
      split
      · exact .fail
      · refine Par.bind (R := MatAlike k) ?_ fun p q hpq => initRaw_alike hk l hpq
        subst hg hg'
        exact runProba_alike hi hAB
  have hF : List.Forall₂ (List.Forall₂ fun f f' => Par (List.Forall₂ k.value) (f X) (f' Y)) g.estimators g'.estimators := by
    subst hg hg'
    exact moved_map hs fun st st' hst => moved_map hst fun e e' he => runNumbers_alike hk he hX
  have hraw : Par (MatAlike k) (g.rawPredict X) (g'.rawPredict Y) := by
    unfold GB.rawPredict
    refine hinit.bind fun u v huv => (pyGet_alike hF 0).bind fun st st' hst => ?_
    rw [hst.length_eq]
    refine Par.bind (R := NumMat k) (range_alike _ fun c => ?_) fun p q hpq => ?_
    · refine (len_alike hX).bind fun n _ e => ?_
      cases e
      exact rawColumn_alike hk hlr' c hF (replicate_alike n hk.zero)
    · rw [transpose_ofMat, transpose_ofMat]
      exact operate2d_alike (V := k.flt) (U := k.num) (T := k.flt) (f := Arith.add) (g := Arith.add) (fun _ _ h _ _ h' => hk.add_left h (hk.value_of_num h')) huv (zipStar_alike hpq)
  have hp : Par (MatAlike k) (g.predictProba X) (g'.predictProba Y) := by
    unfold GB.predictProba
    rw [l1, l2]
    exact hraw.bind fun _ _ h => rawToProba_alike hk l h
  refine ⟨?_, hp, ?_⟩
  · unfold GB.predict
    rw [c1, c2]
    refine hp.bind fun u v huv => Par.mapM huv fun a b hab => ?_
    refine (argmax_alike hk (forall₂_mono (fun _ _ h => hk.num_of_flt h) hab)).bind fun i j e => ?_
    rw [e]
    exact pyGet_alike hc _
  · unfold GB.predictLogProba
    exact hp.bind fun u v huv => apply2d_alike (fun _ _ h => safeLog_alike hk (hk.num_of_flt h)) huv

/-! ### All objects -/

theorem behaves_pairs {R : Methods F → Methods G → Prop} {ms : List (SkObj (Attrs F) (PVal F) F)} {ms' : List (SkObj (Attrs G) (PVal G) G)} {es : List (Methods F)}
    (he : List.Forall₂ (Behaves lib encode) ms es) (hlen : ms.length = ms'.length)
    (h : ∀ p ∈ ms.zip ms', ∀ f, Behaves lib encode p.1 f → ∃ f', Behaves lib encode p.2 f' ∧ R f f') :
    ∃ es', List.Forall₂ (Behaves lib encode) ms' es' ∧ List.Forall₂ R es es' := by
  induction he generalizing ms' with
  | nil =>
    cases ms' with
    | nil => exact ⟨[], .nil, .nil⟩
    | cons _ _ => simp at hlen
  | @cons m e ms es hm _ ih =>
    cases ms' with
    | nil => simp at hlen
    | cons m' ms' =>
      obtain ⟨f', h1, h2⟩ := h (m, m') (by simp) e hm
      obtain ⟨es', h3, h4⟩ := ih (ms' := ms') (by simpa using hlen) fun p hp => h p (by simp [hp])
      exact ⟨f' :: es', .cons h1 h3, .cons h2 h4⟩

theorem behaves_grid {R : Methods F → Methods G → Prop} {ms : List (List (SkObj (Attrs F) (PVal F) F))} {ms' : List (List (SkObj (Attrs G) (PVal G) G))}
    {es : List (List (Methods F))}
    (he : List.Forall₂ (List.Forall₂ (Behaves lib encode)) ms es) (hlen : ms.length = ms'.length) (hlens : ∀ p ∈ ms.zip ms', p.1.length = p.2.length)
    (h : ∀ p ∈ ms.zip ms', ∀ q ∈ p.1.zip p.2, ∀ f, Behaves lib encode q.1 f → ∃ f', Behaves lib encode q.2 f' ∧ R f f') :
    ∃ es', List.Forall₂ (List.Forall₂ (Behaves lib encode)) ms' es' ∧ List.Forall₂ (List.Forall₂ R) es es' := by
  induction he generalizing ms' with
  | nil =>
    cases ms' with
    | nil => exact ⟨[], .nil, .nil⟩
    | cons _ _ => simp at hlen
  | @cons m e ms es hm _ ih =>
    cases ms' with
    | nil => simp at hlen
    | cons m' ms' =>
      obtain ⟨f', h1, h2⟩ := behaves_pairs hm (hlens (m, m') (by simp)) (h (m, m') (by simp))
      obtain ⟨es', h3, h4⟩ := ih (ms' := ms') (by simpa using hlen) (fun p hp => hlens p (by simp [hp])) fun p hp => h p (by simp [hp])
      exact ⟨f' :: es', .cons h1 h3, .cons h2 h4⟩

theorem plain_alike {cs : List (PVal F)} {ds : List (PVal G)} (h : List.Forall₂ (LabelsAlike k) cs ds) : ∀ d ∈ ds, Plain d := by
  induction h with
  | nil => simp
  | cons h _ ih =>
    intro d hd
    rcases List.mem_cons.1 hd with rfl | hd
    · cases h <;> constructor
    · exact ih d hd

theorem behaves_alike (hk : k.Sound) {o : SkObj (Attrs F) (PVal F) F} {o' : SkObj (Attrs G) (PVal G) G} (h : ObjectsAlike k o o')
    {f : Methods F} (hb : Behaves lib encode o f) : ∃ f', Behaves lib encode o' f' ∧ MethodsAlike k f f' := by
  induction h generalizing f with
  | @single c v a b s t h1 h2 hs =>
    cases hb with
    | single hv hl =>
      have e := C89_behaviour_unique (Behaves.single (lib := lib) (encode := encode) hv hl) (.single hv h1)
      rw [e]
      exact ⟨_, .single hv h2, single_alike hk hs lib encode⟩
  | @pipeline v names os ps hl hl' _ ih =>
    generalize hst : names.zip os = st at hb
    cases hb with
    | @pipeline _ _ es hv hs =>
      subst hst
      rw [List.map_fst_zip (by omega)]
      rw [List.map_snd_zip (by omega)] at hs
      obtain ⟨es', h1, h2⟩ := behaves_pairs hs hl' fun p hp f hf => ih p hp hf
      have := Behaves.pipeline (lib := lib) (encode := encode) (steps := names.zip ps) (es := es') hv (by rw [List.map_snd_zip (by omega)]; exact h1)
      rw [List.map_fst_zip (by omega)] at this
      refine ⟨_, this, ?_⟩
      unfold pipelineEst
      exact pipeline_alike (moved_map (zip_alike (R := Eq) (S := MethodsAlike k) (forall₂_same (fun _ => rfl) names) h2) fun p q hpq => .some hpq.2)
  | @union v names os ps ws us hl hl' _ hw ih =>
    generalize hst : names.zip os = st at hb
    cases hb with
    | @union _ _ _ es hv hs =>
      subst hst
      rw [List.map_fst_zip (by omega)]
      rw [List.map_snd_zip (by omega)] at hs
      obtain ⟨es', h1, h2⟩ := behaves_pairs hs hl' fun p hp f hf => ih p hp hf
      have := Behaves.union (lib := lib) (encode := encode) (steps := names.zip ps) (ws := us) (es := es') hv (by rw [List.map_snd_zip (by omega)]; exact h1)
      rw [List.map_fst_zip (by omega)] at this
      exact ⟨_, this, union_alike hk h2 hw⟩
  | @ensemble kd v fs cs ds os ps hc hn hl _ ih =>
    cases hb with
    | @ensemble _ _ _ _ _ es hv hcs he =>
      obtain ⟨es', h1, h2⟩ := behaves_pairs he hl fun p hp f hf => ih p hp hf
      exact ⟨_, .ensemble hv (plain_alike hc) h1, ensemble_alike hk hc h2 (by rw [← he.length_eq]; exact hn)⟩
  | @boosting v cs ds stages stages' init init' loss lr lr' nf hc hl hls _ _ hlr ih ihi =>
    cases hb with
    | @boosting _ _ _ _ _ _ _ l es e hv hcs he hi hloss =>
      obtain ⟨es', h1, h2⟩ := behaves_grid he hl hls fun p hp q hq f hf => ih p hp q hq hf
      obtain ⟨e', h3, h4⟩ := ihi hi
      exact ⟨_, .boosting hv (plain_alike hc) h1 h3 (by rw [← hc.length_eq]; exact hloss), boosting_alike hk hc h2 h4 l hlr nf⟩

end PurePredict
