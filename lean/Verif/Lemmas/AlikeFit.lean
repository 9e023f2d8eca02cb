import Verif.Lemmas.AlikeBase
/-
Single estimators with alike parameters.
-/
namespace PurePredict
open Spec
variable {F G : Type} [Arith F] [Arith G] {k : Likeness F G}

theorem checkDense_alike {X : Arr F} {Y : Arr G} (h : ArraysAlike k X Y) :
    Par (fun A B => ArraysAlike k A B ∧ A.issparse = false) (checkArray X .error) (checkArray Y .error) := by
  cases h with
  | list h =>
    simp only [checkArray, h.length_eq]
    split
    · exact .done ⟨.errObj, rfl⟩
    · exact .done ⟨.list h, rfl⟩
  | sparse h => exact .fail
  | errObj => exact .fail
  | other => exact .fail

theorem attr_alike {α β : Type} {R : α → β → Prop} {p : Option α} {q : Option β} (h : Option.Rel R p q) : Par R (attr p) (attr q) := by
  cases h with
  | none => exact .fail
  | some h => exact .done h

theorem notNone_alike {α β : Type} {R : α → β → Prop} {p : Option α} {q : Option β} (h : Option.Rel R p q) : Par R (notNone p) (notNone q) := by
  cases h with
  | none => exact .fail
  | some h => exact .done h

/-! ### Linear classifiers -/

/-- scores of the same form -/
inductive ScoresAlike (k : Likeness F G) : Scores F → Scores G → Prop
  | flat {s t} : VecAlike k s t → ScoresAlike k (.flat s) (.flat t)
  | mat {s t} : MatAlike k s t → ScoresAlike k (.mat s) (.mat t)

/-- alike linear classifiers -/
structure LinearsAlike (k : Likeness F G) (m : Linear F (PVal F)) (n : Linear G (PVal G)) : Prop where
  coef : MatAlike k m.coef n.coef
  classes : List.Forall₂ (LabelsAlike k) m.classes n.classes
  intercept : Option.Rel (VecAlike k) m.intercept n.intercept
  multiClass : n.multiClass = m.multiClass
  solver : n.solver = m.solver
  loss : n.loss = m.loss

namespace LinearAlike
variable {m : Linear F (PVal F)} {n : Linear G (PVal G)}

theorem rowScores (hk : k.Sound) (h : LinearsAlike k m n) {r : Row F} {s : Row G} (hr : RowLike k r s) : Par (VecAlike k) (m.rowScores r) (n.rowScores s) := by
  unfold Linear.rowScores
  exact (dot_alike hk hr h.coef).bind fun d e hde => (attr_alike h.intercept).bind fun b c hbc =>
    .done (zipWith_alike (f := Arith.add) (g := Arith.add) (fun _ _ h _ _ h' => hk.add_right (hk.value_of_num h) h') hde hbc)

theorem decision (hk : k.Sound) (h : LinearsAlike k m n) {X : Arr F} {Y : Arr G} (hX : ArraysAlike k X Y) :
    Par (ScoresAlike k) (m.decisionFunction X) (n.decisionFunction Y) := by
  unfold Linear.decisionFunction
  refine (checkArray_alike hX _).bind fun X Y hX => ?_
  refine Par.bind (R := Eq) ?_ fun _ _ _ => ?_
  · unfold Linear.checkWidth
    rw [width_form (sameForm h.coef)]
    refine (par_self _).bind fun nf _ e => ?_
    cases e
    refine (width_alike hX).bind fun w _ e => ?_
    cases e
    exact par_self _
  · refine (rows_alike hX).bind fun rs ss hrs => ?_
    refine (Par.mapM hrs fun _ _ h' => rowScores hk h h').bind fun s t hst => ?_
    rw [width_form (sameForm hst)]
    refine (par_self _).bind fun w _ e => ?_
    cases e
    split
    · exact (ravel_alike hst).bind fun _ _ h => .done (.flat h)
    · exact .done (.mat hst)

theorem predict (hk : k.Sound) (h : LinearsAlike k m n) {X : Arr F} {Y : Arr G} (hX : ArraysAlike k X Y) :
    Par (List.Forall₂ (LabelsAlike k)) (m.predict X) (n.predict Y) := by
  unfold Linear.predict
  refine (decision hk h hX).bind fun s t hst => ?_
  cases hst with
  | flat hst =>
    refine Par.mapM hst fun a b hab => ?_
    rw [hk.lt hk.zero (hk.num_of_flt hab)]
    exact pyGet_alike h.classes _
  | mat hst =>
    refine Par.mapM hst fun a b hab => ?_
    refine (argmax_alike hk (forall₂_mono (fun _ _ h => hk.num_of_flt h) hab)).bind fun i _ e => ?_
    cases e
    exact pyGet_alike h.classes _

theorem predictProbaLr (hk : k.Sound) (h : LinearsAlike k m n) {X : Arr F} {Y : Arr G} (hX : ArraysAlike k X Y) :
    Par (MatAlike k) (m.predictProbaLr X) (n.predictProbaLr Y) := by
  unfold Linear.predictProbaLr
  refine (decision hk h hX).bind fun s t hst => ?_
  cases hst with
  | flat hst =>
    exact Par.mapM hst fun a b hab => (expit_alike hk (hk.num_of_flt hab)).bind fun u v huv =>
      .done (.cons (hk.sub_right (hk.value_of_num hk.one) huv) (.cons huv .nil))
  | mat hst =>
    refine (Par.mapM hst fun a b hab => Par.mapM hab fun a b hab => expit_alike hk (hk.num_of_flt hab)).bind fun u v huv => ?_
    refine Par.mapM huv fun a b hab => ?_
    unfold Linear.normRow
    have hs := pySum_alike hk hab
    rw [hk.eq hs hk.zero]
    refine Par.mapM hab fun x y hxy => ?_
    split
    · exact hk.div_left hxy (hk.value_of_num hs)
    · exact .done hk.nan

theorem predictProba (hk : k.Sound) (h : LinearsAlike k m n) {X : Arr F} {Y : Arr G} (hX : ArraysAlike k X Y) :
    Par (MatAlike k) (m.predictProba X) (n.predictProba Y) := by
  unfold Linear.predictProba
  have : m.isOvr = n.isOvr := by
    unfold Linear.isOvr
    rw [h.multiClass, h.solver, h.classes.length_eq]
  rw [this]
  refine (par_self _).bind fun o _ e => ?_
  cases e
  split
  · exact predictProbaLr hk h hX
  · refine (decision hk h hX).bind fun s t hst => ?_
    cases hst with
    | flat hst => exact Par.mapM hst fun a b hab =>
        sfmax_alike hk (.cons (hk.num_of_flt (hk.neg hab)) (.cons (hk.num_of_flt hab) .nil))
    | mat hst => exact Par.mapM hst fun a b hab => sfmax_alike hk (forall₂_mono (fun _ _ h => hk.num_of_flt h) hab)

theorem predictLogProba (hk : k.Sound) (h : LinearsAlike k m n) {X : Arr F} {Y : Arr G} (hX : ArraysAlike k X Y) :
    Par (MatAlike k) (m.predictLogProba X) (n.predictLogProba Y) := by
  unfold Linear.predictLogProba
  exact (predictProba hk h hX).bind fun _ _ h => logs_alike hk h

theorem checkProba (h : LinearsAlike k m n) : m.checkProba = n.checkProba := by
  unfold Linear.checkProba
  rw [h.loss]

theorem sgdProba (hk : k.Sound) (h : LinearsAlike k m n) {X : Arr F} {Y : Arr G} (hX : ArraysAlike k X Y) :
    Par (MatAlike k) (m.sgdPredictProba X) (n.sgdPredictProba Y) := by
  unfold Linear.sgdPredictProba Linear.sgdPredictProba_
  rw [checkProba h, h.loss]
  refine (par_self _).bind fun _ _ _ => ?_
  refine (par_self _).bind fun l _ e => ?_
  cases e
  split
  · exact predictProbaLr hk h hX
  · exact .fail

theorem sgdLogProba (hk : k.Sound) (h : LinearsAlike k m n) {X : Arr F} {Y : Arr G} (hX : ArraysAlike k X Y) :
    Par (MatAlike k) (m.sgdPredictLogProba X) (n.sgdPredictLogProba Y) := by
  unfold Linear.sgdPredictLogProba
  rw [checkProba h]
  refine (par_self _).bind fun _ _ _ => ?_
  exact (sgdProba hk h hX).bind fun _ _ h => logs_alike hk h
end LinearAlike

/-! ### Trees -/

namespace TreeAlike
variable {t : Tree F (PVal F)} {u : Tree G (PVal G)}

theorem featureValue (hk : k.Sound) (h : TreesAlike k t u) {r : Row F} {s : Row G} (hr : RowLike k r s) (nd : Int) :
    Par k.num (t.featureValue r nd) (u.featureValue s nd) := by
  unfold Tree.featureValue
  rw [h.feature]
  refine (par_self _).bind fun f _ e => ?_
  cases e
  cases hr with
  | list h => exact pyGet_alike h f
  | @dict x y h =>
    refine .done ?_
    have := lookup_alike (V := k.num) h f
    revert this
    generalize Dict.get? x f = p
    generalize Dict.get? y f = q
    intro h
    cases h with
    | none => exact hk.zero
    | some h => exact h
  | scalar _ => exact .fail

theorem step (hk : k.Sound) (h : TreesAlike k t u) {r : Row F} {s : Row G} (hr : RowLike k r s) (nd : Int) : Par Eq (t.step r nd) (u.step s nd) := by
  unfold Tree.step
  rw [h.left, h.right]
  refine (par_self _).bind fun l _ e => ?_
  cases e
  refine (par_self _).bind fun r _ e => ?_
  cases e
  split
  · exact .done rfl
  · refine (featureValue hk h hr nd).bind fun a b hab => ?_
    refine (pyGet_alike h.threshold nd).bind fun c d hcd => ?_
    rw [hk.le hab (hk.num_of_flt hcd)]
    exact par_self _

theorem walk (hk : k.Sound) (h : TreesAlike k t u) {r : Row F} {s : Row G} (hr : RowLike k r s) (fuel : Nat) (nd : Int) :
    Par Eq (t.walk r fuel nd) (u.walk s fuel nd) := by
  induction fuel generalizing nd with
  | zero => exact .fail
  | succ fuel ih =>
    unfold Tree.walk
    refine (step hk h hr nd).bind fun o _ e => ?_
    cases e
    cases o with
    | none => exact .done rfl
    | some n => exact ih n

theorem leaf (hk : k.Sound) (h : TreesAlike k t u) {r : Row F} {s : Row G} (hr : RowLike k r s) : Par Eq (t.getLeafNode r) (u.getLeafNode s) := by
  unfold Tree.getLeafNode
  rw [h.left]
  exact walk hk h hr _ _

theorem leaves (hk : k.Sound) (h : TreesAlike k t u) {rs : List (Row F)} {ss : List (Row G)} (hr : List.Forall₂ (RowLike k) rs ss) :
    Par Eq (rs.mapM t.getLeafNode) (ss.mapM u.getLeafNode) := by
  refine (Par.mapM hr fun _ _ h' => leaf hk h h').mono fun x y h => ?_
  induction h with
  | nil => rfl
  | cons h _ ih => rw [h, ih]

theorem predict (hk : k.Sound) (h : TreesAlike k t u) {X : Arr F} {Y : Arr G} (hX : ArraysAlike k X Y) :
    Par (List.Forall₂ (LabelsAlike k)) (t.predict X) (u.predict Y) := by
  unfold Tree.predict
  refine (checkArray_alike hX _).bind fun X Y hX => (rows_alike hX).bind fun rs ss hrs => (leaves hk h hrs).bind fun l _ e => ?_
  cases e
  refine Par.bind (R := List.Forall₂ Eq) (Par.mapM (forall₂_same (R := Eq) (fun _ => rfl) l) fun i _ e => ?_) fun ps qs hpq => ?_
  · cases e
    unfold Tree.predFromLeaf
    exact (pyGet_alike h.value i).bind fun a b hab => argmax_alike hk (forall₂_mono (fun _ _ h => hk.num_of_flt h) hab)
  · exact Par.mapM hpq fun i _ e => by cases e; exact pyGet_alike h.classes _

theorem predictProba (hk : k.Sound) (h : TreesAlike k t u) {X : Arr F} {Y : Arr G} (hX : ArraysAlike k X Y) :
    Par (MatAlike k) (t.predictProba X) (u.predictProba Y) := by
  unfold Tree.predictProba
  refine (checkArray_alike hX _).bind fun X Y hX => (rows_alike hX).bind fun rs ss hrs => (leaves hk h hrs).bind fun l _ e => ?_
  cases e
  refine Par.mapM (forall₂_same (R := Eq) (fun _ => rfl) l) fun i _ e => ?_
  cases e
  unfold Tree.probaFromLeaf
  exact (pyGet_alike h.value i).bind fun a b hab => divs_alike hk hab (hk.value_of_num (pySum_alike hk hab))

theorem predictLogProba (hk : k.Sound) (h : TreesAlike k t u) {X : Arr F} {Y : Arr G} (hX : ArraysAlike k X Y) :
    Par (MatAlike k) (t.predictLogProba X) (u.predictLogProba Y) := by
  unfold Tree.predictLogProba
  exact (predictProba hk h hX).bind fun _ _ h => logs_alike hk h

theorem predictReg (hk : k.Sound) (h : TreesAlike k t u) {X : Arr F} {Y : Arr G} (hX : ArraysAlike k X Y) :
    Par (VecAlike k) (t.predictReg X) (u.predictReg Y) := by
  unfold Tree.predictReg
  refine (checkArray_alike hX _).bind fun X Y hX => (rows_alike hX).bind fun rs ss hrs => (leaves hk h hrs).bind fun l _ e => ?_
  cases e
  refine Par.mapM (forall₂_same (R := Eq) (fun _ => rfl) l) fun i _ e => ?_
  cases e
  exact (pyGet_alike h.value i).bind fun a b hab => pyGet_alike hab 0
end TreeAlike

/-! ### Naive Bayes -/

theorem gaussTerms_alike (hk : k.Sound) {th sg : List F} {th' sg' : List G} (h1 : VecAlike k th th') (h2 : VecAlike k sg sg') {r : Row F} {s : Row G}
    (hr : RowLike k r s) : Par (VecAlike k) (GaussianNB.terms th sg r) (GaussianNB.terms th' sg' s) := by
  unfold GaussianNB.terms
  rw [rowLen_alike hr]
  refine (par_self _).bind fun n _ e => ?_
  cases e
  refine range_alike n fun i => ?_
  refine (getItem_alike hr i).bind fun a b hab => (pyGet_alike h1 i).bind fun c d hcd => ?_
  exact (hk.sq (hk.sub_right (hk.value_of_num hab) hcd)).bind fun u v huv => (pyGet_alike h2 i).bind fun c d hcd =>
    hk.div_left huv (hk.value_of_flt hcd)

theorem gaussJll_alike (hk : k.Sound) {m : GaussianNB F (PVal F)} {n : GaussianNB G (PVal G)} (h1 : VecAlike k m.classPrior n.classPrior)
    (h2 : List.Forall₂ (LabelsAlike k) m.classes n.classes) (h3 : MatAlike k m.sigma n.sigma) (h4 : MatAlike k m.theta n.theta) {X : Arr F} {Y : Arr G}
    (hX : ArraysAlike k X Y) : Par (MatAlike k) (m.jll X) (n.jll Y) := by
  unfold GaussianNB.jll
  rw [h2.length_eq]
  refine (range_alike (R := VecAlike k) _ fun i => ?_).bind fun u v huv => ?_
  · refine (rows_alike hX).bind fun rs ss hrs => ?_
    unfold GaussianNB.column
    refine (pyGet_alike h1 i).bind fun a b hab => ?_
    refine (safeLog_alike hk (hk.num_of_flt hab)).bind fun ji ji' hj => ?_
    refine (pyGet_alike h3 i).bind fun sg sg' hs => ?_
    refine (Par.mapM hs fun a b hab => safeLog_alike hk (hk.num_of_flt (hk.mul_left (hk.mul_right (hk.two) hk.pi) (hk.value_of_flt hab)))).bind
      fun lg lg' hlg => ?_
    have hn : k.flt (Arith.neg (ofRat 1 2) *ₚ pySum lg) (Arith.neg (ofRat 1 2) *ₚ pySum lg') :=
      hk.mul_left (hk.neg (hk.rat 1 2)) (hk.value_of_num (pySum_alike hk hlg))
    refine (Par.mapM hrs fun r s hr => (pyGet_alike h4 i).bind fun th th' ht => gaussTerms_alike hk ht hs hr).bind fun j j' hjj => .done ?_
    exact moved_map (moved_map hjj fun a b hab => hk.mul_left (hk.rat 1 2) (hk.value_of_num (pySum_alike hk hab))) fun a b hab =>
      hk.add_left (hk.sub_left hn (hk.value_of_flt hab)) (hk.value_of_flt hj)
  · rw [transpose_ofMat, transpose_ofMat]
    exact .done (zipStar_alike huv)

/-- joint likelihoods of the discrete classes -/
abbrev NumMat (k : Likeness F G) : List (List F) → List (List G) → Prop := List.Forall₂ (List.Forall₂ k.num)

theorem numMat (hk : k.Sound) {A : List (List F)} {B : List (List G)} (h : MatAlike k A B) : NumMat k A B :=
  forall₂_mono (fun _ _ h => forall₂_mono (fun _ _ h => hk.num_of_flt h) h) h

theorem multiJll_alike (hk : k.Sound) {m : DiscreteNB F (PVal F)} {n : DiscreteNB G (PVal G)} (h1 : VecAlike k m.classLogPrior n.classLogPrior)
    (h2 : List.Forall₂ (LabelsAlike k) m.classes n.classes) (h3 : MatAlike k m.featureLogProb n.featureLogProb) {X : Arr F} {Y : Arr G}
    (hX : ArraysAlike k X Y) : Par (NumMat k) (m.jllMultinomial X) (n.jllMultinomial Y) := by
  unfold DiscreteNB.jllMultinomial
  refine (rows_alike hX).bind fun rs ss hrs => Par.mapM hrs fun r s hr => ?_
  rw [h2.length_eq]
  refine (dot_alike hk hr h3).bind fun d e hde => range_alike _ fun i => ?_
  exact (pyGet_alike hde i).bind fun a b hab => (pyGet_alike h1 i).bind fun c d hcd =>
    .done (hk.num_of_flt (hk.add_right (hk.value_of_num hab) hcd))

theorem complJll_alike (hk : k.Sound) {m : DiscreteNB F (PVal F)} {n : DiscreteNB G (PVal G)} (h1 : VecAlike k m.classLogPrior n.classLogPrior)
    (h2 : List.Forall₂ (LabelsAlike k) m.classes n.classes) (h3 : MatAlike k m.featureLogProb n.featureLogProb) {X : Arr F} {Y : Arr G}
    (hX : ArraysAlike k X Y) : Par (NumMat k) (m.jllComplement X) (n.jllComplement Y) := by
  unfold DiscreteNB.jllComplement
  refine (rows_alike hX).bind fun rs ss hrs => ?_
  rw [h2.length_eq]
  refine (Par.mapM hrs fun r s hr => dot_alike hk hr h3).bind fun j j' hj => ?_
  split
  · exact Par.mapM hj fun a b hab => (pyGet_alike hab 0).bind fun u v huv => (pyGet_alike h1 0).bind fun c d hcd =>
      .done (.cons (hk.num_of_flt (hk.add_right (hk.value_of_num huv) hcd)) .nil)
  · exact .done hj

theorem nb_alike (hk : k.Sound) {jll : Arr F → Py (List (List F))} {jll' : Arr G → Py (List (List G))}
    (h : ∀ X Y, ArraysAlike k X Y → Par (NumMat k) (jll X) (jll' Y)) {cs : List (PVal F)} {cs' : List (PVal G)}
    (hc : List.Forall₂ (LabelsAlike k) cs cs') {X : Arr F} {Y : Arr G} (hX : ArraysAlike k X Y) :
    Par (List.Forall₂ (LabelsAlike k)) (nbPredict jll cs X) (nbPredict jll' cs' Y) ∧ Par (MatAlike k) (nbPredictProba jll X) (nbPredictProba jll' Y) ∧
    Par (MatAlike k) (nbPredictLogProba jll X) (nbPredictLogProba jll' Y) := by
  have hl : Par (MatAlike k) (nbPredictLogProba jll X) (nbPredictLogProba jll' Y) := by
    unfold nbPredictLogProba
    refine (checkArray_alike hX _).bind fun X Y hX => (h X Y hX).bind fun j j' hj => Par.mapM hj fun a b hab => ?_
    unfold logNormalize
    refine (Par.mapM hab fun _ _ h => safeExp_alike hk h).bind fun e e' he => ?_
    refine (safeLog_alike hk (pySum_alike hk he)).bind fun lp lp' hlp => .done ?_
    exact moved_map hab fun x y hxy => hk.sub_right (hk.value_of_num hxy) hlp
  refine ⟨?_, ?_, hl⟩
  · unfold nbPredict
    refine (checkArray_alike hX _).bind fun X Y hX => (h X Y hX).bind fun j j' hj => Par.mapM hj fun a b hab => ?_
    refine (argmax_alike hk hab).bind fun i _ e => ?_
    cases e
    exact pyGet_alike hc _
  · unfold nbPredictProba
    exact hl.bind fun u v huv => Par.mapM huv fun a b hab => Par.mapM hab fun x y hxy => safeExp_alike hk (hk.num_of_flt hxy)

/-! ### Dummy classifiers and boosters -/

theorem dummy_alike (hk : k.Sound) {d : Dummy F} {e : Dummy G} (h : VecAlike k d.classPrior e.classPrior) {X : Arr F} {Y : Arr G} (hX : ArraysAlike k X Y) :
    Par Eq (d.predict X) (e.predict Y) ∧ Par (MatAlike k) (d.predictProba X) (e.predictProba Y) ∧
    Par (MatAlike k) (d.predictLogProba X) (e.predictLogProba Y) := by
  have hp : Par (MatAlike k) (d.predictProba X) (e.predictProba Y) := by
    unfold Dummy.predictProba
    refine (len_alike hX).bind fun n _ e => ?_
    cases e
    exact .done (replicate_alike n h)
  refine ⟨?_, hp, ?_⟩
  · unfold Dummy.predict
    refine (argmax_alike hk (forall₂_mono (fun _ _ h => hk.num_of_flt h) h)).bind fun i _ e => ?_
    cases e
    refine (len_alike hX).bind fun n _ e => ?_
    cases e
    exact .done rfl
  · unfold Dummy.predictLogProba
    exact hp.bind fun u v huv => apply2d_alike (fun _ _ h => safeLog_alike hk (hk.num_of_flt h)) huv

theorem addTree_alike (hk : k.Sound) {X : Arr F} {Y : Arr G} (hX : ArraysAlike k X Y) {a : List F} {b : List G} (hab : List.Forall₂ k.num a b)
    {t : Tree F (PVal F)} {u : Tree G (PVal G)} (h : TreesAlike k t u) : Par (List.Forall₂ k.num) (Xgb.addTree X a t) (Xgb.addTree Y b u) := by
  unfold Xgb.addTree
  exact (TreeAlike.predictReg hk h hX).bind fun p q hpq =>
    .done (zipWith_alike (f := Arith.add) (g := Arith.add) (fun _ _ h _ _ h' => hk.num_of_flt (hk.add_right (hk.value_of_num h) h')) hab hpq)

theorem xgb_alike (hk : k.Sound) {m : Xgb F (PVal F)} {n : Xgb G (PVal G)} (h1 : n.objective = m.objective)
    (h2 : List.Forall₂ (LabelsAlike k) m.classes n.classes) (h3 : n.nClasses = m.nClasses) (h4 : n.nEstimators = m.nEstimators)
    (h5 : BoostersAlike k m.trees n.trees) {X : Arr F} {Y : Arr G} (hX : ArraysAlike k X Y) :
    Par (List.Forall₂ (LabelsAlike k)) (m.predict X) (n.predict Y) ∧ Par (MatAlike k) (m.predictProba X) (n.predictProba Y) := by
  have hp : Par (MatAlike k) (m.predictProba X) (n.predictProba Y) := by
    unfold Xgb.predictProba
    refine (checkArray_alike hX _).bind fun X Y hX => ?_
    rw [h1]
    cases m.objective with
    | multiSoftprob =>
      refine Par.bind (R := NumMat k) ?_ fun ps qs hpq => ?_
      · unfold Xgb.predict_
        rw [h3, h4]
        refine range_alike _ fun c => ?_
        refine (len_alike hX).bind fun l _ e => ?_
        cases e
        refine foldlM_alike (S := Eq) (fun a b hab e _ he => ?_) (forall₂_same (fun _ => rfl) _) (replicate_alike l hk.zero)
        cases he
        revert h5
        generalize m.trees = ts
        generalize n.trees = us
        intro h5
        cases h5 with
        | binary h => exact (pyGet_alike h _).bind fun _ _ _ => .fail
        | multi h => exact (pyGet_alike h _).bind fun r s hrs => (pyGet_alike hrs _).bind fun t u htu => addTree_alike hk hX hab htu
      · refine (len_alike hX).bind fun l _ e => ?_
        cases e
        refine range_alike l fun i => ?_
        rw [h3]
        refine Par.bind (R := List.Forall₂ k.num) (range_alike _ fun j => ?_) fun a b hab => sfmax_alike hk hab
        exact (pyGet_alike hpq j).bind fun r s hrs => pyGet_alike hrs i
    | binaryLogistic =>
      refine Par.bind (R := List.Forall₂ k.num) ?_ fun ps qs hpq => ?_
      · unfold Xgb.predictBinary
        refine (len_alike hX).bind fun l _ e => ?_
        cases e
        revert h5
        generalize m.trees = ts
        generalize n.trees = us
        intro h5
        cases h5 with
        | binary h =>
          exact foldlM_alike (f := Xgb.addTree X) (g := Xgb.addTree Y) (R := List.Forall₂ k.num) (S := TreesAlike k)
            (fun a b hab t u htu => addTree_alike hk hX hab htu) h (replicate_alike l hk.zero)
        | multi h =>
          cases h with
          | nil => exact .done (replicate_alike l hk.zero)
          | cons _ _ => exact .fail
      · refine (Par.mapM hpq fun _ _ h => expit_alike hk h).bind fun u v huv => .done ?_
        exact moved_map huv fun a b hab => .cons (hk.sub_right (hk.value_of_num hk.one) hab) (.cons hab .nil)
  refine ⟨?_, hp⟩
  unfold Xgb.predict
  refine hp.bind fun u v huv => Par.mapM huv fun a b hab => ?_
  refine (argmax_alike hk (forall₂_mono (fun _ _ h => hk.num_of_flt h) hab)).bind fun i _ e => ?_
  cases e
  exact pyGet_alike h2 _

/-! ### Missing values -/

theorem toImpute_alike (hk : k.Sound) {a c : F} {b d : G} (h : k.num a b) (h' : k.num c d) : toImpute a c = toImpute b d := by
  unfold toImpute
  rw [hk.isnan h', hk.isnan h, hk.eq h h']

theorem ofBool_alike (hk : k.Sound) (b : Bool) : k.num (ofBool b : F) (ofBool b : G) := by
  cases b
  · exact hk.zero
  · exact hk.one

theorem indicator_alike (hk : k.Sound) {m : MissingIndicator F} {n : MissingIndicator G} (h : IndicatorsAlike k m n) {X : Arr F} {Y : Arr G}
    (hX : ArraysAlike k X Y) : Par (NumMat k) (m.transform X) (n.transform Y) := by
  unfold MissingIndicator.transform
  refine (checkDense_alike hX).bind fun X Y ⟨hX, hd⟩ => ?_
  refine (width_alike hX).bind fun w _ e => ?_
  cases e
  rw [h.nFeatures, h.missingOnly, h.features, h.errorOnNew]
  split
  · exact .fail
  · refine Par.bind (R := Eq) ?_ fun p _ e => ?_
    · unfold MissingIndicator.info
      rw [← issparse_alike hX, hd]
      simp only [Bool.false_eq_true, if_false]
      refine (rows_dense_alike hX hd).bind fun rs ss hrs => ?_
      refine Par.bind (R := Eq) ?_ fun mask _ e => ?_
      · refine (Par.mapM (S := Eq) hrs fun r s hr => ?_).mono fun x y h => ?_
        · unfold maskRow
          exact (iter_alike hr).bind fun x y hxy => .done (forall₂_mem_eq hxy fun a b hab => toImpute_alike hk hab h.missing)
        · induction h with
          | nil => rfl
          | cons h _ ih => rw [h, ih]
      · cases e
        rw [h.missingOnly]
        split
        · exact .done rfl
        · refine (width_alike hX).bind fun w _ e => ?_
          cases e
          exact par_self _
    · cases e
      obtain ⟨mask, feats⟩ := p
      have all : NumMat k (mask.map fun a => a.map ofBool) (mask.map fun a => a.map ofBool) :=
        moved_map (forall₂_same (R := Eq) (fun _ => rfl) mask) fun a _ e => by
          cases e
          exact moved_map (forall₂_same (R := Eq) (fun _ => rfl) a) fun b _ e => by cases e; exact ofBool_alike hk b
      simp only
      split
      · split
        · exact .fail
        · split
          · refine .done (moved_map (forall₂_same (R := Eq) (fun _ => rfl) mask) fun a _ e => ?_)
            cases e
            exact moved_map (forall₂_same (R := Eq) (fun _ => rfl) _) fun b _ e => by cases e; exact ofBool_alike hk _
          · exact .done all
      · exact .done all

theorem dropIdx_alike {α β : Type} {R : α → β → Prop} (is : List Nat) {l : List α} {l' : List β} (h : List.Forall₂ R l l') :
    List.Forall₂ R (dropIdx is l) (dropIdx is l') := by
  unfold dropIdx
  exact moved_map (filter_alike (fun p q hpq => by rw [hpq.2]) (zipIdx_alike h 0)) fun p q hpq => hpq.1

theorem imputer_alike (hk : k.Sound) {s : SimpleImputer F} {t : SimpleImputer G} (h1 : VecAlike k s.statistics t.statistics)
    (h2 : t.constant = s.constant) (h3 : t.addIndicator = s.addIndicator) (h4 : k.num s.missing t.missing)
    (h5 : Option.Rel (IndicatorsAlike k) s.indicator t.indicator) {X : Arr F} {Y : Arr G} (hX : ArraysAlike k X Y) :
    Par (ArraysAlike k) (s.transform X) (t.transform Y) := by
  unfold SimpleImputer.transform
  refine (checkDense_alike hX).bind fun X Y ⟨hX, hd⟩ => ?_
  refine Par.bind (R := Option.Rel (NumMat k)) ?_ fun ind ind' hi => ?_
  · unfold SimpleImputer.transformIndicator
    rw [h3]
    split
    · revert h5
      generalize s.indicator = i
      generalize t.indicator = j
      intro h5
      cases h5 with
      | none => exact .fail
      | some h => exact (indicator_alike hk h hX).bind fun _ _ h => .done (.some h)
    · exact .done .none
  refine (width_alike hX).bind fun w _ e => ?_
  cases e
  have hemp : s.statistics.isEmpty = t.statistics.isEmpty := by
    rw [Bool.eq_iff_iff, List.isEmpty_iff_length_eq_zero, List.isEmpty_iff_length_eq_zero, h1.length_eq]
  have hrem : (s.statistics.zipIdx.filter fun p => Arith.isnan p.1).map (·.2) = (t.statistics.zipIdx.filter fun p => Arith.isnan p.1).map (·.2) :=
    forall₂_mem_eq (filter_alike (fun p q hpq => hk.isnan (hk.num_of_flt hpq.1)) (zipIdx_alike h1 0)) fun p q hpq => hpq.2
  rw [hemp, h1.length_eq, h2, h3, hrem]
  split
  · exact .fail
  split
  · exact .fail
  generalize (if s.constant = true then [] else (t.statistics.zipIdx.filter fun p => Arith.isnan p.1).map (·.2)) = rem
  refine (rows_alike hX).bind fun rs ss hrs => ?_
  refine Par.bind (R := NumMat k) (Par.mapM hrs fun r s hr => ?_) fun A B hAB => ?_
  · unfold Row.elems
    rw [rowLen_alike hr]
    refine (par_self _).bind fun n _ e => ?_
    cases e
    exact range_alike n fun i => getItem_alike hr i
  have hA : NumMat k (if rem.isEmpty then A else A.map (dropIdx rem)) (if rem.isEmpty then B else B.map (dropIdx rem)) := by
    split
    · exact hAB
    · exact moved_map hAB fun _ _ h => dropIdx_alike rem h
  have hS : VecAlike k (if rem.isEmpty then s.statistics else dropIdx rem s.statistics) (if rem.isEmpty then t.statistics else dropIdx rem t.statistics) := by
    split
    · exact h1
    · exact dropIdx_alike rem h1
  refine Par.bind (R := NumMat k) (Par.mapM hA fun x y hxy => ?_) fun C D hCD => ?_
  · unfold imputeRow
    refine Par.mapM (zipIdx_alike hxy 0) fun p q hpq => ?_
    rw [toImpute_alike hk hpq.1 h4, hpq.2]
    split
    · exact .done hpq.1
    · exact (pyGet_alike hS _).mono fun _ _ h => hk.num_of_flt h
  split
  · exact .done (ofMat_alike hCD)
  · cases hi with
    | none => exact .fail
    | some hi =>
      refine (Par.mapM (S := List.Forall₂ k.num) (zipIdx_alike hCD 0) fun p q hpq => ?_).bind fun u v huv => .done (ofMat_alike huv)
      rw [hpq.2]
      exact (pyGet_alike hi _).bind fun u v huv => .done (append_alike hpq.1 huv)

/-! ### Scalers -/

theorem scaleDicts_alike (hk : k.Sound) {p : Option (List F)} {q : Option (List G)} (h : Option.Rel (VecAlike k) p q) {rs : List (Dict Int F)}
    {ss : List (Dict Int G)} (hr : List.Forall₂ (List.Forall₂ (EntryAlike k.num)) rs ss) :
    Par (List.Forall₂ (List.Forall₂ (EntryAlike k.num))) (scaleDicts p rs) (scaleDicts q ss) := by
  unfold scaleDicts
  refine Par.mapM hr fun x y hxy => Par.mapM hxy fun a b hab => ?_
  rw [← hab.1]
  exact (notNone_alike h).bind fun u v huv => (pyGet_alike huv _).bind fun c d hcd =>
    (hk.div_right (hk.value_of_num hab.2) hcd).bind fun e f hef => .done ⟨rfl, hk.num_of_flt hef⟩

theorem columnwise_alike (hk : k.Sound) {p : List F} {q : List G} (h : VecAlike k p q) {f : F → F → Py F} {g : G → G → Py G}
    (hfg : ∀ a b, k.num a b → ∀ c d, k.flt c d → Par k.flt (f a c) (g b d)) {rs : List (Row F)} {ss : List (Row G)}
    (hr : List.Forall₂ (RowLike k) rs ss) : Par (List.Forall₂ (RowsAlike k)) (columnwise p f rs) (columnwise q g ss) := by
  unfold columnwise
  refine Par.mapM hr fun r s hr => ?_
  rw [h.length_eq]
  refine Par.bind (R := VecAlike k) (range_alike _ fun i => ?_) fun u v huv => .done (.list (forall₂_mono (fun _ _ h => hk.num_of_flt h) huv))
  exact (getItem_alike hr i).bind fun a b hab => (pyGet_alike h i).bind fun c d hcd => hfg a b hab c d hcd

theorem standard_alike (hk : k.Sound) {s : StandardScaler F} {t : StandardScaler G} (h1 : t.withMean = s.withMean) (h2 : t.withStd = s.withStd)
    (h3 : Option.Rel (VecAlike k) s.scale t.scale) (h4 : Option.Rel (VecAlike k) s.mean t.mean) {X : Arr F} {Y : Arr G} (hX : ArraysAlike k X Y) :
    Par (ArraysAlike k) (s.transform X) (t.transform Y) := by
  unfold StandardScaler.transform
  refine (checkArray_alike hX _).bind fun X Y hX => ?_
  rw [h1, h2]
  cases hX with
  | sparse h =>
    simp only
    split
    · exact .fail
    · revert h3
      generalize s.scale = p
      generalize t.scale = q
      intro h3
      cases h3 with
      | none => exact .done (.sparse h)
      | some h3 => exact (scaleDicts_alike hk (.some h3) h).bind fun u v huv => sparseDicts_alike huv _ _ _
  | errObj =>
    simp only
    split
    · exact .fail
    · exact .done .errObj
  | other => exact .fail
  | list h =>
    simp only [Arr.rows, py_ok_bind]
    have last : ∀ {rs : List (Row F)} {ss : List (Row G)}, List.Forall₂ (RowsAlike k) rs ss → Par (ArraysAlike k)
        (if s.withStd then notNone s.scale >>= fun sc => columnwise sc Arith.div rs >>= fun rs => pure (Arr.list rs) else pure rs >>= fun rs => pure (Arr.list rs))
        (if s.withStd then notNone t.scale >>= fun sc => columnwise sc Arith.div ss >>= fun rs => pure (Arr.list rs)
          else pure ss >>= fun rs => pure (Arr.list rs)) := by
      intro rs ss hrs
      split
      · exact (notNone_alike h3).bind fun u v huv => (columnwise_alike hk huv (fun a b hab c d hcd => hk.div_right (hk.value_of_num hab) hcd)
          (forall₂_mono (fun _ _ h => h.like) hrs)).bind fun _ _ h => .done (.list h)
      · exact .done (.list hrs)
    split
    · exact (notNone_alike h4).bind fun u v huv =>
        (columnwise_alike hk huv (fun a b hab c d hcd => .done (hk.sub_right (hk.value_of_num hab) hcd))
          (forall₂_mono (fun _ _ h => h.like) h)).bind fun _ _ h => last h
    · exact last h

theorem minMax_alike (hk : k.Sound) {s : MinMaxScaler F} {t : MinMaxScaler G} (h1 : Option.Rel (VecAlike k) s.scale t.scale)
    (h2 : Option.Rel (VecAlike k) s.min t.min) {X : Arr F} {Y : Arr G} (hX : ArraysAlike k X Y) : Par (ArraysAlike k) (s.transform X) (t.transform Y) := by
  unfold MinMaxScaler.transform
  rw [issparse_alike hX]
  split
  · exact .fail
  · refine (checkArray_alike hX _).bind fun X Y hX => (rows_alike hX).bind fun rs ss hrs => ?_
    refine Par.bind (R := NumMat k) (Par.mapM hrs fun r s hr => ?_) fun A B hAB => .done (ofMat_alike hAB)
    refine (notNone_alike h1).bind fun sc sc' hsc => ?_
    rw [hsc.length_eq]
    refine range_alike _ fun i => ?_
    refine (getItem_alike hr i).bind fun a b hab => (pyGet_alike hsc i).bind fun c d hcd => ?_
    exact (notNone_alike h2).bind fun m m' hm => (pyGet_alike hm i).bind fun e f hef =>
      .done (hk.num_of_flt (hk.add_right (hk.value_of_flt (hk.mul_right (hk.value_of_num hab) hcd)) hef))

theorem maxAbs_alike (hk : k.Sound) {s : MaxAbsScaler F} {t : MaxAbsScaler G} (h1 : Option.Rel (VecAlike k) s.scale t.scale) {X : Arr F} {Y : Arr G}
    (hX : ArraysAlike k X Y) : Par (ArraysAlike k) (s.transform X) (t.transform Y) := by
  unfold MaxAbsScaler.transform
  refine (checkArray_alike hX _).bind fun X Y hX => ?_
  have dense : ∀ {X : Arr F} {Y : Arr G}, ArraysAlike k X Y → Par (ArraysAlike k) (do return .list (← columnwise (← notNone s.scale) Arith.div (← X.rows)))
      (do return .list (← columnwise (← notNone t.scale) Arith.div (← Y.rows))) := by
    intro X Y hX
    refine (notNone_alike h1).bind fun u v huv => (rows_alike hX).bind fun rs ss hrs => ?_
    exact (columnwise_alike hk huv (fun a b hab c d hcd => hk.div_right (hk.value_of_num hab) hcd) hrs).bind fun _ _ h => .done (.list h)
  cases hX with
  | sparse h => exact (scaleDicts_alike hk h1 h).bind fun u v huv => sparseDicts_alike huv _ _ _
  | list h => exact dense (.list h)
  | errObj => exact dense .errObj
  | other => exact dense .other

/-! ### Normalizers -/

theorem sums_alike (hk : k.Sound) (hc : k.Closed) {l : List F} {l' : List G} (h : List.Forall₂ k.num l l') : k.num (pySum l) (pySum l') := by
  unfold pySum
  have : ∀ {a : F} {b : G}, k.num a b → k.num (l.foldl Arith.add a) (l'.foldl Arith.add b) := by
    induction h with
    | nil => exact fun h => h
    | cons h _ ih => exact fun hab => ih (hc.add hab h)
  exact this hk.zero

theorem values_alike {V : F → G → Prop} {x : Dict Int F} {y : Dict Int G} (h : List.Forall₂ (EntryAlike V) x y) : List.Forall₂ V x.values y.values :=
  moved_map h fun _ _ h => h.2

theorem mulDicts_alike (hc : k.Closed) {x x' : Dict Int F} {y y' : Dict Int G} (h : List.Forall₂ (EntryAlike k.num) x y)
    (h' : List.Forall₂ (EntryAlike k.num) x' y') : List.Forall₂ (EntryAlike k.num) (mulDicts x x') (mulDicts y y') := by
  unfold mulDicts
  refine dictOfList_alike ?_
  rw [List.flatMap_def, List.flatMap_def]
  refine flatten_alike (moved_map h fun p q hpq => ?_)
  exact moved_map (filter_alike (fun a b hab => by rw [hab.1, hpq.1]) h') fun a b hab => ⟨hab.1, hc.mul hpq.2 hab.2⟩

theorem squares_alike (hc : k.Closed) {X : Arr F} {Y : Arr G} (h : ArraysAlike k X Y) :
    Par (ArraysAlike k) (matmultSameDim X X) (matmultSameDim Y Y) := by
  unfold matmultSameDim
  refine (shape_alike h).bind fun s _ e => ?_
  cases e
  refine (shape_alike h).bind fun t _ e => ?_
  cases e
  simp only [bne_self_eq_false, Bool.false_eq_true, if_false]
  split
  · exact .fail
  · have dense : ∀ {X : Arr F} {Y : Arr G}, ArraysAlike k X Y → ∀ w, Par (ArraysAlike k)
        (do let rs ← (List.zip (← X.rows) (← X.rows)).mapM fun p => mulRows w p.1 p.2
            return .ofMat rs)
        (do let rs ← (List.zip (← Y.rows) (← Y.rows)).mapM fun p => mulRows w p.1 p.2
            return .ofMat rs) := by
      intro X Y h w
      refine (rows_alike h).bind fun rs ss hrs => (rows_alike h).bind fun rs' ss' hrs' => ?_
      refine Par.bind (R := NumMat k) (Par.mapM (zip_alike (R := RowLike k) (S := RowLike k) hrs hrs') fun p q hpq => ?_) fun _ _ h => .done (ofMat_alike h)
      unfold mulRows
      exact range_alike w fun j => (getItem_alike hpq.1 j).bind fun a b hab => (getItem_alike hpq.2 j).bind fun c d hcd => .done (hc.mul hab hcd)
    cases h with
    | sparse h => exact sparseDicts_alike (zipWith_alike (f := mulDicts) (g := mulDicts) (fun _ _ h _ _ h' => mulDicts_alike hc h h') h h) _ _ _
    | list h =>
      cases s with
      | d1 _ => exact .fail
      | d2 n w =>
        cases w with
        | none => exact .fail
        | some w => exact dense (.list h) w
    | errObj =>
      cases s with
      | d1 _ => exact .fail
      | d2 n w =>
        cases w with
        | none => exact .fail
        | some w => exact dense .errObj w
    | other =>
      cases s with
      | d1 _ => exact .fail
      | d2 n w =>
        cases w with
        | none => exact .fail
        | some w => exact dense .other w

theorem applyRows_alike {α β : Type} {U : α → β → Prop} {f : List F → Py α} {g : List G → Py β}
    (hfg : ∀ x y, List.Forall₂ k.num x y → Par U (f x) (g y)) {X : Arr F} {Y : Arr G} (h : ArraysAlike k X Y) :
    Par (List.Forall₂ U) (applyAxis2d X f) (applyAxis2d Y g) := by
  unfold applyAxis2d
  simp only [show ((1 : Int) == 0) = false from rfl, Bool.and_false, Bool.false_eq_true, if_false, beq_self_eq_true, if_true]
  cases h with
  | sparse h => exact Par.mapM h fun x y hxy => hfg _ _ (values_alike hxy)
  | list h => exact Par.mapM h fun r s hrs => (iter_alike hrs).bind hfg
  | errObj => exact .fail
  | other => exact .fail

theorem rowNorms_alike (hk : k.Sound) (hc : k.Closed) {X : Arr F} {Y : Arr G} (h : ArraysAlike k X Y) :
    Par (List.Forall₂ k.num) (rowNorms X) (rowNorms Y) := by
  unfold rowNorms
  refine (squares_alike hc h).bind fun A B hAB => ?_
  have roots : ∀ {x : List F} {y : List G}, List.Forall₂ k.num x y → Par (List.Forall₂ k.num) (x.mapM Arith.sqrt) (y.mapM Arith.sqrt) :=
    fun h => Par.mapM h fun _ _ h => (hk.sqrt h).mono fun _ _ h => hk.num_of_flt h
  have axis : ∀ {A : Arr F} {B : Arr G}, ArraysAlike k A B → Par (List.Forall₂ k.num)
      (applyAxis2d A (fun a => .ok (pySum a)) >>= fun x => x.mapM Arith.sqrt) (applyAxis2d B (fun a => .ok (pySum a)) >>= fun x => x.mapM Arith.sqrt) :=
    fun h => (applyRows_alike (U := k.num) (fun _ _ h => .done (sums_alike hk hc h)) h).bind fun _ _ h => roots h
  cases hAB with
  | sparse h => exact roots (moved_map h fun _ _ h => sums_alike hk hc (values_alike h))
  | list h => exact axis (.list h)
  | errObj => exact axis .errObj
  | other => exact axis .other

theorem handleZeros_alike (hk : k.Sound) {x : List F} {y : List G} (h : List.Forall₂ k.num x y) : List.Forall₂ k.num (handleZeros x) (handleZeros y) := by
  unfold handleZeros
  refine moved_map h fun a b hab => ?_
  rw [hk.eq hab hk.zero]
  split
  · exact hk.one
  · exact hab

theorem denseNorms_alike (hk : k.Sound) (hc : k.Closed) (n : Norm) {X : Arr F} {Y : Arr G} (h : ArraysAlike k X Y) :
    Par (List.Forall₂ k.num) (denseNorms n X) (denseNorms n Y) := by
  unfold denseNorms
  cases n with
  | l1 =>
    refine Par.bind (R := NumMat k) ?_ fun A B hAB => applyRows_alike (U := k.num) (fun _ _ h => .done (sums_alike hk hc h)) (ofMat_alike hAB)
    unfold apply2d
    rw [← issparse_alike h]
    split
    · exact .fail
    · rename_i hs
      refine (rows_dense_alike h (by simpa using hs)).bind fun rs ss hrs => Par.mapM hrs fun r s hr => (iter_alike hr).bind fun x y hxy =>
        Par.mapM hxy fun a b hab => .done (hc.abs hab)
  | l2 => exact rowNorms_alike hk hc h
  | max => exact applyRows_alike (fun _ _ h => pyMax_alike hk h) h
  | bad => exact .fail

theorem normalizeRows_alike (hk : k.Sound) (hc : k.Closed) (n : Norm) {X : Arr F} {Y : Arr G} (h : ArraysAlike k X Y) :
    Par (fun p q => ArraysAlike k p.1 q.1) (normalizeRows X n) (normalizeRows Y n) := by
  have dense : ∀ {X : Arr F} {Y : Arr G}, ArraysAlike k X Y → X.issparse = false → Par (fun p q => ArraysAlike k p.1 q.1)
      (do
        let norms := handleZeros (← denseNorms n X)
        let rs' ← (List.zip (← X.rows) norms).mapM fun p => do
          (← p.1.iter).mapM fun a => a /ₚ p.2
        return (Arr.ofMat rs', norms))
      (do
        let norms := handleZeros (← denseNorms n Y)
        let rs' ← (List.zip (← Y.rows) norms).mapM fun p => do
          (← p.1.iter).mapM fun a => a /ₚ p.2
        return (Arr.ofMat rs', norms)) := by
    intro X Y h hs
    refine (denseNorms_alike hk hc n h).bind fun a b hab => (rows_dense_alike h hs).bind fun rs ss hrs => ?_
    refine Par.bind (R := NumMat k) (Par.mapM (zip_alike (R := RowsAlike k) (S := k.num) hrs (handleZeros_alike hk hab)) fun p q hpq => ?_)
      fun _ _ h => .done (ofMat_alike h)
    exact (iter_alike hpq.1).bind fun x y hxy => Par.mapM hxy fun a b hab => hc.div hab hpq.2
  cases h with
  | sparse h =>
    unfold normalizeRows
    refine Par.bind (R := List.Forall₂ k.num) ?_ fun a b hab => ?_
    · unfold sparseNorms
      cases n with
      | l1 => exact .done (moved_map h fun x y hxy => sums_alike hk hc (moved_map (values_alike hxy) fun _ _ h => hc.abs h))
      | l2 => exact rowNorms_alike hk hc (.sparse h)
      | max => exact Par.mapM h fun x y hxy => pyMax_alike hk (append_alike (values_alike hxy) (.cons hk.zero .nil))
      | bad => exact .fail
    · refine Par.bind (R := List.Forall₂ (List.Forall₂ (EntryAlike k.num)))
        (Par.mapM (zip_alike (R := List.Forall₂ (EntryAlike k.num)) (S := k.num) h (handleZeros_alike hk hab)) fun p q hpq => ?_) fun u v huv => ?_
      · exact Par.mapM hpq.1 fun c d hcd => (hc.div hcd.2 hpq.2).bind fun x y hxy => .done ⟨hcd.1, hxy⟩
      · exact (sparseDicts_alike huv _ _ _).bind fun _ _ h => .done h
  | list h => exact dense (.list h) rfl
  | errObj => exact dense .errObj rfl
  | other => exact dense .other rfl

theorem normalizer_alike (hk : k.Sound) (hc : k.Closed) (n : Norm) {X : Arr F} {Y : Arr G} (h : ArraysAlike k X Y) :
    Par (ArraysAlike k) (normalizerTransform n X) (normalizerTransform n Y) := by
  unfold normalizerTransform normalizePure normalizePure'
  refine (checkArray_alike h _).bind fun X Y h => ?_
  simp only [show ((1 : Int) == 0) = false from rfl, Bool.false_and, Bool.false_eq_true, if_false, beq_self_eq_true, Bool.or_true, Bool.not_true,
    Bool.and_false]
  refine Par.bind (R := fun p q => ArraysAlike k p.1 q.1) ?_ fun _ _ h => .done h
  split
  · exact .fail
  · refine (checkArray_alike h _).bind fun X Y h => ?_
    simp only [py_pure, py_ok_bind]
    exact (normalizeRows_alike hk hc n h).bind fun _ _ h => .done h

/-! ### Method tables -/

theorem onArr_alike {α β : Type} {A : α → β → Prop} {f : Arr F → Py α} {g : Arr G → Py β} (h : ∀ X Y, ArraysAlike k X Y → Par A (f X) (g Y)) :
    ∀ X Y, RequestsAlike k X Y → Par A (Data.onArr f X) (Data.onArr g Y) := by
  intro X Y hXY
  cases hXY with
  | arr hX => exact h _ _ hX
  | docs => exact .fail
  | table => exact .fail

theorem classifier_alike {p : Arr F → Py (List (PVal F))} {pp pl : Arr F → Py (List (List F))} {q : Arr G → Py (List (PVal G))} {qq ql : Arr G → Py (List (List G))}
    (h : ∀ X Y, ArraysAlike k X Y → Par (List.Forall₂ (LabelsAlike k)) (p X) (q Y) ∧ Par (MatAlike k) (pp X) (qq Y) ∧ Par (MatAlike k) (pl X) (ql Y)) :
    MethodsAlike k (classifier p pp pl) (classifier q qq ql) :=
  ⟨.none, .some (onArr_alike fun X Y hX => (h X Y hX).1), .some (onArr_alike fun X Y hX => (h X Y hX).2.1), .some (onArr_alike fun X Y hX => (h X Y hX).2.2)⟩

theorem predictor_alike {p : Arr F → Py (List (PVal F))} {q : Arr G → Py (List (PVal G))}
    (h : ∀ X Y, ArraysAlike k X Y → Par (List.Forall₂ (LabelsAlike k)) (p X) (q Y)) : MethodsAlike k (predictor p) (predictor q) :=
  ⟨.none, .some (onArr_alike h), .none, .none⟩

theorem transformer_alike {p : Arr F → Py (Arr F)} {q : Arr G → Py (Arr G)} (h : ∀ X Y, ArraysAlike k X Y → Par (ArraysAlike k) (p X) (q Y)) :
    MethodsAlike k (transformer (Data.onArr p)) (transformer (Data.onArr q)) :=
  ⟨.some fun X Y hXY => (onArr_alike h X Y hXY).bind fun _ _ h => .done (.arr h), .none, .none, .none⟩

theorem single_alike (hk : k.Sound) {s : Single F} {t : Single G} (h : SingleAlike k s t) (lib : String → TextLib) (encode : Str → List Nat) :
    MethodsAlike k (s.est lib encode) (t.est lib encode) := by
  cases h with
  | @linear j m n h1 h2 h3 h4 h5 h6 =>
    have h : LinearsAlike k m n := ⟨h1, h2, h3, h4, h5, h6⟩
    cases j with
    | logistic => exact classifier_alike fun X Y hX =>
        ⟨LinearAlike.predict hk h hX, LinearAlike.predictProba hk h hX, LinearAlike.predictLogProba hk h hX⟩
    | sgd =>
      show MethodsAlike k (LinKind.est .sgd m) (LinKind.est .sgd n)
      unfold LinKind.est
      simp only
      rw [LinearAlike.checkProba h]
      cases n.checkProba with
      | ok _ => exact classifier_alike fun X Y hX => ⟨LinearAlike.predict hk h hX, LinearAlike.sgdProba hk h hX, LinearAlike.sgdLogProba hk h hX⟩
      | error _ => exact predictor_alike fun X Y hX => LinearAlike.predict hk h hX
    | plain => exact predictor_alike fun X Y hX => LinearAlike.predict hk h hX
  | treeClassifier h => exact classifier_alike fun X Y hX => ⟨TreeAlike.predict hk h hX, TreeAlike.predictProba hk h hX, TreeAlike.predictLogProba hk h hX⟩
  | treeRegressor h => exact predictor_alike fun X Y hX => (TreeAlike.predictReg hk h hX).bind fun _ _ h => .done (moved_map h fun _ _ h => .float h)
  | gaussianNB h1 h2 h3 h4 =>
    exact classifier_alike fun X Y hX =>
      nb_alike hk (fun X Y hX => (gaussJll_alike hk h1 h2 h3 h4 hX).mono fun _ _ h => numMat hk h) h2 hX
  | multinomialNB h1 h2 h3 => exact classifier_alike fun X Y hX => nb_alike hk (fun X Y hX => multiJll_alike hk h1 h2 h3 hX) h2 hX
  | complementNB h1 h2 h3 => exact classifier_alike fun X Y hX => nb_alike hk (fun X Y hX => complJll_alike hk h1 h2 h3 hX) h2 hX
  | @dummy d e h hi =>
    refine classifier_alike fun X Y hX => ?_
    obtain ⟨-, h2, h3⟩ := dummy_alike hk h hX
    refine ⟨?_, h2, h3⟩
    unfold Dummy.predict
    have hlt : ∀ i, argmax d.classPrior = .ok i → i < d.classPrior.length := fun i => argmax_lt
    have ha := argmax_alike hk (forall₂_mono (fun _ _ h => hk.num_of_flt h) h)
    revert ha hlt
    generalize argmax d.classPrior = p
    generalize argmax e.classPrior = q
    intro hlt ha
    cases ha with
    | fail => exact .fail
    | @done i _ e =>
      cases e
      simp only [py_ok_bind]
      have hl := len_alike hX
      revert hl
      generalize X.len = a
      generalize Y.len = b
      intro hl
      cases hl with
      | fail => exact .fail
      | @done n _ e =>
        cases e
        simp only [py_ok_bind, py_pure, List.map_replicate]
        exact .done (replicate_alike n (.int (by simpa using hi i (hlt i rfl))))
  | xgb h1 h2 h3 h4 h5 => exact ⟨.none, .some (onArr_alike fun X Y hX => (xgb_alike hk h1 h2 h3 h4 h5 hX).1),
      .some (onArr_alike fun X Y hX => (xgb_alike hk h1 h2 h3 h4 h5 hX).2), .none⟩
  | imputer h1 h2 h3 h4 h5 => exact transformer_alike fun X Y hX => imputer_alike hk h1 h2 h3 h4 h5 hX
  | indicator h => exact transformer_alike fun X Y hX => (indicator_alike hk h hX).bind fun _ _ h => .done (ofMat_alike h)
  | standard h1 h2 h3 h4 => exact transformer_alike fun X Y hX => standard_alike hk h1 h2 h3 h4 hX
  | minMax h1 h2 => exact transformer_alike fun X Y hX => minMax_alike hk h1 h2 hX
  | maxAbs h1 => exact transformer_alike fun X Y hX => maxAbs_alike hk h1 hX
  | normalizer hc => exact transformer_alike fun X Y hX => normalizer_alike hk hc _ hX

end PurePredict
