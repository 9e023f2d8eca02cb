import Verif.Lemmas.Gauge
import Verif.Lemmas.AlikeBase
/-
Single estimators with offsets and factors that cancel.
-/
namespace PurePredict.Gauge
open Spec
variable {lib : String → TextLib} {encode : Str → List Nat} {P : Data Ex → Prop}

/-! ### Methods on some requests -/

section
variable {F : Type} {P : Data F → Prop}

theorem sameOn_none {β : Type} : SameOn P (none : Option (Data F → Py β)) none := ⟨fun _ h => (nomatch h), fun _ => rfl⟩

theorem sameOn_some {β : Type} {t u : Data F → Py β} (h : ∀ X, P X → Alongside Eq (t X) (u X)) : SameOn P (some t) (some u) :=
  ⟨fun _ e => ⟨_, rfl, by cases e; exact h⟩, fun e => nomatch e⟩

theorem sameOn_refl {β : Type} (p : Option (Data F → Py β)) : SameOn P p p := by
  cases p with
  | none => exact sameOn_none
  | some t => exact sameOn_some fun X _ => .same _

theorem sameOn_trans {β : Type} {p q r : Option (Data F → Py β)} (h : SameOn P p q) (h' : SameOn P q r) : SameOn P p r := by
  refine ⟨fun t ht => ?_, fun e => h'.2 (h.2 e)⟩
  obtain ⟨u, hu, h1⟩ := h.1 t ht
  obtain ⟨v, hv, h2⟩ := h'.1 u hu
  exact ⟨v, hv, fun X hX => (h1 X hX).trans (h2 X hX)⟩

theorem sameOn_fewer {β : Type} {Q : Data F → Prop} (hQ : ∀ X, Q X → P X) {p q : Option (Data F → Py β)} (h : SameOn P p q) : SameOn Q p q := by
  refine ⟨fun t ht => ?_, h.2⟩
  obtain ⟨u, hu, h1⟩ := h.1 t ht
  exact ⟨u, hu, fun X hX => h1 X (hQ X hX)⟩

theorem agreeFor_refl (f : Methods F) : AgreeFor P f f := ⟨sameOn_refl _, sameOn_refl _, sameOn_refl _, sameOn_refl _⟩

theorem agreeFor_trans {f g h : Methods F} (h1 : AgreeFor P f g) (h2 : AgreeFor P g h) : AgreeFor P f h :=
  ⟨sameOn_trans h1.1 h2.1, sameOn_trans h1.2.1 h2.2.1, sameOn_trans h1.2.2.1 h2.2.2.1, sameOn_trans h1.2.2.2 h2.2.2.2⟩

theorem agreeFor_fewer {Q : Data F → Prop} (hQ : ∀ X, Q X → P X) {f g : Methods F} (h : AgreeFor P f g) : AgreeFor Q f g :=
  ⟨sameOn_fewer hQ h.1, sameOn_fewer hQ h.2.1, sameOn_fewer hQ h.2.2.1, sameOn_fewer hQ h.2.2.2⟩

theorem onArr_for {β : Type} {p p' : Arr F → Py β} (h : ∀ X, P (.arr X) → Alongside Eq (p X) (p' X)) (X : Data F) (hX : P X) :
    Alongside Eq (Data.onArr p X) (Data.onArr p' X) := by
  cases X <;> first | exact h _ hX | exact .same _

theorem classifier_for {p p' : Arr F → Py (List (PVal F))} {pp pp' pl pl' : Arr F → Py (List (List F))}
    (h : ∀ X, P (.arr X) → Alongside Eq (p X) (p' X)) (h1 : ∀ X, P (.arr X) → Alongside Eq (pp X) (pp' X)) (h2 : ∀ X, P (.arr X) → Alongside Eq (pl X) (pl' X)) :
    AgreeFor P (classifier p pp pl) (classifier p' pp' pl') :=
  ⟨sameOn_none, sameOn_some (onArr_for h), sameOn_some (onArr_for h1), sameOn_some (onArr_for h2)⟩

theorem predictor_for {p p' : Arr F → Py (List (PVal F))} (h : ∀ X, P (.arr X) → Alongside Eq (p X) (p' X)) :
    AgreeFor P (predictor p) (predictor p') := ⟨sameOn_none, sameOn_some (onArr_for h), sameOn_none, sameOn_none⟩

theorem probabilist_for {p p' : Arr F → Py (List (PVal F))} {pp pp' : Arr F → Py (List (List F))}
    (h : ∀ X, P (.arr X) → Alongside Eq (p X) (p' X)) (h1 : ∀ X, P (.arr X) → Alongside Eq (pp X) (pp' X)) :
    AgreeFor P (probabilist p pp) (probabilist p' pp') := ⟨sameOn_none, sameOn_some (onArr_for h), sameOn_some (onArr_for h1), sameOn_none⟩

end

/-! ### Linear classifiers -/

theorem alongEq {α : Type} {l l' : Py (List α)} (h : Alongside (List.Forall₂ Eq) l l') : Alongside Eq l l' :=
  h.mono fun _ _ h => List.forall₂_eq_eq_eq ▸ h

theorem width_map {M N : List (List Ex)} (h : List.Forall₂ (fun a b => b.length = a.length) M N) : (Arr.ofMat N).width = (Arr.ofMat M).width := by
  cases h with
  | nil => rfl
  | cons h _ => rw [width_ofMat_cons, width_ofMat_cons, h]

theorem length_times (k : ℝ) (l : List Ex) : (timesAll k l).length = l.length := by simp [timesAll]
theorem length_plus (c : ℝ) (l : List Ex) : (plusAll c l).length = l.length := by simp [plusAll]

/-- one score per record times `k`, or a row of scores per record times `k` -/
inductive ScoresTimes (k : ℝ) : Scores Ex → Scores Ex → Prop
  | flat {s} : ScoresTimes k (.flat s) (.flat (timesAll k s))
  | mat {M} : ScoresTimes k (.mat M) (.mat (M.map (timesAll k)))

theorem add_times {k : ℝ} (hk : 0 < k) (a b : List Ex) : List.zipWith Arith.add (timesAll k a) (timesAll k b) = timesAll k (List.zipWith Arith.add a b) := by
  induction a generalizing b with
  | nil => simp [timesAll]
  | cons x a ih =>
    cases b with
    | nil => simp [timesAll]
    | cons y b =>
      have := ih b
      simp only [timesAll, List.map_cons, List.zipWith_cons_cons] at this ⊢
      rw [this, times_add hk]

theorem rowsTimes {k : ℝ} {M N : List (List Ex)} (h : List.Forall₂ (fun a b => b = timesAll k a) M N) : N = M.map (timesAll k) := by
  induction h with
  | nil => rfl
  | cons h _ ih => rw [h, ih]; rfl

theorem decision_times {k : ℝ} (hk : 0 < k) {m : Linear Ex (PVal Ex)} {b : List Ex} (hb : m.intercept = some b) (X : Arr Ex) :
    Alongside (ScoresTimes k) (m.decisionFunction X)
      (({ m with coef := m.coef.map (timesAll k), intercept := some (timesAll k b) } : Linear Ex (PVal Ex)).decisionFunction X) := by
  unfold Linear.decisionFunction
  refine .after _ fun X _ => ?_
  have hcw : ({ m with coef := m.coef.map (timesAll k), intercept := some (timesAll k b) } : Linear Ex (PVal Ex)).checkWidth X = m.checkWidth X := by
    unfold Linear.checkWidth
    simp only
    rw [width_map (M := m.coef)]
    generalize m.coef = l
    induction l with
    | nil => exact .nil
    | cons r l ih => exact .cons (length_times k r) ih
  rw [hcw]
  refine .after _ fun _ _ => .after _ fun rs _ => ?_
  refine Alongside.bind (R := List.Forall₂ fun a b => b = timesAll k a) (.mapM (forall₂_same (R := Eq) (fun _ => rfl) rs) fun x _ e => ?_) fun M N hMN => ?_
  · cases e
    unfold Linear.rowScores
    refine (dot_times hk x m.coef).bind fun s s' hs => ?_
    simp only [hb, attr, py_ok_bind]
    rw [hs, add_times hk]
    exact .done rfl
  · rw [width_map (hMN.imp fun a b e => by rw [e, length_times])]
    refine .after _ fun w _ => ?_
    have hmat : Alongside (ScoresTimes k) (pure (.mat M) : Py (Scores Ex)) (pure (.mat N)) := by
      rw [rowsTimes hMN]
      exact .done .mat
    have hflat : Alongside (ScoresTimes k) (ravel (.ofMat M) >>= fun s => (pure (.flat s) : Py (Scores Ex))) (ravel (.ofMat N) >>= fun s => pure (.flat s)) := by
      refine Alongside.bind (R := List.Forall₂ fun a b => b = a *ₚ (.fin k : Ex)) ?_ fun s s' h => ?_
      · exact (ravel_alike (hMN.imp fun a b e => by rw [e]; exact times_forall₂ k a)).along
      · rw [forall₂_times h]
        exact .done .flat
    match w with
    | none => exact hmat
    | some 0 => exact hmat
    | some 1 => exact hflat
    | some (_ + 2) => exact hmat

theorem zero_lt_times {k : ℝ} (hk : 0 < k) (x : Ex) : (ofInt 0 <ₚ (x *ₚ (.fin k : Ex))) = (ofInt 0 <ₚ x) := by
  have := lt_times hk (ofInt 0) x
  rwa [times_zero] at this

theorem predict_times {k : ℝ} (hk : 0 < k) {m m' : Linear Ex (PVal Ex)} (hc : m'.classes = m.classes) (X : Arr Ex)
    (h : Alongside (ScoresTimes k) (m.decisionFunction X) (m'.decisionFunction X)) : Alongside Eq (m.predict X) (m'.predict X) := by
  unfold Linear.predict
  refine h.bind fun s s' hs => ?_
  cases hs with
  | flat =>
    simp only [hc]
    unfold timesAll
    rw [mapM_map']
    simp only [zero_lt_times hk]
    exact .same _
  | mat =>
    simp only [hc]
    rw [mapM_map']
    simp only [argmax_times hk]
    exact .same _

/-- rows with a number of their own added to all entries -/
def RowsUp : List (List Ex) → List (List Ex) → Prop := List.Forall₂ fun a b => ∃ c : ℝ, b = plusAll c a

inductive ScoresUp : Scores Ex → Scores Ex → Prop
  | mat {M N} : RowsUp M N → ScoresUp (.mat M) (.mat N)

theorem add_plus (c d : ℝ) (a b : List Ex) : List.zipWith Arith.add (plusAll c a) (plusAll d b) = plusAll (c + d) (List.zipWith Arith.add a b) := by
  induction a generalizing b with
  | nil => simp [plusAll]
  | cons x a ih =>
    cases b with
    | nil => simp [plusAll]
    | cons y b =>
      have := ih b
      simp only [plusAll, List.map_cons, List.zipWith_cons_cons] at this ⊢
      rw [this, plus_last, plus_inner, plus_plus]

theorem finite_rows {X : Arr Ex} (h : FiniteRequest (.arr X)) {rs : List (Row Ex)} (hr : X.rows = .ok rs) : ∀ x ∈ rs, FiniteRow x := by
  cases X with
  | list l => cases hr; exact h
  | sparse l s d =>
    cases hr
    intro x hx
    obtain ⟨y, hy, rfl⟩ := List.mem_map.1 hx
    exact h y hy
  | errObj => cases hr
  | other => cases hr

theorem finite_checked {X Y : Arr Ex} {s : HandleSparse} (h : FiniteRequest (.arr X)) (hc : checkArray X s = .ok Y) : FiniteRequest (.arr Y) := by
  cases X with
  | list l =>
    unfold checkArray at hc
    simp only at hc
    split at hc
    · cases hc; exact trivial
    · cases hc; exact h
  | sparse l n d =>
    cases s
    · cases hc; exact h
    · cases hc
    · cases hc
  | errObj => cases hc
  | other => cases hc

theorem forall₂_members {α : Type} {Q : α → Prop} {l : List α} (h : ∀ x ∈ l, Q x) : List.Forall₂ (fun a b => a = b ∧ Q a) l l := by
  induction l with
  | nil => exact .nil
  | cons x l ih => exact .cons ⟨rfl, h x (by simp)⟩ (ih fun y hy => h y (by simp [hy]))

theorem decision_plus {m : Linear Ex (PVal Ex)} {b : List Ex} {v : List ℝ} {c : ℝ} (hn : 2 ≤ m.coef.length) (hbl : b.length = m.coef.length)
    (hr : ∀ r ∈ m.coef, r.length = v.length) (hb : m.intercept = some b) (X : Arr Ex) (hX : FiniteRequest (.arr X)) :
    Alongside ScoresUp (m.decisionFunction X)
      (({ m with coef := m.coef.map (plusVec v), intercept := some (plusAll c b) } : Linear Ex (PVal Ex)).decisionFunction X) := by
  unfold Linear.decisionFunction
  refine .after _ fun X' hX' => ?_
  have hX' := finite_checked hX hX'
  have hcw : ({ m with coef := m.coef.map (plusVec v), intercept := some (plusAll c b) } : Linear Ex (PVal Ex)).checkWidth X' = m.checkWidth X' := by
    unfold Linear.checkWidth
    simp only
    rw [width_map (M := m.coef)]
    generalize m.coef = l at hr
    induction l with
    | nil => exact .nil
    | cons r l ih => exact .cons (by simp [plusVec, hr r (by simp)]) (ih fun r h => hr r (by simp [h]))
  rw [hcw]
  refine .after _ fun _ _ => .after _ fun rs hrs => ?_
  have hfin := finite_rows hX' hrs
  refine Alongside.bind (R := fun M N => RowsUp M N ∧ ∀ r ∈ M, r.length = m.coef.length) ?_ fun M N hMN => ?_
  · refine (Alongside.mapM (S := fun a b : List Ex => (∃ c : ℝ, b = plusAll c a) ∧ a.length = m.coef.length) (forall₂_members hfin) fun x _ e => ?_).mono fun M N h =>
      ⟨h.imp fun a b h => h.1, ?_⟩
    · obtain ⟨rfl, hx⟩ := e
      unfold Linear.rowScores
      have hd := dot_plus x hx m.coef hr
      have hlen : ∀ s, dot x m.coef = .ok s → s.length = m.coef.length := fun s hs => mapM_length hs
      revert hd hlen
      simp only [hb, attr, py_ok_bind]
      generalize dot x m.coef = p
      generalize dot x (m.coef.map (plusVec v)) = q
      intro hd hlen
      cases hd with
      | fail => exact .fail
      | done h =>
        rw [h]
        refine .done ⟨⟨_, add_plus _ _ _ _⟩, ?_⟩
        simp [hlen _ rfl, hbl]
    · induction h with
      | nil => simp
      | cons h _ ih =>
        intro r hr
        rcases List.mem_cons.1 hr with rfl | hr
        · exact h.2
        · exact ih r hr
  · obtain ⟨hMN, hl⟩ := hMN
    rw [width_map (hMN.imp fun a b ⟨c, e⟩ => by rw [e, length_plus])]
    cases hMN with
    | nil => exact .fail
    | @cons u v M N h hMN =>
      rw [width_ofMat_cons, hl u (by simp)]
      simp only [py_ok_bind]
      match m.coef.length, hn with
      | n + 2, _ => exact .done (.mat (.cons h hMN))

theorem predict_up {m m' : Linear Ex (PVal Ex)} (hc : m'.classes = m.classes) (X : Arr Ex)
    (h : Alongside ScoresUp (m.decisionFunction X) (m'.decisionFunction X)) : Alongside Eq (m.predict X) (m'.predict X) := by
  unfold Linear.predict
  refine h.bind fun s s' hs => ?_
  cases hs with
  | mat hMN =>
    simp only [hc]
    refine alongEq (.mapM hMN fun a b ⟨c, e⟩ => ?_)
    rw [e, argmax_plus]
    exact .same _

theorem proba_up {m m' : Linear Ex (PVal Ex)} (ho : m.isOvr = .ok false) (ho' : m'.isOvr = .ok false) (X : Arr Ex)
    (h : Alongside ScoresUp (m.decisionFunction X) (m'.decisionFunction X)) : Alongside Eq (m.predictProba X) (m'.predictProba X) := by
  unfold Linear.predictProba
  rw [ho, ho']
  simp only [py_ok_bind, Bool.false_eq_true, if_false]
  refine h.bind fun s s' hs => ?_
  cases hs with
  | mat hMN =>
    refine alongEq (.mapM hMN fun a b ⟨c, e⟩ => ?_)
    rw [e]
    exact sfmax_plus c a

theorem labelsOnly_est {kind : LinKind} {m m' : Linear Ex (PVal Ex)} (h : LabelsOnly kind m) (hl : m'.loss = m.loss) :
    kind.est m = predictor m.predict ∧ kind.est m' = predictor m'.predict := by
  rcases h with rfl | ⟨rfl, l, hm, h3⟩
  · exact ⟨rfl, rfl⟩
  · have key : ∀ n : Linear Ex (PVal Ex), n.loss = some l → ∃ e, n.checkProba = .error e := by
      intro n hn
      unfold Linear.checkProba
      rw [hn]
      simp only [attr, py_ok_bind]
      have : ["", "l", "o", "g", "lo", "og", "log"].contains l = false := by
        rw [← Bool.not_eq_true, List.contains_iff_mem]
        intro hmem
        simp only [List.mem_cons, List.not_mem_nil, or_false] at hmem
        rcases hmem with rfl | rfl | rfl | rfl | rfl | rfl | rfl <;> revert h3 <;> decide
      rw [this]
      exact ⟨_, rfl⟩
    obtain ⟨e, he⟩ := key m hm
    obtain ⟨e', he'⟩ := key m' (hl.trans hm)
    constructor
    · unfold LinKind.est
      rw [he]
    · unfold LinKind.est
      rw [he']

theorem multinomial_ovr {kind : LinKind} {m m' : Linear Ex (PVal Ex)} (h : Multinomial kind m) (h1 : m'.multiClass = m.multiClass) (h2 : m'.solver = m.solver)
    (h3 : m'.classes = m.classes) : m.isOvr = .ok false ∧ m'.isOvr = .ok false := by
  have key : ∀ n : Linear Ex (PVal Ex), Multinomial kind n → n.isOvr = .ok false := by
    rintro n ⟨-, h | ⟨ha, hc, s, hs, hne⟩⟩
    · unfold Linear.isOvr
      rw [h]
      rfl
    · unfold Linear.isOvr
      rw [ha, hs]
      have : ¬ n.classes.length ≤ 2 := by omega
      simp [attr, py_ok_bind, this, hne]
  refine ⟨key m h, key m' ⟨h.1, ?_⟩⟩
  rw [h1, h2, h3]
  exact h.2

/-! ### Trees -/

theorem tree_times {t : Tree Ex (PVal Ex)} {value' : List (List Ex)} (h : List.Forall₂ (fun v v' => ∃ k : ℝ, 0 < k ∧ v' = timesAll k v) t.value value') :
    AgreeFor P (classifier t.predict t.predictProba t.predictLogProba)
      (classifier (Tree.predict { t with value := value' }) (Tree.predictProba { t with value := value' }) (Tree.predictLogProba { t with value := value' })) := by
  have hleaf : ({ t with value := value' } : Tree Ex (PVal Ex)).getLeafNode = t.getLeafNode := leaf_values t value' t.classes
  have hpp : ∀ X, Alongside Eq (t.predictProba X) (Tree.predictProba { t with value := value' } X) := by
    intro X
    unfold Tree.predictProba
    rw [hleaf]
    refine .after _ fun X _ => .after _ fun rs _ => .after _ fun ls _ => alongEq (.mapM (forall₂_same (R := Eq) (fun _ => rfl) ls) fun nd _ e => ?_)
    cases e
    unfold Tree.probaFromLeaf
    refine (pyGet_along h nd).bind fun v v' ⟨k, hk, e⟩ => ?_
    rw [e, shares_times hk]
    exact .same _
  refine classifier_for (fun X _ => ?_) (fun X _ => hpp X) fun X _ => (hpp X).next _
  unfold Tree.predict
  rw [hleaf]
  refine .after _ fun X _ => .after _ fun rs _ => .after _ fun ls _ => ?_
  refine Alongside.bind (R := Eq) (alongEq (.mapM (forall₂_same (R := Eq) (fun _ => rfl) ls) fun nd _ e => ?_)) fun a b e => by cases e; exact .same _
  cases e
  unfold Tree.predFromLeaf
  refine (pyGet_along h nd).bind fun v v' ⟨k, hk, e⟩ => ?_
  rw [e, argmax_times hk]
  exact .same _

theorem values_plus (c : ℝ) (M : List (List Ex)) : List.Forall₂ (fun a b => b = plusAll c a) M (M.map (plusAll c)) := by
  induction M with
  | nil => exact .nil
  | cons r M ih => exact .cons rfl ih

theorem reg_plus (c : ℝ) (t : Tree Ex (PVal Ex)) (X : Arr Ex) : Alongside (fun p q => q = plusAll c p) (t.predictReg X) ((raisedTree c t).predictReg X) := by
  have hleaf : (raisedTree c t).getLeafNode = t.getLeafNode := leaf_values t _ t.classes
  unfold Tree.predictReg
  rw [hleaf]
  refine .after _ fun X _ => .after _ fun rs _ => .after _ fun ls _ => ?_
  refine (Alongside.mapM (S := fun a b => b = a +ₚ (.fin c : Ex)) (forall₂_same (R := Eq) (fun _ => rfl) ls) fun nd _ e => ?_).mono fun _ _ h => forall₂_plus h
  cases e
  refine (pyGet_along (values_plus c t.value) nd).bind fun v v' e => ?_
  rw [e]
  exact pyGet_along (plus_forall₂ c v) 0

/-! ### Naive Bayes -/

theorem nb_up {j j' : Arr Ex → Py (List (List Ex))} (cs : List (PVal Ex)) (h : ∀ X Y, P (.arr X) → checkArray X .error = .ok Y → Alongside RowsUp (j Y) (j' Y)) :
    AgreeFor P (classifier (nbPredict j cs) (nbPredictProba j) (nbPredictLogProba j)) (classifier (nbPredict j' cs) (nbPredictProba j') (nbPredictLogProba j')) := by
  have hl : ∀ X, P (.arr X) → Alongside Eq (nbPredictLogProba j X) (nbPredictLogProba j' X) := by
    intro X hX
    unfold nbPredictLogProba
    refine .after _ fun Y hY => (h X Y hX hY).bind fun M N hMN => alongEq (.mapM hMN fun a b ⟨c, e⟩ => ?_)
    rw [e]
    exact logNormalize_plus c a
  refine classifier_for (fun X hX => ?_) (fun X hX => (hl X hX).next _) hl
  unfold nbPredict
  refine .after _ fun Y hY => (h X Y hX hY).bind fun M N hMN => alongEq (.mapM hMN fun a b ⟨c, e⟩ => ?_)
  rw [e, argmax_plus]
  exact .same _

theorem gaussian_column {m : GaussianNB Ex (PVal Ex)} {k : ℝ} (hk : 0 < k) (rows : List (Row Ex)) (i : Nat) :
    Alongside (List.Forall₂ fun a b => b = a +ₚ (.fin (Real.log k) : Ex)) (m.column rows i)
      (GaussianNB.column { m with classPrior := timesAll k m.classPrior } rows i) := by
  unfold GaussianNB.column
  refine (pyGet_along (times_forall₂ k m.classPrior) (i : Int)).bind fun p p' e => ?_
  rw [e]
  refine (log_times hk p).bind fun a b e => ?_
  rw [e]
  refine .after _ fun sig _ => .after _ fun logs _ => .after _ fun jll _ => .done ?_
  generalize (jll.map fun a => ofRat 1 2 *ₚ pySum a) = l
  induction l with
  | nil => exact .nil
  | cons x l ih => exact .cons (plus_last _ _ _) ih

theorem gaussian_up {m : GaussianNB Ex (PVal Ex)} {k : ℝ} (hk : 0 < k) (X : Arr Ex) :
    Alongside RowsUp (m.jll X) (GaussianNB.jll { m with classPrior := timesAll k m.classPrior } X) := by
  unfold GaussianNB.jll
  refine Alongside.bind (R := List.Forall₂ (List.Forall₂ fun a b => b = a +ₚ (.fin (Real.log k) : Ex))) ?_ fun A B h => ?_
  · refine .mapM (forall₂_same (R := Eq) (fun _ => rfl) _) fun i _ e => ?_
    cases e
    exact .after _ fun rs _ => gaussian_column hk rs i
  · rw [transpose_ofMat, transpose_ofMat]
    exact .done ((zipStar_alike h).imp fun a b h => ⟨_, forall₂_plus h⟩)

theorem multinomial_prior_up (m : DiscreteNB Ex (PVal Ex)) (c : ℝ) (X : Arr Ex) :
    Alongside RowsUp (m.jllMultinomial X) (DiscreteNB.jllMultinomial { m with classLogPrior := plusAll c m.classLogPrior } X) := by
  unfold DiscreteNB.jllMultinomial
  refine .after _ fun rs _ => .mapM (forall₂_same (R := Eq) (fun _ => rfl) rs) fun x _ e => ?_
  cases e
  refine .after _ fun d _ => ?_
  refine (Alongside.mapM (S := fun a b => b = a +ₚ (.fin c : Ex)) (forall₂_same (R := Eq) (fun _ => rfl) (List.range m.classes.length)) fun i _ e => ?_).mono
    fun _ _ h => ⟨c, forall₂_plus h⟩
  cases e
  refine .after _ fun a _ => (pyGet_along (plus_forall₂ c m.classLogPrior) (i : Int)).bind fun p q e => ?_
  rw [e]
  exact .done (plus_last _ _ _)

theorem multinomial_features_up {m : DiscreteNB Ex (PVal Ex)} {v : List ℝ} (hr : ∀ r ∈ m.featureLogProb, r.length = v.length) (X : Arr Ex) (hX : FiniteRequest (.arr X)) :
    Alongside RowsUp (m.jllMultinomial X) (DiscreteNB.jllMultinomial { m with featureLogProb := m.featureLogProb.map (plusVec v) } X) := by
  unfold DiscreteNB.jllMultinomial
  refine .after _ fun rs hrs => .mapM (forall₂_members (finite_rows hX hrs)) fun x _ e => ?_
  obtain ⟨rfl, hx⟩ := e
  refine (dot_plus x hx m.featureLogProb hr).bind fun d d' e => ?_
  rw [e]
  refine (Alongside.mapM (S := fun a b => b = a +ₚ (.fin (added v x) : Ex)) (forall₂_same (R := Eq) (fun _ => rfl) (List.range m.classes.length)) fun i _ e => ?_).mono
    fun _ _ h => ⟨_, forall₂_plus h⟩
  cases e
  refine (pyGet_along (plus_forall₂ _ d) (i : Int)).bind fun p q e => ?_
  rw [e]
  exact .after _ fun a _ => .done (plus_inner _ _ _)

theorem complement_features_up {m : DiscreteNB Ex (PVal Ex)} {v : List ℝ} (hr : ∀ r ∈ m.featureLogProb, r.length = v.length) (X : Arr Ex) (hX : FiniteRequest (.arr X)) :
    Alongside RowsUp (m.jllComplement X) (DiscreteNB.jllComplement { m with featureLogProb := m.featureLogProb.map (plusVec v) } X) := by
  unfold DiscreteNB.jllComplement
  refine .after _ fun rs hrs => Alongside.bind (R := RowsUp) (.mapM (forall₂_members (finite_rows hX hrs)) fun x _ e => ?_) fun M N hMN => ?_
  · obtain ⟨rfl, hx⟩ := e
    exact (dot_plus x hx m.featureLogProb hr).mono fun a b h => ⟨_, h⟩
  · simp only
    split
    · refine .mapM hMN fun a b ⟨c, e⟩ => ?_
      rw [e]
      refine (pyGet_along (plus_forall₂ c a) 0).bind fun p q e => ?_
      rw [e]
      refine .after _ fun z _ => .done ⟨c, ?_⟩
      show [_] = [_]
      rw [plus_inner]
    · exact .done hMN

/-! ### XGBoost -/

theorem round_offsets {ts ts' : List (List (Tree Ex (PVal Ex)))} (h : List.Forall₂ (fun r r' => ∃ c : ℝ, r' = r.map (raisedTree c)) ts ts') :
    ∃ off : Nat → ℝ, ∀ e : Nat, Alongside (fun r r' => r' = r.map (raisedTree (off e))) (pyGet ts (e : Int)) (pyGet ts' (e : Int)) := by
  induction h with
  | nil => exact ⟨fun _ => 0, fun e => by rw [pyGet_ge (by simp)]; exact .fail⟩
  | cons h _ ih =>
    obtain ⟨c, hc⟩ := h
    obtain ⟨off, ho⟩ := ih
    refine ⟨fun e => match e with | 0 => c | n + 1 => off n, fun e => ?_⟩
    cases e with
    | zero => exact .done hc
    | succ n => rw [pyGet_shift, pyGet_shift]; exact ho n

theorem raised_forall₂ (c : ℝ) (r : List (Tree Ex (PVal Ex))) : List.Forall₂ (fun t t' => t' = raisedTree c t) r (r.map (raisedTree c)) := by
  induction r with
  | nil => exact .nil
  | cons t r ih => exact .cons rfl ih

theorem plusAll_zero (l : List Ex) : plusAll 0 l = l := by
  unfold plusAll
  simp only [plus_zero, List.map_id']

theorem xgb_plus {m : Xgb Ex (PVal Ex)} {ts ts' : List (List (Tree Ex (PVal Ex)))} (ho : m.objective = .multiSoftprob) (ht : m.trees = .multi ts)
    (h : List.Forall₂ (fun r r' => ∃ c : ℝ, r' = r.map (raisedTree c)) ts ts') (X : Arr Ex) :
    Alongside Eq (m.predictProba X) (Xgb.predictProba { m with trees := .multi ts' } X) := by
  obtain ⟨off, hoff⟩ := round_offsets h
  unfold Xgb.predictProba
  refine .after _ fun X _ => ?_
  simp only [ho]
  refine Alongside.bind (R := List.Forall₂ (List.Forall₂ fun a b => b = a +ₚ (.fin (((List.range m.nEstimators).map off).sum) : Ex))) ?_ fun A B hAB => .after _ fun n _ => ?_
  · unfold Xgb.predict_
    refine .mapM (forall₂_same (R := Eq) (fun _ => rfl) (List.range m.nClasses)) fun c _ e => ?_
    cases e
    refine .after _ fun n _ => ?_
    simp only [ht]
    have key : ∀ (l : List Nat) (s : ℝ) (acc : List Ex), Alongside (fun a b => b = plusAll (s + (l.map off).sum) a)
        (l.foldlM (fun acc (e : Nat) => (do Xgb.addTree X acc (← pyGet (← pyGet ts (e : Int)) (c : Int)) : Py (List Ex))) acc)
        (l.foldlM (fun acc (e : Nat) => (do Xgb.addTree X acc (← pyGet (← pyGet ts' (e : Int)) (c : Int)) : Py (List Ex))) (plusAll s acc)) := by
      intro l
      induction l with
      | nil => intro s acc; exact .done (by simp)
      | cons e l ih =>
        intro s acc
        rw [foldlM_cons', foldlM_cons']
        refine Alongside.bind (R := fun a b => b = plusAll (s + off e) a) ?_ fun a b hab => ?_
        · refine (hoff e).bind fun r r' hr => ?_
          rw [hr]
          refine (pyGet_along (raised_forall₂ (off e) r) (c : Int)).bind fun t t' e => ?_
          rw [e]
          unfold Xgb.addTree
          refine (reg_plus _ t X).bind fun p q e => ?_
          rw [e]
          exact .done (add_plus _ _ _ _)
        · rw [hab]
          have := ih (s + off e) a
          rw [List.map_cons, List.sum_cons, ← add_assoc]
          exact this
    have := key (List.range m.nEstimators) 0 (List.replicate n (ofInt 0))
    rw [plusAll_zero, zero_add] at this
    exact this.mono fun a b e => by rw [e]; exact plus_forall₂ _ a
  · refine alongEq (.mapM (forall₂_same (R := Eq) (fun _ => rfl) (List.range n)) fun i _ e => ?_)
    cases e
    refine Alongside.bind (R := List.Forall₂ fun a b => b = a +ₚ (.fin (((List.range m.nEstimators).map off).sum) : Ex)) ?_ fun x y hxy => ?_
    · refine .mapM (forall₂_same (R := Eq) (fun _ => rfl) (List.range m.nClasses)) fun j _ e => ?_
      cases e
      exact (pyGet_along hAB (j : Int)).bind fun u v huv => pyGet_along huv (i : Int)
    · rw [forall₂_plus hxy]
      exact sfmax_plus _ x

/-! ### All single estimators -/

theorem rescaled_agree {s s' : Single Ex} (h : Rescaled s s') : AgreeFor P (s.est lib encode) (s'.est lib encode) := by
  cases h with
  | @linear kind m b k hl hk hb =>
    have e := labelsOnly_est (m' := { m with coef := m.coef.map (timesAll k), intercept := some (timesAll k b) }) hl rfl
    show AgreeFor P (kind.est m) (kind.est _)
    rw [e.1, e.2]
    exact predictor_for fun X _ => predict_times hk (by simp) X (decision_times hk hb X)
  | tree h => exact tree_times h
  | @gaussianNB m k hk => exact nb_up m.classes fun X Y _ _ => gaussian_up hk Y
  | @multinomialNB m c => exact nb_up m.classes fun X Y _ _ => multinomial_prior_up m c Y
  | @complementNB m prior' hc =>
    refine nb_up m.classes fun X Y _ _ => ?_
    have : DiscreteNB.jllComplement { m with classLogPrior := prior' } Y = m.jllComplement Y := by
      unfold DiscreteNB.jllComplement
      have : (m.classes.length == 1) = false := by simpa using hc
      simp only [this, Bool.false_eq_true, if_false]
    rw [this]
    refine (Alongside.same _).mono fun M N e => ?_
    cases e
    exact forall₂_same (fun a => ⟨0, (plusAll_zero a).symm⟩) M
  | @xgb m ts ts' ho ht h =>
    refine probabilist_for (fun X _ => ?_) fun X _ => xgb_plus ho ht h X
    unfold Xgb.predict
    exact (xgb_plus ho ht h X).next _

theorem offset_agree {s s' : Single Ex} (h : Offset s s') : AgreeFor FiniteRequest (s.est lib encode) (s'.est lib encode) := by
  cases h with
  | @linear kind m b v c hk hn hbl hr hb =>
    have hd := fun X hX => decision_plus (c := c) hn hbl hr hb X hX
    rcases hk with hl | hm
    · have e := labelsOnly_est (m' := { m with coef := m.coef.map (plusVec v), intercept := some (plusAll c b) }) hl rfl
      show AgreeFor _ (kind.est m) (kind.est _)
      rw [e.1, e.2]
      exact predictor_for fun X hX => predict_up (by simp) X (hd X hX)
    · have e := multinomial_ovr (m' := { m with coef := m.coef.map (plusVec v), intercept := some (plusAll c b) }) hm rfl rfl rfl
      obtain ⟨rfl, -⟩ := hm
      have hpp := fun X hX => proba_up e.1 e.2 X (hd X hX)
      exact classifier_for (fun X hX => predict_up (by simp) X (hd X hX)) hpp fun X hX => (hpp X hX).next _
  | @multinomialNB m v hr => exact nb_up m.classes fun X Y hX hY => multinomial_features_up hr Y (finite_checked hX hY)
  | @complementNB m v hr => exact nb_up m.classes fun X Y hX hY => complement_features_up hr Y (finite_checked hX hY)

end PurePredict.Gauge
