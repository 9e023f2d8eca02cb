import Verif.Lemmas.ClassOrderBase
import Verif.Lemmas.Relabel
/-
Single classifiers with their classes in another order.
-/
namespace PurePredict
open Spec
variable {lib : String → TextLib} {encode : Str → List Nat} {w : Nat} {π : List Nat}

theorem rowsReordered_arr {p q : Arr Ex → Py (List (List Ex))} (h : ∀ X, Alongside (Rows w π) (p X) (q X)) :
    RowsReordered w π (some (Data.onArr p)) (some (Data.onArr q)) := by
  refine ⟨fun t ht => ?_, fun e => nomatch e⟩
  cases ht
  refine ⟨_, rfl, fun X => ?_⟩
  cases X <;> first | exact h _ | exact .fail

theorem rowsReordered_none : RowsReordered w π none none := ⟨fun _ h => (nomatch h), fun _ => rfl⟩

theorem classifier_reordered {p p' : Arr Ex → Py (List (PVal Ex))} {pp pp' pl pl' : Arr Ex → Py (List (List Ex))}
    (h : ∀ X, Alongside (Rows w π) (pp X) (pp' X)) (h' : ∀ X, Alongside (Rows w π) (pl X) (pl' X)) :
    SameChances w π (classifier p pp pl) (classifier p' pp' pl') := ⟨rowsReordered_arr h, rowsReordered_arr h'⟩

/-! ### Opposite numbers -/

theorem neg_add_ex (a b : Ex) : Arith.neg (a +ₚ b) = Arith.neg a +ₚ Arith.neg b := by
  show XR.neg (XR.add a b) = XR.add (XR.neg a) (XR.neg b)
  cases a <;> cases b <;> simp only [XR.add, XR.neg, XR.round_exact]
  congr 1
  ring

theorem neg_mul_ex (a b : Ex) : Arith.neg (a *ₚ b) = a *ₚ Arith.neg b := by
  show XR.neg (XR.mul a b) = XR.mul a (XR.neg b)
  have inf : ∀ (p : Bool) (r : ℝ), XR.neg (XR.infMul p r : Ex) = XR.infMul p (-r) ∧ XR.neg (XR.infMul p r : Ex) = XR.infMul (!p) r := by
    intro p r
    rcases lt_trichotomy r 0 with h | rfl | h
    · cases p <;> simp [XR.infMul, h.ne, h, h.le, not_lt.2 h.le, XR.neg]
    · simp [XR.infMul, XR.neg]
    · cases p <;> simp [XR.infMul, h.ne', h, h.le, not_lt.2 h.le, XR.neg]
  cases a with
  | fin a =>
    cases b with
    | fin b =>
      simp only [XR.mul, XR.neg, XR.round_exact]
      congr 1
      ring
    | pinf => exact (inf true a).2
    | ninf => exact (inf false a).2
    | nan => rfl
  | pinf => cases b with
    | fin b => exact (inf true b).1
    | _ => rfl
  | ninf => cases b with
    | fin b => exact (inf false b).1
    | _ => rfl
  | nan => rfl

theorem neg_neg_ex (a : Ex) : Arith.neg (Arith.neg a) = a := by
  show XR.neg (XR.neg a) = a
  cases a <;> simp [XR.neg]

theorem pySum_neg (l : List Ex) : pySum (l.map Arith.neg) = Arith.neg (pySum l) := by
  have h0 : (ofInt 0 : Ex) = Arith.neg (ofInt 0 : Ex) := by
    rw [XR.ofInt_exact]
    show (XR.fin _ : Ex) = XR.fin _
    simp
  unfold pySum
  suffices ∀ a : Ex, (l.map Arith.neg).foldl Arith.add (Arith.neg a) = Arith.neg (l.foldl Arith.add a) by
    rw [← this, ← h0]
  induction l with
  | nil => exact fun _ => rfl
  | cons x l ih =>
    intro a
    rw [List.map_cons, List.foldl_cons, List.foldl_cons, ← neg_add_ex, ih]

/-- opposite numbers -/
def Opp (a b : Ex) : Prop := b = Arith.neg a

theorem dotList_neg (x c : List Ex) : dotList x (c.map Arith.neg) = Arith.neg (dotList x c) := by
  unfold dotList
  rw [← pySum_neg]
  congr 1
  induction x generalizing c with
  | nil => rfl
  | cons a x ih =>
    cases c with
    | nil => rfl
    | cons b c => simp only [List.map_cons, List.zipWith_cons_cons, neg_mul_ex, ih]

theorem dotDict_neg (x : Dict Int Ex) (c : List Ex) : Alongside Opp (dotDict x c) (dotDict x (c.map Arith.neg)) := by
  unfold dotDict
  refine Alongside.bind (R := List.Forall₂ Opp) (.mapM (forall₂_same (R := Eq) (fun _ => rfl) x) fun p _ e => ?_) fun a b hab => ?_
  · cases e
    rw [pyGet_rename]
    cases pyGet c p.1 with
    | error e => exact .fail
    | ok v => exact .done (neg_mul_ex _ _).symm
  · refine .done ?_
    have : b = a.map Arith.neg := by
      induction hab with
      | nil => rfl
      | cons h _ ih => rw [List.map_cons, ih, show _ = _ from h]
    rw [this]
    exact pySum_neg a

theorem expit_neg (x : Ex) : Alongside (fun a b => ofInt 1 -ₚ b = a ∧ b = ofInt 1 -ₚ a) (expit x) (expit (Arith.neg x)) := by
  cases x with
  | fin r =>
    rw [show Arith.neg (XR.fin r : Ex) = .fin (-r) from rfl, expit_exact, expit_exact]
    refine .done ⟨?_, ?_⟩
    all_goals
      rw [XR.ofInt_exact, XR.sub_exact]
      congr 1
      unfold sigmoid
      rw [neg_neg]
      have h1 : Real.exp r = (Real.exp (-r))⁻¹ := by rw [Real.exp_neg, inv_inv]
      have h2 := Real.exp_pos (-r)
      rw [h1]
      field_simp
      push_cast
      ring
  | pinf =>
    have e1 : expit (XR.pinf : Ex) = .ok (.fin 1) := by
      show ((ofInt 1 : Ex) /ₚ (ofInt 1 +ₚ .fin 0)) = _
      rw [XR.ofInt_exact]
      first | rfl | (rw [XR.add_exact, XR.div_exact _ (by norm_num)]; norm_num)
    have e2 : expit (Arith.neg XR.pinf : Ex) = .ok (.fin 0) := by
      show ((ofInt 1 : Ex) /ₚ (ofInt 1 +ₚ .pinf)) = _
      rw [XR.ofInt_exact]
      first | rfl | (rw [XR.add_exact, XR.div_exact _ (by norm_num)]; norm_num)
    rw [e1, e2]
    refine .done ⟨?_, ?_⟩ <;> rw [XR.ofInt_exact, XR.sub_exact] <;> simp
  | ninf =>
    have e1 : expit (XR.ninf : Ex) = .ok (.fin 0) := by
      show ((ofInt 1 : Ex) /ₚ (ofInt 1 +ₚ .pinf)) = _
      rw [XR.ofInt_exact]
      first | rfl | (rw [XR.add_exact, XR.div_exact _ (by norm_num)]; norm_num)
    have e2 : expit (Arith.neg XR.ninf : Ex) = .ok (.fin 1) := by
      show ((ofInt 1 : Ex) /ₚ (ofInt 1 +ₚ .fin 0)) = _
      rw [XR.ofInt_exact]
      first | rfl | (rw [XR.add_exact, XR.div_exact _ (by norm_num)]; norm_num)
    rw [e1, e2]
    refine .done ⟨?_, ?_⟩ <;> rw [XR.ofInt_exact, XR.sub_exact] <;> simp
  | nan =>
    have e1 : expit (XR.nan : Ex) = .ok .nan := by
      show ((ofInt 1 : Ex) /ₚ (ofInt 1 +ₚ .nan)) = _
      rw [XR.ofInt_exact]
      rfl
    rw [show (Arith.neg XR.nan : Ex) = .nan from rfl, e1]
    refine .done ⟨?_, ?_⟩ <;> rw [XR.ofInt_exact] <;> rfl

theorem swapped_pair {a b a' b' : Ex} (h1 : a' = b) (h2 : b' = a) : Rearranged 2 [1, 0] [a, b] [a', b'] := by
  subst h1 h2
  exact ⟨rfl, .cons rfl (.cons rfl .nil)⟩

theorem perm_swap : [1, 0].Perm (List.range 2) := List.Perm.swap 0 1 []

/-! ### Linear classifiers -/

/-- decision functions of more than two classes -/
inductive ScoreRows (w : Nat) (π : List Nat) : Scores Ex → Scores Ex → Prop
  | mk {M N} : Rows w π M N → ScoreRows w π (.mat M) (.mat N)

theorem dot_reordered (hp : π.Perm (List.range w)) (x : Row Ex) {c c' : List (List Ex)} (h : Rearranged w π c c') :
    Alongside (Rearranged w π) (dot x c) (dot x c') := h.mapM hp _

theorem coef_width (hp : π.Perm (List.range w)) (hw : 2 ≤ w) {c c' : List (List Ex)} {d : Nat} (hd : ∀ r ∈ c, r.length = d) (h : Rearranged w π c c') :
    (Arr.ofMat c').width = (Arr.ofMat c).width := by
  have h1 : c ≠ [] := by rintro rfl; have := h.1; simp at this; omega
  have h2 : c' ≠ [] := by rintro rfl; have := h.len hp; simp at this; omega
  rw [width_ofMat h1 hd, width_ofMat h2 fun r hr => hd r (h.mem hr)]

theorem decision_reordered (hp : π.Perm (List.range w)) (hw : 2 ≤ w) {m : Linear Ex (PVal Ex)} {coef' : List (List Ex)} {cs' : List (PVal Ex)} {b b' : List Ex} {d : Nat}
    (hb : m.intercept = some b) (hd : ∀ r ∈ m.coef, r.length = d) (hc : Rearranged w π m.coef coef') (hbb : Rearranged w π b b') (X : Arr Ex) :
    Alongside (ScoreRows w π) (m.decisionFunction X)
      (({ m with coef := coef', intercept := some b', classes := cs' } : Linear Ex (PVal Ex)).decisionFunction X) := by
  unfold Linear.decisionFunction
  refine .after _ fun X _ => ?_
  have hcw : ({ m with coef := coef', intercept := some b', classes := cs' } : Linear Ex (PVal Ex)).checkWidth X = m.checkWidth X := by
    unfold Linear.checkWidth
    simp only [coef_width hp hw hd hc]
  rw [hcw]
  refine .after _ fun _ _ => .after _ fun rs _ => ?_
  refine Alongside.bind (R := Rows w π) (.mapM (forall₂_same (R := Eq) (fun _ => rfl) rs) fun x _ e => ?_) fun M N hMN => ?_
  · cases e
    unfold Linear.rowScores
    refine (dot_reordered hp x hc).bind fun s s' hs => ?_
    simp only [hb, attr, py_ok_bind]
    exact .done (hs.zipWith hbb _)
  · rw [width_rows hp hMN]
    by_cases hM : M = []
    · subst hM
      cases hMN
      exact .fail
    · rw [width_ofMat hM (rows_rect hMN)]
      have : w ≠ 1 := by omega
      simp only [py_ok_bind]
      match w, this with
      | 0, _ => exact .done (.mk hMN)
      | n + 2, _ => exact .done (.mk hMN)

/-- decision functions of two classes -/
inductive ScoreSigns : Scores Ex → Scores Ex → Prop
  | mk {s} : ScoreSigns (.flat s) (.flat (s.map Arith.neg))

theorem decision_swapped {m : Linear Ex (PVal Ex)} {c : List Ex} {b : Ex} {cs : List (PVal Ex)} (hc : m.coef = [c]) (hb : m.intercept = some [b]) (X : Arr Ex) :
    Alongside ScoreSigns (m.decisionFunction X)
      (({ m with coef := [c.map Arith.neg], intercept := some [Arith.neg b], classes := cs } : Linear Ex (PVal Ex)).decisionFunction X) := by
  unfold Linear.decisionFunction
  refine .after _ fun X _ => ?_
  have hcw : ({ m with coef := [c.map Arith.neg], intercept := some [Arith.neg b], classes := cs } : Linear Ex (PVal Ex)).checkWidth X = m.checkWidth X := by
    unfold Linear.checkWidth
    simp only [hc, width_ofMat_cons, List.length_map]
  rw [hcw]
  refine .after _ fun _ _ => .after _ fun rs _ => ?_
  refine Alongside.bind (R := List.Forall₂ fun u v => ∃ s, u = [s] ∧ v = [Arith.neg s]) (.mapM (forall₂_same (R := Eq) (fun _ => rfl) rs) fun x _ e => ?_) fun M N hMN => ?_
  · cases e
    unfold Linear.rowScores dot
    simp only [hc, hb, attr, mapM_cons', mapM_nil']
    cases x with
    | list x =>
      simp only [py_ok_bind, dotList_neg]
      refine .done ⟨_, rfl, ?_⟩
      simp only [List.zipWith_cons_cons, List.zipWith_nil_left, neg_add_ex]
    | dict x =>
      have h := dotDict_neg x c
      show Alongside _ ((dotDict x c >>= _) >>= _) ((dotDict x (c.map Arith.neg) >>= _) >>= _)
      revert h
      generalize dotDict x c = p
      generalize dotDict x (c.map Arith.neg) = q
      intro h
      cases h with
      | fail => exact .fail
      | done h =>
        refine .done ⟨_, rfl, ?_⟩
        simp only [List.zipWith_cons_cons, List.zipWith_nil_left, neg_add_ex, show _ = _ from h]
    | scalar x => exact .fail
  · cases hMN with
    | nil => exact .fail
    | @cons u v M N h hMN =>
      obtain ⟨s, rfl, rfl⟩ := h
      have e : ∃ l : List Ex, [s] :: M = l.map (fun x => [x]) ∧ [Arith.neg s] :: N = (l.map Arith.neg).map fun x => [x] := by
        have : ∃ l : List Ex, M = l.map (fun x => [x]) ∧ N = (l.map Arith.neg).map fun x => [x] := by
          induction hMN with
          | nil => exact ⟨[], rfl, rfl⟩
          | cons h _ ih =>
            obtain ⟨l, rfl, rfl⟩ := ih
            obtain ⟨a, rfl, rfl⟩ := h
            exact ⟨a :: l, rfl, rfl⟩
        obtain ⟨l, rfl, rfl⟩ := this
        exact ⟨s :: l, rfl, rfl⟩
      obtain ⟨l, e1, e2⟩ := e
      rw [width_ofMat_cons, width_ofMat_cons, e1, e2]
      simp only [List.length_singleton, py_ok_bind]
      have r1 : ∀ l : List Ex, l ≠ [] → ravel (.ofMat (l.map fun x => [x])) = .ok l := fun l hl => by
        rw [Linear.ravel_ofMat_one (by simpa using hl) fun r hr => by obtain ⟨x, -, rfl⟩ := List.mem_map.1 hr; rfl, List.filterMap_map]
        congr 1
        induction l with
        | nil => rfl
        | cons x l ih => cases l with
          | nil => rfl
          | cons y l => rw [List.filterMap_cons, ih (by simp)]; rfl
      have hl : l ≠ [] := by rintro rfl; cases e1
      rw [r1 l hl, r1 _ (by simpa using hl)]
      exact .done .mk

theorem probaLr_reordered (hp : π.Perm (List.range w)) {m m' : Linear Ex (PVal Ex)} (X : Arr Ex) (h : Alongside (ScoreRows w π) (m.decisionFunction X) (m'.decisionFunction X)) :
    Alongside (Rows w π) (m.predictProbaLr X) (m'.predictProbaLr X) := by
  unfold Linear.predictProbaLr
  refine h.bind fun s s' hs => ?_
  cases hs with
  | mk hs => exact (mapRows hp hs _).bind fun P Q hPQ => .mapM hPQ fun x y hxy => normRow_reordered hp hxy

theorem probaLr_swapped {m m' : Linear Ex (PVal Ex)} (X : Arr Ex) (h : Alongside ScoreSigns (m.decisionFunction X) (m'.decisionFunction X)) :
    Alongside (Rows 2 [1, 0]) (m.predictProbaLr X) (m'.predictProbaLr X) := by
  unfold Linear.predictProbaLr
  refine h.bind fun s s' hs => ?_
  cases hs with
  | @mk s =>
    show Alongside _ _ ((s.map Arith.neg).mapM _)
    rw [mapM_map']
    refine .mapM (forall₂_same (R := Eq) (fun _ => rfl) s) fun x _ e => ?_
    cases e
    exact (expit_neg x).bind fun a b hab => .done (swapped_pair hab.1 hab.2)

theorem logistic_reordered (hp : π.Perm (List.range w)) {m m' : Linear Ex (PVal Ex)} (ho : m'.isOvr = m.isOvr) (X : Arr Ex)
    (h : Alongside (ScoreRows w π) (m.decisionFunction X) (m'.decisionFunction X)) : Alongside (Rows w π) (m.predictProba X) (m'.predictProba X) := by
  unfold Linear.predictProba
  rw [ho]
  refine .after _ fun b _ => ?_
  cases b with
  | true => exact probaLr_reordered hp X h
  | false =>
    simp only [Bool.false_eq_true, if_false]
    refine h.bind fun s s' hs => ?_
    cases hs with
    | mk hs => exact .mapM hs fun x y hxy => sfmax_reordered hp hxy

theorem logistic_swapped {m m' : Linear Ex (PVal Ex)} (ho : m'.isOvr = m.isOvr) (X : Arr Ex)
    (h : Alongside ScoreSigns (m.decisionFunction X) (m'.decisionFunction X)) : Alongside (Rows 2 [1, 0]) (m.predictProba X) (m'.predictProba X) := by
  unfold Linear.predictProba
  rw [ho]
  refine .after _ fun b _ => ?_
  cases b with
  | true => exact probaLr_swapped X h
  | false =>
    simp only [Bool.false_eq_true, if_false]
    refine h.bind fun s s' hs => ?_
    cases hs with
    | @mk s =>
      show Alongside _ (s.mapM _) ((s.map Arith.neg).mapM _)
      rw [mapM_map']
      refine .mapM (forall₂_same (R := Eq) (fun _ => rfl) s) fun x _ e => ?_
      cases e
      exact sfmax_reordered perm_swap (swapped_pair (neg_neg_ex x) rfl)

theorem linear_chances (hp : π.Perm (List.range w)) {m m' : Linear Ex (PVal Ex)} (k : LinKind) (h1 : m'.multiClass = m.multiClass) (h2 : m'.solver = m.solver)
    (h3 : m'.loss = m.loss) (h4 : m'.classes.length = m.classes.length) (h5 : ∀ X, Alongside (Rows w π) (m.predictProbaLr X) (m'.predictProbaLr X))
    (h6 : ∀ X, Alongside (Rows w π) (m.predictProba X) (m'.predictProba X)) : SameChances w π (k.est m) (k.est m') := by
  cases k with
  | plain => exact ⟨rowsReordered_none, rowsReordered_none⟩
  | logistic => exact classifier_reordered h6 fun X => (h6 X).bind fun P Q hPQ => mapRows hp hPQ _
  | sgd =>
    unfold LinKind.est
    have e : m'.checkProba = m.checkProba := by unfold Linear.checkProba; rw [h3]
    have hq : ∀ X, Alongside (Rows w π) (m.sgdPredictProba X) (m'.sgdPredictProba X) := fun X => by
      unfold Linear.sgdPredictProba Linear.sgdPredictProba_
      rw [e, h3]
      refine .after _ fun _ _ => .after _ fun l _ => ?_
      split
      · exact h5 X
      · exact .fail
    have hl : ∀ X, Alongside (Rows w π) (m.sgdPredictLogProba X) (m'.sgdPredictLogProba X) := fun X => by
      unfold Linear.sgdPredictLogProba
      rw [e]
      exact .after _ fun _ _ => (hq X).bind fun P Q hPQ => mapRows hp hPQ _
    rw [e]
    cases m.checkProba with
    | ok _ => exact classifier_reordered hq hl
    | error _ => exact ⟨rowsReordered_none, rowsReordered_none⟩

theorem isOvr_reordered {m m' : Linear Ex (PVal Ex)} (h1 : m'.multiClass = m.multiClass) (h2 : m'.solver = m.solver)
    (h4 : m'.classes.length = m.classes.length) : m'.isOvr = m.isOvr := by
  unfold Linear.isOvr
  rw [h1, h2, h4]


/-! ### Trees -/

theorem walk_values (t : Tree Ex (PVal Ex)) (v : List (List Ex)) (cs : List (PVal Ex)) (x : Row Ex) (fuel : Nat) (nd : Int) :
    ({ t with value := v, classes := cs } : Tree Ex (PVal Ex)).walk x fuel nd = t.walk x fuel nd := by
  induction fuel generalizing nd with
  | zero => rfl
  | succ n ih =>
    unfold Tree.walk
    congr 1
    funext o
    cases o with
    | none => rfl
    | some k => exact ih k

theorem leaf_values (t : Tree Ex (PVal Ex)) (v : List (List Ex)) (cs : List (PVal Ex)) : ({ t with value := v, classes := cs } : Tree Ex (PVal Ex)).getLeafNode = t.getLeafNode :=
  funext fun x => walk_values t v cs x _ 0

theorem pyGet_along {α β : Type} {R : α → β → Prop} {l : List α} {l' : List β} (h : List.Forall₂ R l l') (i : Int) : Alongside R (pyGet l i) (pyGet l' i) := by
  unfold pyGet
  rw [h.length_eq]
  generalize (if i < 0 then i + (l'.length : Int) else i) = j
  by_cases hj : j < 0
  · simp only [if_pos hj]
    exact .fail
  · simp only [if_neg hj]
    generalize j.toNat = n
    induction h generalizing n with
    | nil => exact .fail
    | cons h _ ih =>
      cases n with
      | zero => exact .done h
      | succ n => exact ih n

theorem tree_reordered (hp : π.Perm (List.range w)) {t : Tree Ex (PVal Ex)} {v : List (List Ex)} (cs : List (PVal Ex)) (h : Rows w π t.value v) (X : Arr Ex) :
    Alongside (Rows w π) (t.predictProba X) (({ t with value := v, classes := cs } : Tree Ex (PVal Ex)).predictProba X) := by
  unfold Tree.predictProba
  simp only [leaf_values]
  refine .after _ fun X _ => .after _ fun rs _ => .after _ fun ls _ => ?_
  refine .mapM (forall₂_same (R := Eq) (fun _ => rfl) ls) fun i _ e => ?_
  cases e
  unfold Tree.probaFromLeaf
  refine (pyGet_along h i).bind fun x y hxy => ?_
  rw [sum_reordered hp hxy]
  exact hxy.mapM hp _

theorem opposite_reg {t t' : Tree Ex (PVal Ex)} (h : OppositeTree t t') (X : Arr Ex) :
    Alongside (List.Forall₂ Opp) (t.predictReg X) (t'.predictReg X) := by
  subst h
  unfold Tree.predictReg
  simp only [leaf_values t _ t.classes]
  refine .after _ fun X _ => .after _ fun rs _ => .after _ fun ls _ => ?_
  refine .mapM (forall₂_same (R := Eq) (fun _ => rfl) ls) fun i _ e => ?_
  cases e
  rw [pyGet_rename]
  cases pyGet t.value i with
  | error e => exact .fail
  | ok v =>
    show Alongside Opp (pyGet v 0) (pyGet (v.map Arith.neg) 0)
    rw [pyGet_rename]
    cases pyGet v 0 with
    | error e => exact .fail
    | ok a => exact .done rfl

/-! ### Naive Bayes -/

theorem nb_chances (hp : π.Perm (List.range w)) {j j' : Arr Ex → Py (List (List Ex))} (cs cs' : List (PVal Ex)) (h : ∀ X, Alongside (Rows w π) (j X) (j' X)) :
    SameChances w π (classifier (nbPredict j cs) (nbPredictProba j) (nbPredictLogProba j)) (classifier (nbPredict j' cs') (nbPredictProba j') (nbPredictLogProba j')) := by
  have hl : ∀ X, Alongside (Rows w π) (nbPredictLogProba j X) (nbPredictLogProba j' X) := fun X =>
    .after _ fun X _ => (h X).bind fun M N hMN => .mapM hMN fun x y hxy => logNormalize_reordered hp hxy
  exact classifier_reordered (fun X => (hl X).bind fun M N hMN => mapRows hp hMN _) hl

theorem gaussian_reordered (hp : π.Perm (List.range w)) {m m' : GaussianNB Ex (PVal Ex)} (h1 : Rearranged w π m.classPrior m'.classPrior) (h2 : Rearranged w π m.classes m'.classes)
    (h3 : Rearranged w π m.theta m'.theta) (h4 : Rearranged w π m.sigma m'.sigma) (X : Arr Ex) : Alongside (Rows w π) (m.jll X) (m'.jll X) := by
  unfold GaussianNB.jll
  rw [h2.1, h2.len hp]
  refine (mapM_range_reordered hp _ _ fun j i hij => ?_).bind fun A B hAB => ?_
  · unfold GaussianNB.column
    rw [pyGet_reordered h1 hij, pyGet_reordered h3 hij, pyGet_reordered h4 hij]
  · rw [transpose_ofMat, transpose_ofMat]
    exact .done (zipStar_reordered hp hAB)

theorem multinomial_reordered (hp : π.Perm (List.range w)) {m m' : DiscreteNB Ex (PVal Ex)} (h1 : Rearranged w π m.classLogPrior m'.classLogPrior)
    (h2 : Rearranged w π m.classes m'.classes) (h3 : Rearranged w π m.featureLogProb m'.featureLogProb) (X : Arr Ex) :
    Alongside (Rows w π) (m.jllMultinomial X) (m'.jllMultinomial X) := by
  unfold DiscreteNB.jllMultinomial
  rw [h2.1, h2.len hp]
  refine .after _ fun rs _ => .mapM (forall₂_same (R := Eq) (fun _ => rfl) rs) fun x _ e => ?_
  cases e
  refine (dot_reordered hp x h3).bind fun d d' hd => mapM_range_reordered hp _ _ fun j i hij => ?_
  rw [pyGet_reordered hd hij, pyGet_reordered h1 hij]

theorem complement_reordered (hp : π.Perm (List.range w)) (hw : 2 ≤ w) {m m' : DiscreteNB Ex (PVal Ex)}
    (h2 : Rearranged w π m.classes m'.classes) (h3 : Rearranged w π m.featureLogProb m'.featureLogProb) (X : Arr Ex) :
    Alongside (Rows w π) (m.jllComplement X) (m'.jllComplement X) := by
  unfold DiscreteNB.jllComplement
  rw [h2.1, h2.len hp]
  have : (w == 1) = false := by simp; omega
  refine .after _ fun rs _ => ?_
  refine Alongside.bind (R := Rows w π) (.mapM (forall₂_same (R := Eq) (fun _ => rfl) rs) fun x _ e => ?_) fun M N hMN => ?_
  · cases e
    exact dot_reordered hp x h3
  · simp only [this, Bool.false_eq_true, if_false]
    exact .done hMN

/-! ### DummyClassifier -/

theorem rows_replicate {x y : List Ex} (h : Rearranged w π x y) (n : Nat) : Rows w π (List.replicate n x) (List.replicate n y) := by
  induction n with
  | zero => exact .nil
  | succ n ih => exact .cons h ih

theorem dummy_reordered {d d' : Dummy Ex} (h : Rearranged w π d.classPrior d'.classPrior) (X : Arr Ex) :
    Alongside (Rows w π) (d.predictProba X) (d'.predictProba X) :=
  .after _ fun n _ => .done (rows_replicate h n)

/-! ### XGBClassifier -/

theorem xgb_reordered (hp : π.Perm (List.range w)) {m : Xgb Ex (PVal Ex)} {ts ts' : List (List (Tree Ex (PVal Ex)))} (cs' : List (PVal Ex)) (ho : m.objective = .multiSoftprob)
    (hn : m.nClasses = w) (ht : m.trees = .multi ts) (h : List.Forall₂ (Rearranged w π) ts ts') (X : Arr Ex) :
    Alongside (Rows w π) (m.predictProba X) (({ m with trees := .multi ts', classes := cs' } : Xgb Ex (PVal Ex)).predictProba X) := by
  unfold Xgb.predictProba
  refine .after _ fun X _ => ?_
  simp only [ho, hn]
  refine Alongside.bind (R := Rearranged w π) ?_ fun A B hAB => .after _ fun n _ => ?_
  · unfold Xgb.predict_
    simp only [hn]
    refine mapM_range_reordered hp _ _ fun j i hij => ?_
    congr 1
    funext n
    congr 1
    funext acc e
    simp only [ht]
    have := pyGet_shuf h e
    revert this
    generalize pyGet ts (e : Int) = p
    generalize pyGet ts' (e : Int) = q
    intro h
    cases h with
    | fail => rfl
    | done h => simp only [py_ok_bind, pyGet_reordered h hij]
  · refine .mapM (forall₂_same (R := Eq) (fun _ => rfl) (List.range n)) fun i _ e => ?_
    cases e
    refine Alongside.bind (R := Rearranged w π) (mapM_range_reordered hp _ _ fun j k hjk => ?_) fun x y hxy => sfmax_reordered hp hxy
    rw [pyGet_reordered hAB hjk]

theorem xgb_swapped {m : Xgb Ex (PVal Ex)} {ts ts' : List (Tree Ex (PVal Ex))} (cs' : List (PVal Ex)) (ho : m.objective = .binaryLogistic)
    (ht : m.trees = .binary ts) (h : List.Forall₂ OppositeTree ts ts') (X : Arr Ex) :
    Alongside (Rows 2 [1, 0]) (m.predictProba X) (({ m with trees := .binary ts', classes := cs' } : Xgb Ex (PVal Ex)).predictProba X) := by
  unfold Xgb.predictProba
  refine .after _ fun X _ => ?_
  simp only [ho]
  refine Alongside.bind (R := List.Forall₂ Opp) ?_ fun a b hab => ?_
  · unfold Xgb.predictBinary
    refine .after _ fun n hn => ?_
    clear hn
    simp only [ht]
    clear ht
    have h0 : List.Forall₂ Opp (List.replicate n (ofInt 0 : Ex)) (List.replicate n (ofInt 0)) := by
      induction n with
      | zero => exact .nil
      | succ n ih =>
        refine .cons ?_ ih
        show _ = _
        rw [XR.ofInt_exact]
        show (XR.fin _ : Ex) = XR.fin _
        simp
    revert h0
    generalize List.replicate n (ofInt 0 : Ex) = u
    suffices ∀ u v : List Ex, List.Forall₂ Opp u v → Alongside (List.Forall₂ Opp) (ts.foldlM (Xgb.addTree X) u) (ts'.foldlM (Xgb.addTree X) v) from this u u
    induction h with
    | nil => exact fun u v h => .done h
    | cons ht _ ih =>
      intro u v huv
      rw [List.foldlM_cons, List.foldlM_cons]
      refine Alongside.bind (R := List.Forall₂ Opp) ?_ fun a b hab => ih a b hab
      unfold Xgb.addTree
      refine (opposite_reg ht X).bind fun p q hpq => .done ?_
      induction huv generalizing p q with
      | nil => simp
      | cons h1 _ ih =>
        cases hpq with
        | nil => simp
        | cons h2 h3 =>
          refine .cons ?_ (ih _ _ h3)
          show _ = _
          rw [neg_add_ex, show _ = _ from h1, show _ = _ from h2]
  · have hb : b = a.map Arith.neg := by
      induction hab with
      | nil => rfl
      | cons h _ ih => rw [List.map_cons, ih, show _ = _ from h]
    rw [hb, mapM_map']
    refine Alongside.bind (R := List.Forall₂ fun a b => ofInt 1 -ₚ b = a ∧ b = ofInt 1 -ₚ a) (.mapM (forall₂_same (R := Eq) (fun _ => rfl) a) fun x _ e => ?_) fun p q hpq => .done ?_
    · cases e
      exact expit_neg x
    · induction hpq with
      | nil => exact .nil
      | cons h _ ih => exact .cons (swapped_pair h.1 h.2) ih

/-! ### Every single classifier -/

theorem single_reordered (hp : π.Perm (List.range w)) {s s' : Single Ex} (h : Reordered w π s s') :
    SameChances w π (s.est lib encode) (s'.est lib encode) := by
  cases h with
  | @linear k m coef' cs' b b' d hw hb hd hc hbb hcs =>
    have hl : ({ m with coef := coef', intercept := some b', classes := cs' } : Linear Ex (PVal Ex)).classes.length = m.classes.length :=
      (hcs.len hp).trans hcs.1.symm
    have hdf := decision_reordered (cs' := cs') hp hw hb hd hc hbb
    exact linear_chances hp k rfl rfl rfl hl (fun X => probaLr_reordered hp X (hdf X))
      fun X => logistic_reordered hp (by exact isOvr_reordered rfl rfl hl) X (hdf X)
  | @linear2 k m c b no yes hw hπ hc hb hcs =>
    subst hw hπ
    have hl : ({ m with coef := [c.map Arith.neg], intercept := some [Arith.neg b], classes := [yes, no] } : Linear Ex (PVal Ex)).classes.length = m.classes.length := by
      rw [hcs]; rfl
    have hdf := decision_swapped (cs := [yes, no]) hc hb
    exact linear_chances hp k rfl rfl rfl hl (fun X => probaLr_swapped X (hdf X))
      fun X => logistic_swapped (by exact isOvr_reordered rfl rfl hl) X (hdf X)
  | tree h _ => exact classifier_reordered (tree_reordered hp _ h) fun X => (tree_reordered hp _ h X).bind fun P Q hPQ => mapRows hp hPQ _
  | gaussianNB h1 h2 h3 h4 => exact nb_chances hp _ _ (gaussian_reordered hp h1 h2 h3 h4)
  | multinomialNB h1 h2 h3 => exact nb_chances hp _ _ (multinomial_reordered hp h1 h2 h3)
  | complementNB hw _ h2 h3 => exact nb_chances hp _ _ (complement_reordered hp hw h2 h3)
  | dummy h => exact classifier_reordered (dummy_reordered h) fun X => (dummy_reordered h X).bind fun P Q hPQ => apply2d_rows hp hPQ _
  | xgb h1 h2 h3 h4 _ => exact ⟨rowsReordered_arr (xgb_reordered hp _ h1 h2 h3 h4), rowsReordered_none⟩
  | xgb2 hw hπ h1 h2 h3 _ =>
    subst hw hπ
    exact ⟨rowsReordered_arr (xgb_swapped _ h1 h2 h3), rowsReordered_none⟩

end PurePredict
