import Verif.Spec.MemberOrder
import Verif.Lemmas.ClassOrderObject
/-
Sums over members, stages and rounds in another order.
-/
namespace PurePredict
open Spec
variable {α β : Type} {fp : FP} {lib : String → TextLib} {encode : Str → List Nat}

theorem Spec.Alongside.trans {a b c : Py α} (h : Alongside Eq a b) (h' : Alongside Eq b c) : Alongside Eq a c := by
  cases h with
  | fail => cases h'; exact .fail
  | done h => cases h; exact h'

theorem Spec.Alongside.symm {a b : Py α} (h : Alongside Eq a b) : Alongside Eq b a := by
  cases h with
  | fail => exact .fail
  | done h => cases h; exact .done rfl

/-- both follow -/
theorem Spec.Alongside.next {a b : Py α} (h : Alongside Eq a b) (f : α → Py β) : Alongside Eq (a >>= f) (b >>= f) :=
  h.bind fun x y e => by cases e; exact .same _

theorem foldlM_cons' (f : α → β → Py α) (a : α) (x : β) (l : List β) : (x :: l).foldlM f a = (f a x >>= fun b => l.foldlM f b) := rfl

/-! ### Folds -/

theorem foldlM_perm (f : α → β → Py α) {l l' : List β} (hp : l.Perm l')
    (hf : ∀ x ∈ l, ∀ y ∈ l, ∀ a, Alongside Eq (f a x >>= fun b => f b y) (f a y >>= fun b => f b x)) (a : α) :
    Alongside Eq (l.foldlM f a) (l'.foldlM f a) := by
  induction hp generalizing a with
  | nil => exact .same _
  | cons x _ ih =>
    rw [foldlM_cons', foldlM_cons']
    exact .after _ fun b _ => ih (fun x hx y hy a => hf x (by simp [hx]) y (by simp [hy]) a) b
  | swap x y l =>
    simp only [foldlM_cons']
    rw [← bind_assoc, ← bind_assoc]
    exact (hf y (by simp) x (by simp) a).next _
  | trans h1 h2 ih1 ih2 =>
    exact (ih1 hf a).trans (ih2 (fun x hx y hy a => hf x (h1.mem_iff.2 hx) y (h1.mem_iff.2 hy) a) a)

/-- the first, and the others put onto it one by one -/
def pile (op : α → α → Py α) : List (Py α) → Py α
  | [] => .error .indexError
  | m :: ms => m >>= fun p => ms.foldlM (fun a q => q >>= op a) p

theorem pile_perm (op : α → α → Py α) (hc : ∀ a b, Alongside Eq (op a b) (op b a))
    (hr : ∀ a b c, Alongside Eq (op a b >>= fun s => op s c) (op a c >>= fun s => op s b)) {l l' : List (Py α)} (hp : l.Perm l') :
    Alongside Eq (pile op l) (pile op l') := by
  have step : ∀ (x y : Py α) (a : α), Alongside Eq ((x >>= op a) >>= fun b => y >>= op b) ((y >>= op a) >>= fun b => x >>= op b) := by
    intro x y a
    cases x with
    | error e =>
      cases y with
      | error e' => exact .fail
      | ok q =>
        show Alongside Eq (.error e) (op a q >>= fun _ => .error e)
        cases op a q <;> exact .fail
    | ok p =>
      cases y with
      | error e' =>
        show Alongside Eq (op a p >>= fun _ => .error e') (.error e')
        cases op a p <;> exact .fail
      | ok q => exact hr a p q
  induction hp with
  | nil => exact .same _
  | cons x hp => exact .after _ fun p _ => foldlM_perm _ hp (fun x _ y _ a => step x y a) p
  | swap x y l =>
    unfold pile
    simp only [foldlM_cons']
    cases x with
    | error e => cases y <;> exact .fail
    | ok p =>
      cases y with
      | error e' => exact .fail
      | ok q => exact (hc q p).next _
  | trans _ _ h1 h2 => exact h1.trans h2

/-! ### Sums of matrices -/

theorem add_comm_xr (a b : XR fp) : a +ₚ b = b +ₚ a := by
  show XR.add a b = XR.add b a
  cases a <;> cases b <;> simp only [XR.add]
  rw [add_comm]

theorem zipWith_comm_xr (a b : List (XR fp)) : List.zipWith Arith.add a b = List.zipWith Arith.add b a := by
  induction a generalizing b with
  | nil => cases b <;> rfl
  | cons x a ih => cases b with
    | nil => rfl
    | cons y b => rw [List.zipWith_cons_cons, List.zipWith_cons_cons, ih, add_comm_xr]

theorem zipWith_right (ho : AnyOrder fp) (a b c : List (XR fp)) :
    List.zipWith Arith.add (List.zipWith Arith.add a b) c = List.zipWith Arith.add (List.zipWith Arith.add a c) b := by
  induction a generalizing b c with
  | nil => simp
  | cons x a ih =>
    cases b with
    | nil => simp
    | cons y b => cases c with
      | nil => simp
      | cons z c => simp only [List.zipWith_cons_cons, ih b c, ho x y z]

theorem zipZip_comm (A B : List (List (XR fp))) : A.zipWith (List.zipWith Arith.add) B = B.zipWith (List.zipWith Arith.add) A := by
  induction A generalizing B with
  | nil => cases B <;> rfl
  | cons x A ih => cases B with
    | nil => rfl
    | cons y B => rw [List.zipWith_cons_cons, List.zipWith_cons_cons, ih, zipWith_comm_xr]

theorem zipZip_right (ho : AnyOrder fp) (A B C : List (List (XR fp))) :
    (A.zipWith (List.zipWith Arith.add) B).zipWith (List.zipWith Arith.add) C = (A.zipWith (List.zipWith Arith.add) C).zipWith (List.zipWith Arith.add) B := by
  induction A generalizing B C with
  | nil => simp
  | cons x A ih =>
    cases B with
    | nil => simp
    | cons y B => cases C with
      | nil => simp
      | cons z C => simp only [List.zipWith_cons_cons, ih B C, zipWith_right ho x y z]

theorem shape_sum {F : Type} [Arith F] {A B : List (List F)} (f : F → F → F) {s : Shape} (ha : (Arr.ofMat A).shape = .ok s) (hb : (Arr.ofMat B).shape = .ok s) :
    (Arr.ofMat (A.zipWith (List.zipWith f) B)).shape = .ok s := by
  cases A with
  | nil => cases ha
  | cons r A =>
    cases B with
    | nil => cases hb
    | cons r' B =>
      rw [shape_ofMat_cons] at ha hb
      cases ha
      simp only [Except.ok.injEq, Shape.d2.injEq, Option.some.injEq] at hb
      rw [List.zipWith_cons_cons, shape_ofMat_cons]
      simp [hb.1, hb.2]
      omega

theorem sum_comm (A B : List (List (XR fp))) :
    Alongside Eq (operate2d (.ofMat A) (.ofMat B) Arith.add) (operate2d (.ofMat B) (.ofMat A) Arith.add) := by
  rw [operate2d_shapes, operate2d_shapes]
  cases ha : (Arr.ofMat A).shape with
  | error e => cases (Arr.ofMat B).shape <;> exact .fail
  | ok a =>
    cases hb : (Arr.ofMat B).shape with
    | error e => exact .fail
    | ok b =>
      simp only [py_ok_bind]
      by_cases h : a = b
      · subst h
        rw [zipZip_comm]
        exact .same _
      · have h' : b ≠ a := fun e => h e.symm
        simp only [bne_iff_ne, ne_eq, h, h', not_false_eq_true, if_true]
        exact .fail

theorem sum_right (ho : AnyOrder fp) (A B C : List (List (XR fp))) :
    Alongside Eq (operate2d (.ofMat A) (.ofMat B) Arith.add >>= fun s => operate2d (.ofMat s) (.ofMat C) Arith.add)
      (operate2d (.ofMat A) (.ofMat C) Arith.add >>= fun s => operate2d (.ofMat s) (.ofMat B) Arith.add) := by
  simp only [operate2d_shapes]
  cases ha : (Arr.ofMat A).shape with
  | error e => exact .fail
  | ok a =>
    cases hb : (Arr.ofMat B).shape with
    | error e =>
      cases hc : (Arr.ofMat C).shape with
      | error e => exact .fail
      | ok c =>
        simp only [py_ok_bind]
        split
        · exact .fail
        · rename_i h
          rw [py_ok_bind]
          cases (Arr.ofMat (A.zipWith (List.zipWith Arith.add) C)).shape <;> exact .fail
    | ok b =>
      cases hc : (Arr.ofMat C).shape with
      | error e =>
        simp only [py_ok_bind]
        split
        · exact .fail
        · rw [py_ok_bind]
          cases (Arr.ofMat (A.zipWith (List.zipWith Arith.add) B)).shape <;> exact .fail
      | ok c =>
        simp only [py_ok_bind]
        by_cases h : a = b
        · subst h
          by_cases h' : a = c
          · subst h'
            simp only [bne_self_eq_false, Bool.false_eq_true, if_false, py_ok_bind]
            rw [shape_sum _ ha hb, shape_sum _ ha hc]
            simp only [py_ok_bind, bne_self_eq_false, Bool.false_eq_true, if_false]
            exact .done (zipZip_right ho A B C)
          · simp only [bne_self_eq_false, Bool.false_eq_true, if_false, py_ok_bind, bne_iff_ne, ne_eq, h', not_false_eq_true, if_true]
            rw [shape_sum _ ha hb]
            simp only [py_ok_bind, bne_iff_ne, ne_eq, h', not_false_eq_true, if_true]
            exact .fail
        · simp only [bne_iff_ne, ne_eq, h, not_false_eq_true, if_true]
          by_cases h' : a = c
          · subst h'
            simp only [not_true, if_false, py_ok_bind]
            rw [shape_sum _ ha hc]
            simp only [py_ok_bind, h, not_false_eq_true, if_true]
            exact .fail
          · simp only [h', not_false_eq_true, if_true]
            exact .fail

/-! ### Methods -/

theorem sameResults_none {β : Type} : SameResults (fp := fp) (none : Option (Data (XR fp) → Py β)) none := ⟨fun _ h => (nomatch h), fun _ => rfl⟩

theorem sameResults_some {β : Type} {t u : Data (XR fp) → Py β} (h : ∀ X, Alongside Eq (t X) (u X)) : SameResults (some t) (some u) :=
  ⟨fun _ e => ⟨_, rfl, by cases e; exact h⟩, fun e => nomatch e⟩

theorem sameResults_refl {β : Type} (p : Option (Data (XR fp) → Py β)) : SameResults p p := by
  cases p with
  | none => exact sameResults_none
  | some t => exact sameResults_some fun X => .same _

theorem sameResults_trans {β : Type} {p q r : Option (Data (XR fp) → Py β)} (h : SameResults p q) (h' : SameResults q r) : SameResults p r := by
  refine ⟨fun t ht => ?_, fun e => h'.2 (h.2 e)⟩
  obtain ⟨u, hu, h1⟩ := h.1 t ht
  obtain ⟨v, hv, h2⟩ := h'.1 u hu
  exact ⟨v, hv, fun X => (h1 X).trans (h2 X)⟩

theorem allAgree_refl (f : Methods (XR fp)) : AllAgree f f := ⟨sameResults_refl _, sameResults_refl _, sameResults_refl _, sameResults_refl _⟩

theorem allAgree_trans {f g h : Methods (XR fp)} (h1 : AllAgree f g) (h2 : AllAgree g h) : AllAgree f h :=
  ⟨sameResults_trans h1.1 h2.1, sameResults_trans h1.2.1 h2.2.1, sameResults_trans h1.2.2.1 h2.2.2.1, sameResults_trans h1.2.2.2 h2.2.2.2⟩

theorem onArr_along {β : Type} {p p' : Arr (XR fp) → Py β} (h : ∀ X, Alongside Eq (p X) (p' X)) (X : Data (XR fp)) :
    Alongside Eq (Data.onArr p X) (Data.onArr p' X) := by
  cases X <;> first | exact h _ | exact .same _

theorem classifier_agree {p p' : Arr (XR fp) → Py (List (PVal (XR fp)))} {pp pp' pl pl' : Arr (XR fp) → Py (List (List (XR fp)))}
    (h : ∀ X, Alongside Eq (p X) (p' X)) (h1 : ∀ X, Alongside Eq (pp X) (pp' X)) (h2 : ∀ X, Alongside Eq (pl X) (pl' X)) :
    AllAgree (classifier p pp pl) (classifier p' pp' pl') :=
  ⟨sameResults_none, sameResults_some (onArr_along h), sameResults_some (onArr_along h1), sameResults_some (onArr_along h2)⟩

/-! ### Ensembles -/

section
variable {F C : Type} [Arith F]

theorem accumulate_fold (b : Bagging F C) (X : Arr F) (l : List Nat) (p : List (List F)) :
    b.accumulate X l p = (l.map (b.memberProba X)).foldlM (fun a q => q >>= fun q => operate2d (.ofMat a) (.ofMat q) Arith.add) p := by
  induction l generalizing p with
  | nil => rfl
  | cons i l ih =>
    unfold Bagging.accumulate
    rw [List.map_cons, foldlM_cons', bind_assoc]
    simp only [ih]

/-- the members' probabilities on top of each other, divided by their number -/
theorem predictProba_pile (b : Bagging F C) (X : Arr F) :
    b.predictProba X = (pile (fun a q => operate2d (.ofMat a) (.ofMat q) Arith.add) ((List.range b.estimators.length).map (b.memberProba X)) >>=
      fun p => apply2d (.ofMat p) fun x => x /ₚ ofInt b.estimators.length) := by
  unfold Bagging.predictProba
  cases hn : b.estimators.length with
  | zero =>
    have : b.memberProba X 0 = .error .indexError := by
      unfold Bagging.memberProba
      rw [pyGet_ge (by omega)]
      rfl
    rw [this]
    rfl
  | succ n =>
    rw [List.range_succ_eq_map, List.drop_one, List.tail_cons, List.map_cons]
    unfold pile
    rw [bind_assoc]
    simp only [accumulate_fold]

end

theorem bagging_agree {b b' : Bagging (XR fp) (PVal (XR fp))} (hc : b'.classes = b.classes) (hn : b'.estimators.length = b.estimators.length)
    (h : ∀ X, Alongside Eq (pile (fun a q => operate2d (.ofMat a) (.ofMat q) Arith.add) ((List.range b.estimators.length).map (b.memberProba X)))
      (pile (fun a q => operate2d (.ofMat a) (.ofMat q) Arith.add) ((List.range b'.estimators.length).map (b'.memberProba X)))) :
    AllAgree (classifier b.predict b.predictProba b.predictLogProba) (classifier b'.predict b'.predictProba b'.predictLogProba) := by
  have hpp : ∀ X, Alongside Eq (b.predictProba X) (b'.predictProba X) := by
    intro X
    rw [predictProba_pile, predictProba_pile, hn]
    have := h X
    rw [hn] at this
    exact this.next _
  refine classifier_agree (fun X => ?_) hpp fun X => (hpp X).next _
  unfold Bagging.predict
  rw [hc]
  exact (hpp X).next _

theorem range_map_get {γ δ : Type} (l : List γ) (g : γ → δ) (f : Nat → δ) (h : ∀ i a, l[i]? = some a → f i = g a) : (List.range l.length).map f = l.map g := by
  refine List.ext_getElem (by simp) fun i h1 h2 => ?_
  simp only [List.length_map] at h2
  simp only [List.getElem_map, List.getElem_range]
  exact h i _ (List.getElem?_eq_getElem h2)

theorem pile_pair {γ : Type} (op : γ → γ → Py γ) (hc : ∀ a b, Alongside Eq (op a b) (op b a)) (x y : Py γ) : Alongside Eq (pile op [x, y]) (pile op [y, x]) := by
  cases x with
  | error e => cases y <;> exact .fail
  | ok p =>
    cases y with
    | error e' => exact .fail
    | ok q => exact (hc p q).next fun b => pure b

/-- two members in either order, with all rounding -/
theorem pair_agree (x y : Methods (XR fp)) (cs : List (PVal (XR fp))) : AllAgree (ensembleEst none cs [x, y]) (ensembleEst none cs [y, x]) := by
  unfold ensembleEst
  exact bagging_agree rfl rfl fun X => pile_pair _ sum_comm _ _

theorem pair_subspaces_agree (x y : Methods (XR fp)) (s t : List Int) (cs : List (PVal (XR fp))) :
    AllAgree (ensembleEst (some [s, t]) cs [x, y]) (ensembleEst (some [t, s]) cs [y, x]) := by
  unfold ensembleEst
  exact bagging_agree rfl rfl fun X => pile_pair _ sum_comm _ _

theorem members_agree (ho : AnyOrder fp) {es es' : List (Methods (XR fp))} (hp : es.Perm es') (cs : List (PVal (XR fp))) :
    AllAgree (ensembleEst none cs es) (ensembleEst none cs es') := by
  unfold ensembleEst
  refine bagging_agree rfl (by simp [hp.length_eq]) fun X => ?_
  have e : ∀ l : List (Methods (XR fp)), (List.range (l.map fun m => (⟨m.runProba⟩ : Member (XR fp))).length).map
      ((⟨none, cs, l.map fun m => ⟨m.runProba⟩⟩ : Bagging (XR fp) (PVal (XR fp))).memberProba X) = l.map fun m => m.runProba X := by
    intro l
    rw [List.length_map]
    refine range_map_get l _ _ fun i a ha => ?_
    unfold Bagging.memberProba
    rw [pyGet_ok_nat.2 (by rw [List.getElem?_map, ha]; rfl)]
    rfl
  simp only [e]
  exact pile_perm _ sum_comm (sum_right ho) (hp.map _)

theorem subspaces_agree (ho : AnyOrder fp) {ps ps' : List (Methods (XR fp) × List Int)} (hp : ps.Perm ps') (cs : List (PVal (XR fp))) :
    AllAgree (ensembleEst (some (ps.map Prod.snd)) cs (ps.map Prod.fst)) (ensembleEst (some (ps'.map Prod.snd)) cs (ps'.map Prod.fst)) := by
  unfold ensembleEst
  refine bagging_agree rfl (by simp [hp.length_eq]) fun X => ?_
  have e : ∀ l : List (Methods (XR fp) × List Int), (List.range ((l.map Prod.fst).map fun m => (⟨m.runProba⟩ : Member (XR fp))).length).map
      ((⟨some (l.map Prod.snd), cs, (l.map Prod.fst).map fun m => ⟨m.runProba⟩⟩ : Bagging (XR fp) (PVal (XR fp))).memberProba X) =
        l.map fun p => featSlice X (some p.2) >>= fun Y => p.1.runProba Y := by
    intro l
    rw [List.length_map, List.length_map]
    refine range_map_get l _ _ fun i a ha => ?_
    unfold Bagging.memberProba Bagging.getFeats
    rw [pyGet_ok_nat.2 (by rw [List.getElem?_map, List.getElem?_map, ha]; rfl)]
    simp only [py_ok_bind]
    rw [pyGet_ok_nat.2 (by rw [List.getElem?_map, ha]; rfl)]
    rfl
  simp only [e]
  exact pile_perm _ sum_comm (sum_right ho) (hp.map _)

theorem runProba_agree {e e' : Methods (XR fp)} (h : AllAgree e e') (X : Arr (XR fp)) : Alongside Eq (e.runProba X) (e'.runProba X) := by
  unfold Est.runProba
  cases he : e.predictProba with
  | none => rw [h.2.2.1.2 he]; exact .fail
  | some q =>
    obtain ⟨q', hq', hX⟩ := h.2.2.1.1 q he
    rw [hq']
    exact hX _

theorem pile_along {γ : Type} (op : γ → γ → Py γ) {l l' : List (Py γ)} (h : List.Forall₂ (Alongside Eq) l l') : Alongside Eq (pile op l) (pile op l') := by
  have fold : ∀ {l l' : List (Py γ)}, List.Forall₂ (Alongside Eq) l l' → ∀ a, Alongside Eq (l.foldlM (fun a q => q >>= op a) a) (l'.foldlM (fun a q => q >>= op a) a) := by
    intro l l' h
    induction h with
    | nil => exact fun a => .same _
    | cons h _ ih =>
      intro a
      rw [foldlM_cons', foldlM_cons']
      exact (h.next _).bind fun x y e => by cases e; exact ih _
  cases h with
  | nil => exact .fail
  | cons h hs => exact h.bind fun x y e => by cases e; exact fold hs _

theorem inEnsemble_agree {es es' : List (Methods (XR fp))} (h : List.Forall₂ AllAgree es es') (fs : Option (List (List Int))) (cs : List (PVal (XR fp))) :
    AllAgree (ensembleEst fs cs es) (ensembleEst fs cs es') := by
  unfold ensembleEst
  refine bagging_agree rfl (by simp [h.length_eq]) fun X => ?_
  refine pile_along _ ?_
  rw [List.length_map, List.length_map, h.length_eq]
  refine moved_map (forall₂_same (R := Eq) (fun _ => rfl) _) fun i _ e => ?_
  cases e
  unfold Bagging.memberProba
  refine Alongside.bind (R := fun m m' => ∀ X, Alongside Eq (m.predictProba X) (m'.predictProba X)) ?_ fun m m' hmm => ?_
  · exact pyGet_along (moved_map h fun e e' he => by exact runProba_agree he) _
  · exact .after _ fun _ _ => .after _ fun Y _ => hmm Y

end PurePredict
