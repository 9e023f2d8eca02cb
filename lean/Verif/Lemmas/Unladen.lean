import Verif.Spec.Unladen
import Verif.Lemmas.MemberOrderObject
import Verif.Lemmas.Dot
/-
Trees that add nothing, and the learning rate in the leaves.
-/
namespace PurePredict
open Spec
variable {fp : FP} {lib : String → TextLib} {encode : Str → List Nat}

namespace XR

theorem rep_mul (hs : fp.Sound) (x y : XR fp) : Rep (x *ₚ y) := by
  show Rep (XR.mul x y)
  have hi : ∀ b (r : ℝ), Rep (infMul b r : XR fp) := by
    intro b r
    unfold infMul
    split
    · trivial
    · split <;> trivial
  cases x <;> cases y <;> simp only [XR.mul] <;> first | trivial | exact rep_round hs _ | exact hi _ _

theorem one_fin (hs : fp.Sound) : (ofInt 1 : XR fp) = fin 1 := by
  show (round ((1 : Int) : ℝ) : XR fp) = _
  rw [Int.cast_one]
  exact round_rep hs.one

theorem mul_one_rep (hs : fp.Sound) {s : XR fp} (h : Rep s) : s *ₚ (ofInt 1 : XR fp) = s := by
  rw [one_fin hs]
  show XR.mul s (fin 1) = s
  cases s with
  | fin r => simp only [XR.mul, mul_one]; exact round_rep h
  | pinf => simp [XR.mul, infMul]
  | ninf => simp [XR.mul, infMul]
  | nan => rfl

theorem zero_rep (hs : fp.Sound) : Rep (ofInt 0 : XR fp) := by
  rw [XR.ofInt_zero hs]
  exact rep_zero hs

end XR

namespace Unl

/-- a step that changes nothing may be left out -/
theorem foldlM_idle {α β : Type} {f : α → β → Py α} (P : α → Prop) {pre post : List β} {s : β}
    (hP : ∀ x ∈ pre, ∀ a b, P a → f a x = .ok b → P b) (hs : ∀ a, P a → f a s = .ok a) {a : α} (ha : P a) :
    (pre ++ s :: post).foldlM f a = (pre ++ post).foldlM f a := by
  induction pre generalizing a with
  | nil =>
    rw [List.nil_append, List.nil_append, foldlM_cons', hs a ha]
    rfl
  | cons x pre ih =>
    rw [List.cons_append, List.cons_append, foldlM_cons', foldlM_cons']
    cases h : f a x with
    | error e => rfl
    | ok b => exact ih (fun x hx => hP x (by simp [hx])) (hP x (by simp) a b ha h)

/-- numbers of the format, one for each record -/
def Column (n : Nat) (c : List (XR fp)) : Prop := c.length = n ∧ ∀ x ∈ c, XR.Rep x

theorem column_start (hs : fp.Sound) (n : Nat) : Column n (List.replicate n (ofInt 0 : XR fp)) :=
  ⟨by simp, fun x hx => (List.eq_of_mem_replicate hx) ▸ XR.zero_rep hs⟩

theorem zip_rep (hs : fp.Sound) (g : XR fp → XR fp) (c p : List (XR fp)) : ∀ x ∈ List.zipWith (fun a b => a +ₚ g b) c p, XR.Rep x := by
  induction c generalizing p with
  | nil => intro x hx; simp at hx
  | cons a c ih =>
    cases p with
    | nil => intro x hx; simp at hx
    | cons b p =>
      intro x hx
      rw [List.zipWith_cons_cons, List.mem_cons] at hx
      rcases hx with rfl | hx
      · exact XR.rep_add hs _ _
      · exact ih p x hx

theorem zip_zero (g : XR fp → XR fp) (hg : g (.fin 0) = .fin 0) {c : List (XR fp)} (hc : ∀ x ∈ c, XR.Rep x) :
    List.zipWith (fun a b => a +ₚ g b) c (List.replicate c.length (.fin 0)) = c := by
  induction c with
  | nil => rfl
  | cons a c ih =>
    rw [List.length_cons, List.replicate_succ, List.zipWith_cons_cons, hg, XR.add_zero_rep (hc a (by simp)), ih fun x hx => hc x (by simp [hx])]

theorem checked_rows {X : Arr (XR fp)} {l : List (Row (XR fp))} (hX : X = .list l) (hl : l ≠ []) (s : HandleSparse) : checkArray X s = .ok X := by
  subst hX
  unfold checkArray
  simp only
  rw [if_neg (by simpa using hl)]

theorem silent_reg {t : Tree (XR fp) (PVal (XR fp))} (h : Silent t) {l : List (Row (XR fp))} (hl : l ≠ []) :
    t.predictReg (.list l) = .ok (List.replicate l.length (.fin 0)) := by
  obtain ⟨v, h⟩ := h
  unfold Tree.predictReg
  rw [checked_rows rfl hl, py_ok_bind]
  show (l.mapM t.getLeafNode >>= _) = _
  have hz : ∀ x, t.getLeafNode x = .ok 0 ∧ pyGet t.value 0 = .ok (.fin 0 :: v) := by
    intro x
    cases h with
    | leaf hl hr hv =>
      refine ⟨?_, ?_⟩
      · unfold Tree.getLeafNode
        have h1 : t.step x ((0 : Nat) : Int) = .ok none := by simp only [Tree.step, pyGet_ok_nat.2 hl, pyGet_ok_nat.2 hr, py_ok_bind, beq_self_eq_true, if_true, py_pure]
        have h1 : t.step x 0 = .ok none := h1
        show t.walk x (2 * t.childrenLeft.length + 1) 0 = _
        unfold Tree.walk
        rw [h1]
        rfl
      · exact pyGet_ok_nat.2 hv
  have h1 : l.mapM t.getLeafNode = .ok (List.replicate l.length 0) := by
    clear hl
    induction l with
    | nil => rfl
    | cons x l ih => rw [mapM_cons', ih, (hz x).1]; rfl
  rw [h1, py_ok_bind]
  generalize l.length = n
  induction n with
  | zero => rfl
  | succ n ih =>
    rw [List.replicate_succ, mapM_cons', ih, (hz (.scalar (.fin 0))).2, py_ok_bind]
    rfl

theorem reg_length {t : Tree (XR fp) (PVal (XR fp))} {l : List (Row (XR fp))} (hl : l ≠ []) {p} (h : t.predictReg (.list l) = .ok p) : p.length = l.length := by
  unfold Tree.predictReg at h
  rw [checked_rows rfl hl, py_ok_bind] at h
  obtain ⟨rs, h0, h⟩ := bind_ok_iff.1 h
  cases h0
  obtain ⟨ls, h1, h2⟩ := bind_ok_iff.1 h
  rw [mapM_length h2, mapM_length h1]

/-! ### Stages -/

theorem start_rows {C : Type} {g : GB (XR fp) C} {X : Arr (XR fp)} {I} (h : g.rawPredictInit X = .ok I) : ∃ l, X = .list l ∧ l ≠ [] := by
  unfold GB.rawPredictInit at h
  obtain ⟨Y, hY, h⟩ := bind_ok_iff.1 h
  obtain ⟨w, hw, -⟩ := bind_ok_iff.1 h
  cases X with
  | list l =>
    refine ⟨l, rfl, ?_⟩
    rintro rfl
    cases hY
    cases hw
  | sparse => cases hY
  | errObj => cases hY
  | other => cases hY

theorem stageOn_column (hs : fp.Sound) {C : Type} (g : GB (XR fp) C) {l : List (Row (XR fp))} (hl : l ≠ []) (k : Nat) {st : List (Arr (XR fp) → Py (List (XR fp)))}
    (hreg : ∀ f ∈ st, ∃ t : Tree (XR fp) (PVal (XR fp)), ∀ X, f X = t.predictReg X) {a b : List (XR fp)} (ha : Column l.length a) (h : stageOn g (.list l) k a st = .ok b) :
    Column l.length b := by
  unfold stageOn at h
  obtain ⟨f, hf, h⟩ := bind_ok_iff.1 h
  obtain ⟨p, hp, h⟩ := bind_ok_iff.1 h
  obtain ⟨t, ht⟩ := hreg f (pyGet_ok_mem hf)
  rw [ht] at hp
  have := reg_length hl hp
  rw [column_zip] at h
  split at h
  · cases h
    refine ⟨by simp [ha.1, this], zip_rep hs (fun b => b *ₚ g.learningRate) _ _⟩
  · cases h

theorem stageOn_silent (hs : fp.Sound) {C : Type} (g : GB (XR fp) C) {rate : ℝ} (hr : g.learningRate = .fin rate) {l : List (Row (XR fp))} (hl : l ≠ []) {k : Nat}
    {st : List (Arr (XR fp) → Py (List (XR fp)))} (hk : k < st.length)
    (hreg : ∀ f ∈ st, ∃ t : Tree (XR fp) (PVal (XR fp)), Silent t ∧ ∀ X, f X = t.predictReg X) {a : List (XR fp)} (ha : Column l.length a) :
    stageOn g (.list l) k a st = .ok a := by
  unfold stageOn
  rw [pyGet_lt hk, py_ok_bind]
  obtain ⟨t, h1, h2⟩ := hreg _ (List.getElem_mem hk)
  rw [h2, silent_reg h1 hl, py_ok_bind]
  rw [column_zip, if_pos (by simp [ha.1]), ← ha.1, hr]
  exact congrArg _ (zip_zero (fun b => b *ₚ (.fin rate : XR fp)) (XR.zero_mul_fin hs rate) ha.2)

theorem stage_agree (hs : fp.Sound) {pre post : List (List (Methods (XR fp)))} {st : List (Methods (XR fp))} (hne : pre ++ post ≠ []) {n : Nat}
    (hn : ∀ s ∈ pre ++ st :: post, s.length = n) (hreg : ∀ s ∈ pre, ∀ m ∈ s, ∃ t : Tree (XR fp) (PVal (XR fp)), ∀ X, Est.runNumbers m X = t.predictReg X)
    (hsil : ∀ m ∈ st, ∃ t : Tree (XR fp) (PVal (XR fp)), Silent t ∧ ∀ X, Est.runNumbers m X = t.predictReg X) (cs : List (PVal (XR fp))) (init : Methods (XR fp)) (l : Loss) (rate : ℝ) (nf : Nat) :
    AllAgree (boostingEst cs (pre ++ st :: post) init l (.fin rate) nf) (boostingEst cs (pre ++ post) init l (.fin rate) nf) := by
  unfold boostingEst
  refine gb_agree rfl rfl fun X => ?_
  unfold GB.rawPredict
  refine .after _ fun I hI => ?_
  obtain ⟨rs, rfl, hl⟩ := start_rows hI
  obtain ⟨a, A, hA⟩ : ∃ a A, pre ++ post = a :: A := by
    cases h : pre ++ post with
    | nil => exact absurd h hne
    | cons a A => exact ⟨a, A, rfl⟩
  obtain ⟨b, B, hB⟩ : ∃ b B, pre ++ st :: post = b :: B := by
    cases pre with
    | nil => exact ⟨_, _, rfl⟩
    | cons a A => exact ⟨_, _, rfl⟩
  have ea : a.length = n := hn a (by
    have : a ∈ pre ++ post := by simp [hA]
    simp only [List.mem_append, List.mem_cons] at this ⊢
    tauto)
  have eb : b.length = n := hn b (by simp [hB])
  have fa : pyGet ((pre ++ post).map fun st => st.map fun m => Est.runNumbers m) 0 = .ok (a.map fun m => Est.runNumbers m) := by rw [hA]; exact pyGet_zero_cons _ _
  have fb : pyGet ((pre ++ st :: post).map fun st => st.map fun m => Est.runNumbers m) 0 = .ok (b.map fun m => Est.runNumbers m) := by rw [hB]; exact pyGet_zero_cons _ _
  simp only [fa, fb, py_ok_bind, List.length_map, ea, eb]
  refine Alongside.next (?_ : Alongside Eq _ _) _
  refine (Alongside.mapM (S := Eq) (R := fun i j => i = j ∧ i < n) ?_ fun k _ e => ?_).mono fun x y h => List.forall₂_eq_eq_eq ▸ h
  · rw [List.forall₂_same]
    exact fun x hx => ⟨rfl, List.mem_range.1 hx⟩
  obtain ⟨rfl, hk⟩ := e
  show Alongside Eq (GB.rawColumn _ _ _ _ (List.replicate rs.length (ofInt 0))) (GB.rawColumn _ _ _ _ (List.replicate rs.length (ofInt 0)))
  rw [rawColumn_fold, rawColumn_fold]
  generalize hg : (⟨cs, (pre ++ st :: post).map fun st => st.map fun m => Est.runNumbers m, Est.runProba init, .fin rate, nf, l⟩ : GB (XR fp) (PVal (XR fp))) = g
  have hr : g.learningRate = .fin rate := by subst hg; rfl
  have e : ∀ g' : GB (XR fp) (PVal (XR fp)), g'.learningRate = .fin rate → stageOn g' (.list rs) k = stageOn g (.list rs) k := by
    intro g' h
    funext c st
    unfold stageOn
    rw [h, hr]
  rw [e ⟨cs, (pre ++ post).map fun st => st.map fun m => Est.runNumbers m, Est.runProba init, .fin rate, nf, l⟩ rfl, List.map_append, List.map_append, List.map_cons]
  rw [foldlM_idle (Column rs.length) (fun x hx a b ha h => ?_) (fun a ha => ?_) (column_start hs _)]
  · exact .same _
  · obtain ⟨s, hs', rfl⟩ := List.mem_map.1 hx
    refine stageOn_column hs g hl k (fun f hf => ?_) ha h
    obtain ⟨m, hm, rfl⟩ := List.mem_map.1 hf
    exact hreg s hs' m hm
  · refine stageOn_silent hs g hr hl (by simpa [hn st (by simp)] using hk) (fun f hf => ?_) ha
    obtain ⟨m, hm, rfl⟩ := List.mem_map.1 hf
    exact hsil m hm

/-! ### The learning rate -/

theorem leaf_same (lr : XR fp) (t : Tree (XR fp) (PVal (XR fp))) : (scaledTree lr t).getLeafNode = t.getLeafNode := by
  funext x
  unfold Tree.getLeafNode
  have : ∀ n i, (scaledTree lr t).walk x n i = t.walk x n i := by
    intro n
    induction n with
    | zero => intro i; rfl
    | succ n ih =>
      intro i
      unfold Tree.walk
      simp only [ih]
      rfl
  exact this _ _

theorem forall₂_times (lr : XR fp) (v : List (XR fp)) : List.Forall₂ (fun a b => b = a *ₚ lr) v (v.map fun x => x *ₚ lr) := by
  induction v with
  | nil => exact .nil
  | cons a v ih => exact .cons rfl ih

theorem times_of {lr : XR fp} {p q : List (XR fp)} (h : List.Forall₂ (fun a b => b = a *ₚ lr) p q) : q = p.map fun x => x *ₚ lr := by
  induction h with
  | nil => rfl
  | cons e _ ih => rw [e, ih, List.map_cons]

theorem reg_scaled (lr : XR fp) (t : Tree (XR fp) (PVal (XR fp))) (X : Arr (XR fp)) :
    Alongside (fun p q => q = p.map fun x => x *ₚ lr) (t.predictReg X) ((scaledTree lr t).predictReg X) := by
  unfold Tree.predictReg
  rw [leaf_same]
  refine .after _ fun X _ => .after _ fun rs _ => .after _ fun ls _ => ?_
  refine (Alongside.mapM (S := fun a b => b = a *ₚ lr) (forall₂_same (R := Eq) (fun _ => rfl) ls) fun nd _ e => ?_).mono fun _ _ h => times_of h
  cases e
  have hv : List.Forall₂ (fun (a b : List (XR fp)) => b = a.map fun x => x *ₚ lr) t.value (scaledTree lr t).value := by
    unfold scaledTree
    simp only
    generalize t.value = V
    induction V with
    | nil => exact .nil
    | cons a V ih => exact .cons rfl ih
  refine (pyGet_along hv nd).bind fun v v' e => ?_
  rw [e]
  exact pyGet_along (forall₂_times lr v) 0

theorem zip_rate (hs : fp.Sound) (lr : XR fp) (c p : List (XR fp)) :
    List.zipWith (fun a b => a +ₚ (b *ₚ (ofInt 1 : XR fp))) c (p.map fun x => x *ₚ lr) = List.zipWith (fun a b => a +ₚ (b *ₚ lr)) c p := by
  induction c generalizing p with
  | nil => rfl
  | cons a c ih =>
    cases p with
    | nil => rfl
    | cons b p => rw [List.map_cons, List.zipWith_cons_cons, List.zipWith_cons_cons, ih, XR.mul_one_rep hs (XR.rep_mul hs _ _)]

/-- the second gives the numbers of the first times the learning rate -/
def Rated (lr : XR fp) (m m' : Methods (XR fp)) : Prop :=
  ∀ X, Alongside (fun p q => q = p.map fun x => x *ₚ lr) (Est.runNumbers m X) (Est.runNumbers m' X)

theorem stageOn_rate (hs : fp.Sound) {C : Type} {lr : XR fp} {g g' : GB (XR fp) C} (hg : g.learningRate = lr) (hg' : g'.learningRate = ofInt 1) (X : Arr (XR fp)) (k : Nat)
    (c : List (XR fp)) {st st' : List (Methods (XR fp))} (h : List.Forall₂ (Rated lr) st st') :
    Alongside Eq (stageOn g X k c (st.map fun m => Est.runNumbers m)) (stageOn g' X k c (st'.map fun m => Est.runNumbers m)) := by
  unfold stageOn
  have hf : List.Forall₂ (fun (f f' : Arr (XR fp) → Py (List (XR fp))) => Alongside (fun p q => q = p.map fun x => x *ₚ lr) (f X) (f' X))
      (st.map fun m => Est.runNumbers m) (st'.map fun m => Est.runNumbers m) := by
    induction h with
    | nil => exact .nil
    | cons h _ ih => exact .cons (h X) ih
  refine (pyGet_along hf (k : Int)).bind fun f f' hff => hff.bind fun p q e => ?_
  subst e
  rw [column_zip, column_zip, hg, hg', List.length_map, zip_rate hs]
  exact .same _

theorem rate_agree (hs : fp.Sound) {lr : XR fp} {stages stages' : List (List (Methods (XR fp)))} (h : List.Forall₂ (List.Forall₂ (Rated lr)) stages stages')
    (cs : List (PVal (XR fp))) (init : Methods (XR fp)) (l : Loss) (nf : Nat) :
    AllAgree (boostingEst cs stages init l lr nf) (boostingEst cs stages' init l (ofInt 1) nf) := by
  unfold boostingEst
  refine gb_agree rfl rfl fun X => ?_
  unfold GB.rawPredict
  refine .after _ fun I hI => ?_
  clear hI
  simp only
  have first : Alongside (fun (a b : List (Arr (XR fp) → Py (List (XR fp)))) => a.length = b.length)
      (pyGet (stages.map fun st => st.map fun m => Est.runNumbers m) 0) (pyGet (stages'.map fun st => st.map fun m => Est.runNumbers m) 0) := by
    refine pyGet_along ?_ 0
    rw [List.forall₂_map_left_iff, List.forall₂_map_right_iff]
    exact h.imp fun a b hab => by simpa using hab.length_eq
  refine first.bind fun a b e => ?_
  rw [e]
  refine Alongside.next (?_ : Alongside Eq _ _) _
  refine (Alongside.mapM (S := Eq) (forall₂_same (R := Eq) (fun _ => rfl) (List.range b.length)) fun k _ e => ?_).mono fun x y h => List.forall₂_eq_eq_eq ▸ h
  cases e
  refine .after _ fun len _ => ?_
  rw [rawColumn_fold, rawColumn_fold]
  generalize List.replicate len (ofInt 0 : XR fp) = c
  generalize hg : (⟨cs, stages.map fun st => st.map fun m => Est.runNumbers m, Est.runProba init, lr, nf, l⟩ : GB (XR fp) (PVal (XR fp))) = g
  generalize hg' : (⟨cs, stages'.map fun st => st.map fun m => Est.runNumbers m, Est.runProba init, ofInt 1, nf, l⟩ : GB (XR fp) (PVal (XR fp))) = g'
  have h1 : g.learningRate = lr := by subst hg; rfl
  have h2 : g'.learningRate = ofInt 1 := by subst hg'; rfl
  clear hg hg' first
  induction h generalizing c with
  | nil => exact .same _
  | cons h _ ih =>
    rw [List.map_cons, List.map_cons, foldlM_cons', foldlM_cons']
    refine (stageOn_rate hs h1 h2 X k c h).bind fun d d' e => ?_
    cases e
    exact ih d

/-! ### Rounds -/

theorem addTree_column (hs : fp.Sound) {l : List (Row (XR fp))} (hl : l ≠ []) {t : Tree (XR fp) (PVal (XR fp))} {a b : List (XR fp)} (ha : Column l.length a)
    (h : Xgb.addTree (.list l) a t = .ok b) : Column l.length b := by
  unfold Xgb.addTree at h
  obtain ⟨p, hp, h⟩ := bind_ok_iff.1 h
  cases h
  refine ⟨by simp [ha.1, reg_length hl hp], zip_rep hs id _ _⟩

theorem addTree_silent {l : List (Row (XR fp))} (hl : l ≠ []) {t : Tree (XR fp) (PVal (XR fp))} (ht : Silent t) {a : List (XR fp)} (ha : Column l.length a) :
    Xgb.addTree (.list l) a t = .ok a := by
  unfold Xgb.addTree
  rw [silent_reg ht hl, py_ok_bind, ← ha.1]
  exact congrArg _ (zip_zero id rfl ha.2)

theorem xgb_less (hs : fp.Sound) {m m' : Xgb (XR fp) (PVal (XR fp))} (hn : ∀ ts, m.trees = .multi ts → ts.length = m.nEstimators) (h : RoundLess m m') (X : Arr (XR fp)) :
    m'.predictProba X = m.predictProba X := by
  unfold Xgb.predictProba
  cases hX : checkArray X with
  | error e => rfl
  | ok Y =>
    simp only [py_ok_bind]
    have rows : Y = .errObj ∨ ∃ l, l ≠ [] ∧ Y = .list l := by
      cases X with
      | list l =>
        unfold checkArray at hX
        simp only at hX
        split at hX
        · cases hX; exact .inl rfl
        · cases hX; exact .inr ⟨l, by rintro rfl; simp_all, rfl⟩
      | sparse => cases hX
      | errObj => cases hX
      | other => cases hX
    cases h with
    | @binary t pre post ho ht hz =>
      simp only [ho]
      have : Xgb.predictBinary { m with nEstimators := (pre ++ post).length, trees := .binary (pre ++ post) } Y = m.predictBinary Y := by
        unfold Xgb.predictBinary
        rcases rows with rfl | ⟨l, hl, rfl⟩
        · rfl
        · show List.foldlM _ (List.replicate l.length (ofInt 0)) _ = _
          simp only [ht]
          show _ = List.foldlM _ (List.replicate l.length (ofInt 0)) _
          exact (foldlM_idle (f := Xgb.addTree (.list l)) (s := t) (Column l.length) (fun x _ a b ha h => addTree_column hs hl ha h) (fun a ha => addTree_silent hl hz ha) (column_start hs _)).symm
      simp only [ho] at this ⊢
      rw [this]
    | @multi r pre post ho ht hr hz =>
      simp only [ho]
      have : Xgb.predict_ { m with nEstimators := (pre ++ post).length, trees := .multi (pre ++ post) } Y = m.predict_ Y := by
        unfold Xgb.predict_
        simp only
        refine mapM_congr fun k hk => ?_
        have hk : k < r.length := hr ▸ List.mem_range.1 hk
        rcases rows with rfl | ⟨l, hl, rfl⟩
        · rfl
        · simp only [ht, ← hn _ ht]
          show (List.range _).foldlM _ (List.replicate l.length (ofInt 0)) = (List.range _).foldlM _ (List.replicate l.length (ofInt 0))
          rw [foldlM_range_get (pre ++ post) (fun acc r => pyGet r (k : Int) >>= fun t => Xgb.addTree (.list l) acc t) _ fun j b hb a => by
              rw [pyGet_ok_nat.2 hb]; simp only [py_ok_bind],
            foldlM_range_get (pre ++ r :: post) (fun acc r => pyGet r (k : Int) >>= fun t => Xgb.addTree (.list l) acc t) _ fun j b hb a => by
              rw [pyGet_ok_nat.2 hb]; simp only [py_ok_bind]]
          refine (foldlM_idle (Column l.length) (fun x _ a b ha h => ?_) (fun a ha => ?_) (column_start hs _)).symm
          · obtain ⟨t, -, h⟩ := bind_ok_iff.1 h
            exact addTree_column hs hl ha h
          · rw [pyGet_lt hk, py_ok_bind]
            exact addTree_silent hl (hz _ (List.getElem_mem hk)) ha
      simp only [ho] at this ⊢
      rw [this]

/-! ### Whole objects -/

theorem forall₂_split {α β : Type} {R : α → β → Prop} {a b : List α} {l : List β} (h : List.Forall₂ R (a ++ b) l) :
    ∃ x y, List.Forall₂ R a x ∧ List.Forall₂ R b y ∧ l = x ++ y := by
  induction a generalizing l with
  | nil => exact ⟨[], l, .nil, h, rfl⟩
  | cons c a ih =>
    cases h with
    | cons h1 h2 =>
      obtain ⟨x, y, g1, g2, rfl⟩ := ih h2
      exact ⟨_ :: x, y, .cons h1 g1, g2, rfl⟩

theorem behaves_unladen (hs : fp.Sound) {o o' : SkObj (Attrs (XR fp)) (PVal (XR fp)) (XR fp)} (h : Unladen o o') {f : Methods (XR fp)} (hb : Behaves lib encode o f) :
    ∃ f', Behaves lib encode o' f' ∧ AllAgree f f' := by
  induction h generalizing f with
  | same => exact ⟨f, hb, allAgree_refl f⟩
  | trans _ _ ih1 ih2 =>
    obtain ⟨g, h1, h2⟩ := ih1 hb
    obtain ⟨k, h3, h4⟩ := ih2 h1
    exact ⟨k, h3, allAgree_trans h2 h4⟩
  | @stage v cs pre st post init loss rate nf n hne hn hreg hsil =>
    cases hb with
    | @boosting _ _ _ _ _ lr nf l es e hv hpl he h0 hl =>
      obtain ⟨es1, es2, g1, g2, rfl⟩ : ∃ es1 es2, List.Forall₂ (List.Forall₂ (Behaves lib encode)) pre es1 ∧
          List.Forall₂ (List.Forall₂ (Behaves lib encode)) (st :: post) es2 ∧ es = es1 ++ es2 :=
        forall₂_split he
      cases g2 with
      | @cons _ s _ es3 k1 k2 =>
        have lens : ∀ {a : List (List (SkObj (Attrs (XR fp)) (PVal (XR fp)) (XR fp)))} {b : List (List (Methods (XR fp)))},
            List.Forall₂ (List.Forall₂ (Behaves lib encode)) a b → (∀ s ∈ a, s.length = n) → ∀ s ∈ b, s.length = n := by
          intro a b hab ha s hs
          obtain ⟨x, hx, hf⟩ := forall₂_mem_right hab hs
          rw [← hf.length_eq, ha x hx]
        refine ⟨_, .boosting hv hpl (es := es1 ++ es3) (List.rel_append g1 k2) h0 hl, stage_agree hs ?_ (n := n) (lens he hn) (fun st hst m hm => ?_) (fun m hm => ?_) _ _ _ _ _⟩
        · intro e
          have : (pre ++ post).length = (es1 ++ es3).length := (List.rel_append g1 k2).length_eq
          rw [e] at this
          exact hne (List.length_eq_zero_iff.1 this)
        · obtain ⟨s, hs, hf⟩ := forall₂_mem_right g1 hst
          obtain ⟨x, hx, hbx⟩ := forall₂_mem_right hf hm
          cases hreg s hs x hx with
          | @mk c v a t hl =>
            obtain ⟨rfl, -⟩ := leaf_behaves hl hbx
            exact ⟨t, fun X => regressor_numbers t X⟩
        · obtain ⟨x, hx, hbx⟩ := forall₂_mem_right k1 hm
          cases hsil x hx with
          | @mk c v a t hl hz =>
            obtain ⟨rfl, -⟩ := leaf_behaves hl hbx
            exact ⟨t, hz, fun X => regressor_numbers t X⟩
  | @rate v cs stages stages' init loss lr nf hw =>
    cases hb with
    | @boosting _ _ _ _ _ lr nf l es e hv hpl he h0 hl =>
      have one : ∀ {st st' : List (SkObj (Attrs (XR fp)) (PVal (XR fp)) (XR fp))} {e : List (Methods (XR fp))}, List.Forall₂ (WithRate lr) st st' →
          List.Forall₂ (Behaves lib encode) st e → ∃ e', List.Forall₂ (Behaves lib encode) st' e' ∧ List.Forall₂ (Rated lr) e e' := by
        intro st st' e h hbs
        induction h generalizing e with
        | nil => cases hbs; exact ⟨[], .nil, .nil⟩
        | cons hw _ ih =>
          cases hbs with
          | cons hb hbs =>
            obtain ⟨e', i1, i2⟩ := ih hbs
            cases hw with
            | @mk n v a a' t h1 h2 =>
              obtain ⟨rfl, hv⟩ := leaf_behaves h1 hb
              refine ⟨_ :: e', .cons (.single hv h2) i1, .cons (fun X => ?_) i2⟩
              rw [regressor_numbers, regressor_numbers]
              exact reg_scaled lr t X
      have all : ∃ es', List.Forall₂ (List.Forall₂ (Behaves lib encode)) stages' es' ∧ List.Forall₂ (List.Forall₂ (Rated lr)) es es' := by
        clear hl h0
        induction hw generalizing es with
        | nil => cases he; exact ⟨[], .nil, .nil⟩
        | cons hw _ ih =>
          cases he with
          | cons hb hbs =>
            obtain ⟨e', i1, i2⟩ := ih hbs
            obtain ⟨x, j1, j2⟩ := one hw hb
            exact ⟨_ :: e', .cons j1 i1, .cons j2 i2⟩
      obtain ⟨es', h1, h2⟩ := all
      exact ⟨_, .boosting hv hpl h1 h0 hl, rate_agree hs h2 _ _ _ _⟩
  | @round c v a a' m m' h1 h2 hm =>
    obtain ⟨rfl, hv⟩ := leaf_behaves h1 hb
    refine ⟨_, .single hv h2, ?_⟩
    have hpp : ∀ X, Alongside Eq (m.predictProba X) (m'.predictProba X) := fun X => xgb_less hs (learned_rounds h1) hm X ▸ .same _
    refine ⟨sameResults_none, sameResults_some (onArr_along fun X => ?_), sameResults_some (onArr_along hpp), sameResults_none⟩
    unfold Xgb.predict
    have hc : m'.classes = m.classes := by cases hm <;> rfl
    rw [hc]
    exact (hpp X).next _
  | @inPipeline v steps n o o' _ ih =>
    cases hb with
    | @pipeline _ _ es hv he =>
      rw [List.map_append] at he
      obtain ⟨zs, z, rfl, g1, g2⟩ := forall₂_snoc he
      obtain ⟨z', h1, h2⟩ := ih g2
      refine ⟨_, .pipeline (es := zs ++ [z']) hv ?_, ?_⟩
      · rw [List.map_append]
        exact forall₂_append_one g1 h1
      · have hl : (steps.map Prod.fst).length = zs.length := by rw [← g1.length_eq]; simp
        have e : ∀ x : SkObj (Attrs (XR fp)) (PVal (XR fp)) (XR fp), ∀ y : Methods (XR fp), ((steps ++ [(n, x)]).map Prod.fst).zip (zs ++ [y]) = (steps.map Prod.fst).zip zs ++ [(n, y)] := by
          intro x y
          rw [List.map_append, List.zip_append hl]
          rfl
        rw [e, e]
        exact pipe_agree h2 _ n
  | @inEnsemble k v fs cs ms ms' hlen _ ih =>
    cases hb with
    | @ensemble _ _ _ _ _ es hv hpl he =>
      obtain ⟨es', h1, h2⟩ := behaves_both he hlen fun p hp f hf => ih p hp hf
      exact ⟨_, .ensemble hv hpl h1, inEnsemble_agree h2 _ _⟩
  | @inStart v cs stages init init' loss args _ ih =>
    cases hb with
    | @boosting _ _ _ _ _ lr nf l es e hv hpl he h0 hl =>
      obtain ⟨e', h1, h2⟩ := ih h0
      exact ⟨_, .boosting hv hpl he h1 hl, inStart_agree h2 _ _ _ _ _⟩

end Unl
end PurePredict
