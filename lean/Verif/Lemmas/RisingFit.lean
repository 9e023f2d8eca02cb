import Verif.Lemmas.RisingArith
import Verif.Lemmas.TreeEncode
import Verif.Lemmas.UnfailingFit
/-
Single estimators whose answers move with the columns.
-/
namespace PurePredict
open Spec
variable {fp : FP}

/-! ### Requests -/

theorem below_lengths {ws : List Way} {x y : List (XR fp)} (h : Below ws x y) : x.length = ws.length ∧ y.length = ws.length := by
  induction h with
  | nil => exact ⟨rfl, rfl⟩
  | cons _ _ ih => simp [ih.1, ih.2]

theorem below_get {ws : List Way} {x y : List (XR fp)} (h : Below ws x y) {i : Nat} {w : Way} {a b : XR fp} (h1 : ws[i]? = some w)
    (h2 : x[i]? = some a) (h3 : y[i]? = some b) : w.Rel a b := by
  induction h generalizing i with
  | nil => simp at h1
  | cons h _ ih =>
    cases i with
    | zero =>
      simp only [List.getElem?_cons_zero, Option.some.injEq] at h1 h2 h3
      subst h1 h2 h3
      exact h
    | succ i => exact ih (i := i) (by simpa using h1) (by simpa using h2) (by simpa using h3)

theorem below_of_get {ws : List Way} {x y : List (XR fp)} (hx : x.length = ws.length) (hy : y.length = ws.length)
    (h : ∀ (i : Nat) w a b, ws[i]? = some w → x[i]? = some a → y[i]? = some b → w.Rel a b) : Below ws x y := by
  induction ws generalizing x y with
  | nil =>
    rw [List.length_nil, List.length_eq_zero_iff] at hx hy
    subst hx hy
    exact .nil
  | cons w ws ih =>
    cases x with
    | nil => simp at hx
    | cons a x =>
      cases y with
      | nil => simp at hy
      | cons b y =>
        refine .cons (h 0 w a b rfl rfl rfl) (ih (by simpa using hx) (by simpa using hy) fun i w a b h1 h2 h3 => ?_)
        exact h (i + 1) w a b (by simpa using h1) (by simpa using h2) (by simpa using h3)

theorem below_append {ws vs : List Way} {x y u v : List (XR fp)} (h : Below ws x y) (h' : Below vs u v) : Below (ws ++ vs) (x ++ u) (y ++ v) := by
  induction h with
  | nil => exact h'
  | cons h _ ih => exact .cons h ih

theorem Spec.Moved.left {ws : List Way} {M N : List (List (XR fp))} (h : Moved ws M N) : M ≠ [] ∧ Rect ws.length M := by
  refine ⟨h.1, ?_⟩
  obtain ⟨-, h⟩ := h
  induction h with
  | nil => exact fun r hr => by simp at hr
  | cons h _ ih =>
    intro r hr
    rcases List.mem_cons.1 hr with rfl | hr
    · exact (below_lengths h).1
    · exact ih r hr

theorem Spec.Moved.right {ws : List Way} {M N : List (List (XR fp))} (h : Moved ws M N) : N ≠ [] ∧ Rect ws.length N := by
  obtain ⟨h0, h⟩ := h
  refine ⟨by rintro rfl; cases h; exact h0 rfl, ?_⟩
  clear h0
  induction h with
  | nil => exact fun r hr => by simp at hr
  | cons h _ ih =>
    intro r hr
    rcases List.mem_cons.1 hr with rfl | hr
    · exact (below_lengths h).2
    · exact ih r hr

theorem Spec.Moved.length {ws : List Way} {M N : List (List (XR fp))} (h : Moved ws M N) : M.length = N.length := h.2.length_eq

theorem moved_map {α β γ δ : Type} {R : α → β → Prop} {S : γ → δ → Prop} {f : α → γ} {g : β → δ} {l : List α} {l' : List β}
    (h : List.Forall₂ R l l') (hfg : ∀ a b, R a b → S (f a) (g b)) : List.Forall₂ S (l.map f) (l'.map g) := by
  induction h with
  | nil => exact .nil
  | cons h _ ih => exact .cons (hfg _ _ h) ih

theorem forall₂_zipWith {α β γ δ ε ζ : Type} {R : α → β → Prop} {S : γ → δ → Prop} {T : ε → ζ → Prop} {f : α → γ → ε} {g : β → δ → ζ}
    {l : List α} {l' : List β} {m : List γ} {m' : List δ} (h : List.Forall₂ R l l') (h' : List.Forall₂ S m m')
    (hfg : ∀ a b c d, R a b → S c d → T (f a c) (g b d)) : List.Forall₂ T (List.zipWith f l m) (List.zipWith g l' m') := by
  induction h generalizing m m' with
  | nil => exact .nil
  | cons h _ ih =>
    cases h' with
    | nil => exact .nil
    | cons k k' => exact .cons (hfg _ _ _ _ h k) (ih k')

theorem forall₂_same {α : Type} {R : α → α → Prop} (h : ∀ a, R a a) (l : List α) : List.Forall₂ R l l := by
  induction l with
  | nil => exact .nil
  | cons a l ih => exact .cons (h a) ih

theorem moved_ofRows {ws vs : List Way} {M N M' N' : List (List (XR fp))} (h : Moved ws M N) (h' : List.Forall₂ (Below vs) M' N')
    (hl : M'.length = M.length) : Moved vs M' N' :=
  ⟨fun e => h.1 (by rw [← List.length_eq_zero_iff, ← hl, e]; rfl), h'⟩

/-! ### Scalers -/

theorem rel_both {op : XR fp → Py (XR fp)} (hop : ∀ a b, (a ≤ₚ b) = true → Both (fun u v => (u ≤ₚ v) = true) (op a) (op b)) (w : Way)
    {a b : XR fp} (h : w.Rel a b) : Both w.Rel (op a) (op b) := by
  cases w with
  | up => exact hop a b h
  | down => exact fun u v hu hv => hop b a h v u hv hu
  | still =>
    cases (h : a = b)
    exact Both.same

/-- A step done column by column. -/
theorem columns_both {ws : List Way} {op : Nat → XR fp → Py (XR fp)} {n : Nat} (hn : n = ws.length)
    (hop : ∀ i < n, ∀ a b, (a ≤ₚ b) = true → Both (fun u v => (u ≤ₚ v) = true) (op i a) (op i b)) {x y : List (XR fp)} (h : Below ws x y) :
    Both (Below ws) ((List.range n).mapM fun (i : Nat) => pyGet x (i : Int) >>= op i)
      ((List.range n).mapM fun (i : Nat) => pyGet y (i : Int) >>= op i) := by
  intro u v hu hv
  have lu := mapM_length hu
  have lv := mapM_length hv
  rw [List.length_range, hn] at lu lv
  obtain ⟨lx, ly⟩ := below_lengths h
  refine below_of_get lu lv fun i w a b h1 h2 h3 => ?_
  obtain ⟨hi, -⟩ := List.getElem?_eq_some_iff.1 h1
  have hin : i < n := by omega
  have e1 := mapM_getElem hu i (by simpa using hin) (by omega)
  have e2 := mapM_getElem hv i (by simpa using hin) (by omega)
  rw [List.getElem_range, pyGet_lt (by omega), py_ok_bind] at e1 e2
  rw [List.getElem?_eq_getElem (by omega), Option.some.injEq] at h2 h3
  rw [h2] at e1
  rw [h3] at e2
  refine rel_both (hop i hin) w ?_ a b e1 e2
  exact below_get h h1 (List.getElem?_eq_getElem (by omega)) (List.getElem?_eq_getElem (by omega))

theorem columnwise_both {ws : List Way} {p : List (XR fp)} (hp : p.length = ws.length) {f : XR fp → XR fp → Py (XR fp)}
    (hf : ∀ c ∈ p, ∀ a b, (a ≤ₚ b) = true → Both (fun u v => (u ≤ₚ v) = true) (f a c) (f b c)) {M N : List (List (XR fp))}
    (h : Moved ws M N) : Both (fun A B => ∃ M' N', A = M'.map Row.list ∧ B = N'.map Row.list ∧ Moved ws M' N')
      (columnwise p f (M.map Row.list)) (columnwise p f (N.map Row.list)) := by
  have hrow : ∀ x y : List (XR fp), Below ws x y → Both (Below ws)
      ((List.range p.length).mapM fun (i : Nat) => do f (← (Row.list x).getItem (i : Int)) (← pyGet p (i : Int)))
      ((List.range p.length).mapM fun (i : Nat) => do f (← (Row.list y).getItem (i : Int)) (← pyGet p (i : Int))) := by
    intro x y hxy
    refine columns_both (op := fun (i : Nat) a => pyGet p (i : Int) >>= fun c => f a c) hp (fun i hi a b hab => ?_) hxy
    rw [pyGet_lt hi]
    exact hf _ (List.getElem_mem hi) a b hab
  intro A B hA hB
  unfold columnwise at hA hB
  rw [mapM_map'] at hA hB
  obtain ⟨M', hM', rfl⟩ : ∃ M', (M.mapM fun x => (List.range p.length).mapM fun (i : Nat) => do
      f (← (Row.list x).getItem (i : Int)) (← pyGet p (i : Int))) = .ok M' ∧ A = M'.map Row.list := by
    have := ((OkEq.mapM_map _ Row.list M) _).2 hA
    obtain ⟨M', h1, h2⟩ := bind_ok_iff.1 this
    cases h2
    exact ⟨M', h1, rfl⟩
  obtain ⟨N', hN', rfl⟩ : ∃ N', (N.mapM fun x => (List.range p.length).mapM fun (i : Nat) => do
      f (← (Row.list x).getItem (i : Int)) (← pyGet p (i : Int))) = .ok N' ∧ B = N'.map Row.list := by
    have := ((OkEq.mapM_map _ Row.list N) _).2 hB
    obtain ⟨M', h1, h2⟩ := bind_ok_iff.1 this
    cases h2
    exact ⟨M', h1, rfl⟩
  exact ⟨M', N', rfl, rfl, moved_ofRows h (Both.mapM h.2 hrow M' N' hM' hN') (mapM_length hM')⟩

theorem scaler_moves (hs : fp.Sound) {t : Data (XR fp) → Py (Arr (XR fp))} {ws vs : List Way}
    (h : ∀ M N, Moved ws M N → Both (fun A B => ∃ M' N', A = .ofMat M' ∧ B = .ofMat N' ∧ Moved vs M' N') (t (.arr (.ofMat M))) (t (.arr (.ofMat N)))) :
    Rises (transformer t) ws (.rows vs) := by
  refine ⟨_, rfl, fun M N hMN A B hA hB => ?_⟩
  obtain ⟨A', h1, h2⟩ := bind_ok_iff.1 hA
  obtain ⟨B', h3, h4⟩ := bind_ok_iff.1 hB
  cases h2; cases h4
  obtain ⟨M', N', rfl, rfl, h⟩ := h M N hMN A' B' h1 h3
  exact ⟨M', N', rfl, rfl, h⟩

theorem sub_both (hs : fp.Sound) {c : XR fp} (hc : ∃ r : ℝ, c = .fin r) (a b : XR fp) (h : (a ≤ₚ b) = true) :
    Both (fun u v => (u ≤ₚ v) = true) ((.ok (a -ₚ c) : Py (XR fp))) (.ok (b -ₚ c)) := by
  obtain ⟨r, rfl⟩ := hc
  exact .pure (XR.ordered_sub hs r h)

theorem div_both (hs : fp.Sound) {c : XR fp} (hc : ∃ r : ℝ, 0 < r ∧ c = .fin r) (a b : XR fp) (h : (a ≤ₚ b) = true) :
    Both (fun u v => (u ≤ₚ v) = true) (a /ₚ c) (b /ₚ c) := by
  obtain ⟨r, hr, rfl⟩ := hc
  exact fun u v hu hv => XR.ordered_div hs hr h hu hv

/-- the rows of a request, and what a step does with them -/
def RowsMoved (ws : List Way) (A B : List (Row (XR fp))) : Prop := ∃ M N, A = M.map Row.list ∧ B = N.map Row.list ∧ Moved ws M N

theorem standard_moves (hs : fp.Sound) {s : StandardScaler (XR fp)} {ws : List Way}
    (h1 : s.withMean = true → ∃ m, s.mean = some m ∧ Reals m ws.length) (h2 : s.withStd = true → ∃ d, s.scale = some d ∧ Positives d ws.length)
    {M N : List (List (XR fp))} (h : Moved ws M N) :
    Both (fun A B => ∃ M' N', A = .ofMat M' ∧ B = .ofMat N' ∧ Moved ws M' N') (s.transform (.ofMat M)) (s.transform (.ofMat N)) := by
  have e : ∀ M : List (List (XR fp)), M ≠ [] → s.transform (.ofMat M) =
      (if s.withMean then notNone s.mean >>= fun m => columnwise m (fun a b => .ok (a -ₚ b)) (M.map Row.list) else .ok (M.map Row.list)) >>=
        fun rs => (if s.withStd then notNone s.scale >>= fun sc => columnwise sc Arith.div rs else .ok rs) >>= fun rs => .ok (.list rs) := by
    intro M hM
    have hc : checkArray (.list (M.map Row.list)) .allow = .ok (.list (M.map Row.list)) := checkArray_ofMat hM _
    show s.transform (.list _) = _
    obtain ⟨wm, wd, sc, mn⟩ := s
    simp only [StandardScaler.transform, hc, py_ok_bind, rows_list]
    cases wm <;> cases wd <;> simp only [Bool.false_eq_true, if_false, if_true, py_pure, py_ok_bind, bind_assoc]
  rw [e M h.left.1, e N h.right.1]
  refine Both.bind (R := RowsMoved ws) ?_ fun A B hAB => ?_
  · cases hm : s.withMean with
    | false => exact .pure ⟨M, N, rfl, rfl, h⟩
    | true =>
      obtain ⟨m, e, hl, hr⟩ := h1 hm
      simp only [if_true, e, notNone, py_ok_bind]
      exact columnwise_both hl (fun c hc a b hab => sub_both hs (hr c hc) a b hab) h
  · obtain ⟨M1, N1, rfl, rfl, h⟩ := hAB
    refine Both.bind (R := RowsMoved ws) ?_ fun A B hAB => ?_
    · cases hm : s.withStd with
      | false => exact .pure ⟨M1, N1, rfl, rfl, h⟩
      | true =>
        obtain ⟨m, e, hl, hr⟩ := h2 hm
        simp only [if_true, e, notNone, py_ok_bind]
        exact columnwise_both hl (fun c hc a b hab => div_both hs (hr c hc) a b hab) h
    · obtain ⟨M2, N2, rfl, rfl, h⟩ := hAB
      exact .pure ⟨M2, N2, rfl, rfl, h⟩

theorem maxAbs_moves (hs : fp.Sound) {s : MaxAbsScaler (XR fp)} {ws : List Way} {d : List (XR fp)} (e : s.scale = some d)
    (hd : Positives d ws.length) {M N : List (List (XR fp))} (h : Moved ws M N) :
    Both (fun A B => ∃ M' N', A = .ofMat M' ∧ B = .ofMat N' ∧ Moved ws M' N') (s.transform (.ofMat M)) (s.transform (.ofMat N)) := by
  have e : ∀ M : List (List (XR fp)), M ≠ [] → s.transform (.ofMat M) = columnwise d Arith.div (M.map Row.list) >>= fun rs => .ok (.list rs) := by
    intro M hM
    have hc : checkArray (.list (M.map Row.list)) .allow = .ok (.list (M.map Row.list)) := checkArray_ofMat hM _
    show s.transform (.list _) = _
    simp only [MaxAbsScaler.transform, hc, py_ok_bind, rows_list, e, notNone]
    rfl
  rw [e M h.left.1, e N h.right.1]
  refine Both.bind (columnwise_both hd.1 (fun c hc a b hab => div_both hs (hd.2 c hc) a b hab) h) fun A B hAB => ?_
  obtain ⟨M2, N2, rfl, rfl, h⟩ := hAB
  exact .pure ⟨M2, N2, rfl, rfl, h⟩

theorem minMax_moves (hs : fp.Sound) {s : MinMaxScaler (XR fp)} {ws : List Way} {a b : List (XR fp)} (ea : s.scale = some a)
    (ha : Positives a ws.length) (eb : s.min = some b) (hb : Reals b ws.length) {M N : List (List (XR fp))} (h : Moved ws M N) :
    Both (fun A B => ∃ M' N', A = .ofMat M' ∧ B = .ofMat N' ∧ Moved ws M' N') (s.transform (.ofMat M)) (s.transform (.ofMat N)) := by
  have e : ∀ M : List (List (XR fp)), M ≠ [] → s.transform (.ofMat M) = (M.mapM fun x => (List.range a.length).mapM fun (i : Nat) =>
      pyGet x (i : Int) >>= fun u => pyGet a (i : Int) >>= fun c => pyGet b (i : Int) >>= fun d => .ok ((u *ₚ c) +ₚ d)) >>=
        fun rs => .ok (.ofMat rs) := by
    intro M hM
    simp only [MinMaxScaler.transform, issparse_ofMat, Bool.false_eq_true, if_false, checkArray_ofMat hM, py_ok_bind, rows_ofMat, notNone,
      ea, eb]
    rw [mapM_map']
    rfl
  rw [e M h.left.1, e N h.right.1]
  intro A B hA hB
  obtain ⟨M', h1, hA⟩ := bind_ok_iff.1 hA
  obtain ⟨N', h2, hB⟩ := bind_ok_iff.1 hB
  cases hA; cases hB
  refine ⟨M', N', rfl, rfl, moved_ofRows h ?_ (mapM_length h1)⟩
  refine Both.mapM h.2 (fun x y hxy => ?_) M' N' h1 h2
  refine columns_both (op := fun (i : Nat) u => pyGet a (i : Int) >>= fun c => pyGet b (i : Int) >>= fun d => .ok ((u *ₚ c) +ₚ d))
    ha.1 (fun i hi u v huv => ?_) hxy
  rw [pyGet_lt hi, pyGet_lt (by rw [hb.1, ← ha.1]; exact hi)]
  obtain ⟨r, hr, e1⟩ := ha.2 _ (List.getElem_mem hi)
  obtain ⟨q, e2⟩ := hb.2 _ (List.getElem_mem (by rw [hb.1, ← ha.1]; exact hi))
  simp only [py_ok_bind, e1, e2]
  exact .pure (XR.ordered_add hs q (XR.ordered_mul hs hr huv))

theorem keepsOrder_rises (hs : fp.Sound) (lib : String → TextLib) (encode : Str → List Nat) {s : Single (XR fp)} {ws : List Way}
    (h : KeepsOrder s ws.length) : Rises (s.est lib encode) ws (.rows ws) := by
  cases h with
  | standard h1 h2 => exact scaler_moves hs fun M N h => standard_moves hs h1 h2 h
  | minMax h1 h2 h3 h4 => exact scaler_moves hs fun M N h => minMax_moves hs h1 h2 h3 h4 h
  | maxAbs h1 h2 => exact scaler_moves hs fun M N h => maxAbs_moves hs h1 h2 h

/-! ### Linear models -/

theorem signed_dot (hs : fp.Sound) {ws : List Way} {c : List (XR fp)} (hc : Signed ws c) {x y : List (XR fp)} (h : Below ws x y) :
    NotAbove (dotList x c) (dotList y c) := by
  refine XR.notAbove_sum hs ?_
  induction hc generalizing x y with
  | nil => cases h; exact .nil
  | up hr _ ih =>
    cases h with
    | cons h h' => exact .cons (XR.notAbove_mul hs hr (XR.notAbove_of (XR.ordered_iff.1 h).2.2)) (ih h')
  | down hr _ ih =>
    cases h with
    | cons h h' => exact .cons (XR.notAbove_mul_neg hs hr (XR.notAbove_of (XR.ordered_iff.1 h).2.2)) (ih h')
  | still _ ih =>
    cases h with
    | cons h h' => cases (h : _ = _); exact .cons (XR.notAbove_refl _) (ih h')

theorem signed_length {ws : List Way} {c : List (XR fp)} (hc : Signed ws c) : c.length = ws.length := by
  induction hc with
  | nil => rfl
  | up _ _ ih => simp [ih]
  | down _ _ ih => simp [ih]
  | still _ ih => simp [ih]

theorem decision_moves (hs : fp.Sound) {m : Linear (XR fp) (PVal (XR fp))} {ws : List Way} {c0 c1 : PVal (XR fp)}
    (hm : SignedLinear m ws c0 c1) {M N : List (List (XR fp))} (h : Moved ws M N) :
    ∃ s t, m.decisionFunction (.ofMat M) = .ok (.flat s) ∧ m.decisionFunction (.ofMat N) = .ok (.flat t) ∧ List.Forall₂ NotAbove s t := by
  obtain ⟨⟨c, hc, hsg⟩, ⟨b, hb⟩, -, -⟩ := hm
  have e : ∀ M : List (List (XR fp)), M ≠ [] → Rect ws.length M →
      m.decisionFunction (.ofMat M) = .ok (.flat (M.map fun x => dotList x c +ₚ b)) := by
    intro M hM hw
    have hw' : Rect ws.length m.coef := by
      rw [hc]
      intro r hr
      rw [List.mem_singleton.1 hr]
      exact signed_length hsg
    rw [Linear.decision_eq (Linear.accepts_dense (by rw [hc]; simp) hw' hM hw) hb, mapM_map']
    rw [mapM_ok_map (g := fun x => [dotList x c +ₚ b]) fun x _ => by
      simp [Linear.rowScores, hc, dot_list, hb, attr, py_ok_bind, py_pure]]
    simp [hc]
  exact ⟨_, _, e M h.left.1 h.left.2, e N h.right.1 h.right.2,
    moved_map h.2 fun x y hxy => XR.notAbove_add hs (signed_dot hs hsg hxy) (XR.notAbove_refl b)⟩

theorem pair_moves (hs : fp.Sound) (hm : fp.MonoExp) {x y : XR fp} (h : NotAbove x y) :
    Both Shifted ((expit x >>= fun a => .ok [ofInt 1 -ₚ a, a] : Py (List (XR fp)))) (expit y >>= fun a => .ok [ofInt 1 -ₚ a, a]) :=
  ((XR.keeps_expit hs hm).both h).bind fun a b hab => .pure (.mk (XR.notAbove_sub hs _ hab) hab)

/-- The label of a linear model, and the probabilities of the same score. -/
theorem score_label (hs : fp.Sound) (hm : fp.MonoExp) {C : Type} {c0 c1 : C} (hc : c0 ≠ c1) {s t : List (XR fp)} (h : List.Forall₂ NotAbove s t) {Q : List (List (XR fp))}
    (hQ : (t.mapM fun x => expit x >>= fun a => .ok [ofInt 1 -ₚ a, a]) = .ok Q) {ls ms : List C}
    (h1 : (s.mapM fun x => pyGet [c0, c1] (if ofInt 0 <ₚ x then 1 else 0)) = .ok ls)
    (h2 : (t.mapM fun x => pyGet [c0, c1] (if ofInt 0 <ₚ x then 1 else 0)) = .ok ms)
    (i : Nat) (r : List (XR fp)) (hr : Q[i]? = some r) (hn : XR.nan ∉ r) (hl : ls[i]? = some c1) : ms[i]? = some c1 := by
  induction h generalizing i Q ls ms with
  | nil => cases h1; simp at hl
  | @cons x y s t hxy _ ih =>
    rw [mapM_cons'] at h1 h2 hQ
    obtain ⟨u, hu, h1⟩ := bind_ok_iff.1 h1
    obtain ⟨us, hus, h1⟩ := bind_ok_iff.1 h1
    obtain ⟨v, hv, h2⟩ := bind_ok_iff.1 h2
    obtain ⟨vs, hvs, h2⟩ := bind_ok_iff.1 h2
    obtain ⟨q, hq, hQ⟩ := bind_ok_iff.1 hQ
    obtain ⟨qs, hqs, hQ⟩ := bind_ok_iff.1 hQ
    cases h1; cases h2; cases hQ
    cases i with
    | succ i => exact ih hqs hus hvs i (by simpa using hr) (by simpa using hl)
    | zero =>
      simp only [List.getElem?_cons_zero, Option.some.injEq] at hr hl ⊢
      subst hr hl
      obtain ⟨p, hp, hq⟩ := bind_ok_iff.1 hq
      cases hq
      have hy : y ≠ XR.nan := by
        rintro rfl
        have := (XR.keeps_expit hs hm).nan p hp
        exact hn (by simp [this])
      by_cases hx : (ofInt 0 <ₚ x) = true
      · obtain ⟨k1, k2, k3⟩ := XR.below_iff.1 hx
        have k4 : XR.toE x ≤ XR.toE y := by simpa [k2, hy] using XR.notAbove_iff.1 hxy
        rw [if_pos (XR.below_iff.2 ⟨k1, hy, k3.trans_le k4⟩)] at hv
        exact (Except.ok.inj hv).symm
      · rw [if_neg hx] at hu
        exact absurd (Except.ok.inj hu) hc

theorem linear_moves (hs : fp.Sound) (hm : fp.MonoExp) {m : Linear (XR fp) (PVal (XR fp))} {ws : List Way} {c0 c1 : PVal (XR fp)}
    (h : SignedLinear m ws c0 c1) {f : Methods (XR fp)} {q : Arr (XR fp) → Py (List (List (XR fp)))}
    (hp : f.predict = some (Data.onArr m.predict)) (hq : f.predictProba = some (Data.onArr q))
    (hqe : ∀ M, q (.ofMat M) = m.predictProbaLr (.ofMat M)) : Rises f ws (.share c0 c1) := by
  refine ⟨_, _, hp, hq, fun M N hMN P Q hP hQ => ?_⟩
  obtain ⟨s, t, e1, e2, hst⟩ := decision_moves hs h hMN
  change q (.ofMat M) = .ok P at hP
  change q (.ofMat N) = .ok Q at hQ
  rw [hqe, Linear.predictProbaLr, e1, py_ok_bind] at hP
  rw [hqe, Linear.predictProbaLr, e2, py_ok_bind] at hQ
  refine ⟨Both.mapM hst (fun x y hxy => pair_moves hs hm hxy) P Q hP hQ, fun ls ms hl hms => ?_⟩
  change m.predict (.ofMat M) = .ok ls at hl
  change m.predict (.ofMat N) = .ok ms at hms
  rw [Linear.predict, e1, py_ok_bind, h.2.2.1] at hl
  rw [Linear.predict, e2, py_ok_bind, h.2.2.1] at hms
  exact score_label hs hm h.2.2.2 hst hQ hl hms

/-! ### Trees -/

theorem steady_eval {ws : List Way} {R : List (XR fp) → List (XR fp) → Prop} {dt : DTree (XR fp)} (hd : Steady ws R dt) {x y : List (XR fp)}
    (h : Below ws x y) : Both R (dt.evalPy (.list x)) (dt.evalPy (.list y)) := by
  have key : ∀ u v, dt.eval (fun i => x[i]?) = some u → dt.eval (fun i => y[i]?) = some v → R u v := by
    induction dt with
    | leaf w =>
      intro u v hu hv
      cases hu; cases hv
      exact hd
    | node f thr l r ihl ihr =>
      intro u v hu hv
      obtain ⟨hl, hr, hup, hdown⟩ := hd
      simp only [DTree.eval] at hu hv
      cases hx : x[f]? with
      | none => rw [hx] at hu; cases hu
      | some a =>
        cases hy : y[f]? with
        | none => rw [hy] at hv; cases hv
        | some b =>
          rw [hx] at hu
          rw [hy] at hv
          simp only at hu hv
          obtain ⟨hf, -⟩ := List.getElem?_eq_some_iff.1 hx
          rw [(below_lengths h).1] at hf
          have hw : ws[f]? = some ws[f] := List.getElem?_eq_getElem hf
          have hrel := below_get h hw hx hy
          by_cases ha : (a ≤ₚ thr) = true
          · by_cases hb : (b ≤ₚ thr) = true
            · rw [if_pos ha] at hu; rw [if_pos hb] at hv
              exact ihl hl u v hu hv
            · rw [if_pos ha] at hu; rw [if_neg hb] at hv
              cases hwf : ws[f] with
              | up => exact hup (by rw [hw, hwf]) u (DTree.eval_mem_leaves hu) v (DTree.eval_mem_leaves hv)
              | down =>
                rw [hwf] at hrel
                obtain ⟨k1, k2, k3⟩ := XR.ordered_iff.1 (hrel : (b ≤ₚ a) = true)
                obtain ⟨k4, k5, k6⟩ := XR.ordered_iff.1 ha
                exact absurd (XR.ordered_iff.2 ⟨k1, k5, k3.trans k6⟩) hb
              | still =>
                rw [hwf] at hrel
                cases (hrel : a = b)
                exact absurd ha hb
          · by_cases hb : (b ≤ₚ thr) = true
            · rw [if_neg ha] at hu; rw [if_pos hb] at hv
              cases hwf : ws[f] with
              | up =>
                rw [hwf] at hrel
                obtain ⟨k1, k2, k3⟩ := XR.ordered_iff.1 (hrel : (a ≤ₚ b) = true)
                obtain ⟨k4, k5, k6⟩ := XR.ordered_iff.1 hb
                exact absurd (XR.ordered_iff.2 ⟨k1, k5, k3.trans k6⟩) ha
              | down => exact hdown (by rw [hw, hwf]) u (DTree.eval_mem_leaves hu) v (DTree.eval_mem_leaves hv)
              | still =>
                rw [hwf] at hrel
                cases (hrel : a = b)
                exact absurd hb ha
            · rw [if_neg ha] at hu; rw [if_neg hb] at hv
              exact ihr hr u v hu hv
  intro u v hu hv
  have e : ∀ (z : List (XR fp)) (w : List (XR fp)), dt.evalPy (.list z) = .ok w → dt.eval (fun i => z[i]?) = some w := by
    intro z w hz
    unfold DTree.evalPy at hz
    split at hz
    · rename_i v' hv'
      cases hz
      exact hv'
    · cases hz
  exact key u v (e x u hu) (e y v hv)

theorem leaves_moves {ws : List Way} {R : List (XR fp) → List (XR fp) → Prop} {dt : DTree (XR fp)} (hd : Steady ws R dt)
    {M N : List (List (XR fp))} (h : Moved ws M N) :
    Both (List.Forall₂ R) ((M.map Row.list).mapM dt.evalPy) ((N.map Row.list).mapM dt.evalPy) := by
  rw [mapM_map', mapM_map']
  exact Both.mapM h.2 fun x y hxy => steady_eval hd hxy

theorem treeReg_moves {C : Type} {t : Tree (XR fp) C} {dt : DTree (XR fp)} (henc : t.Encodes 0 dt) {ws : List Way} (hd : Steady ws Lower dt)
    {M N : List (List (XR fp))} (h : Moved ws M N) :
    Both (List.Forall₂ NotAbove) (t.predictReg (.ofMat M)) (t.predictReg (.ofMat N)) := by
  rw [Tree.predictReg_eq henc (checkArray_ofMat h.left.1 _) (rows_ofMat M), Tree.predictReg_eq henc (checkArray_ofMat h.right.1 _) (rows_ofMat N)]
  refine (leaves_moves hd h).bind fun us vs huv => Both.mapM huv fun u v huv => ?_
  obtain ⟨a, b, h1, h2, h3⟩ := huv
  rw [show pyGet u 0 = .ok a from pyGet_ok_nat.2 h1, show pyGet v 0 = .ok b from pyGet_ok_nat.2 h2]
  exact .pure h3

theorem treeRegressor_rises {t : Tree (XR fp) (PVal (XR fp))} {dt : DTree (XR fp)} (henc : t.Encodes 0 dt) {ws : List Way}
    (hd : Steady ws Lower dt) : Rises (predictor fun X => do return (← t.predictReg X).map .float) ws .number := by
  refine ⟨_, rfl, fun M N h ls ms hl hm => ?_⟩
  obtain ⟨xs, hx, hl⟩ := bind_ok_iff.1 (show (t.predictReg (.ofMat M) >>= fun ys => .ok (ys.map PVal.float)) = .ok ls from hl)
  obtain ⟨ys, hy, hm⟩ := bind_ok_iff.1 (show (t.predictReg (.ofMat N) >>= fun ys => .ok (ys.map PVal.float)) = .ok ms from hm)
  cases hl; cases hm
  exact ⟨xs, ys, rfl, rfl, treeReg_moves henc hd h xs ys hx hy⟩

theorem treeClassifier_rises {t : Tree (XR fp) (PVal (XR fp))} {dt : DTree (XR fp)} (henc : t.Encodes 0 dt) {ws : List Way}
    (hd : Steady ws LowerShare dt) {c0 c1 : PVal (XR fp)} (hc : t.classes = [c0, c1]) (hne : c0 ≠ c1) :
    Rises (classifier t.predict t.predictProba t.predictLogProba) ws (.share c0 c1) := by
  refine ⟨_, _, rfl, rfl, fun M N h P Q hP hQ => ?_⟩
  change t.predictProba (.ofMat M) = .ok P at hP
  change t.predictProba (.ofMat N) = .ok Q at hQ
  rw [Tree.predictProba_eq henc (checkArray_ofMat h.left.1 _) (rows_ofMat M)] at hP
  rw [Tree.predictProba_eq henc (checkArray_ofMat h.right.1 _) (rows_ofMat N)] at hQ
  obtain ⟨us, hu, hP⟩ := bind_ok_iff.1 hP
  obtain ⟨vs, hv, hQ⟩ := bind_ok_iff.1 hQ
  have huv := leaves_moves hd h us vs hu hv
  refine ⟨?_, fun ls ms hl hm i r hr hn hl1 => ?_⟩
  · refine Both.mapM huv (fun u v huv => ?_) P Q hP hQ
    obtain ⟨a, b, c, d, rfl, rfl, -, h2, h3⟩ := huv
    intro p q hp hq
    simp only [mapM_cons', mapM_nil', py_ok_bind, py_pure] at hp hq
    obtain ⟨p1, hp1, hp⟩ := bind_ok_iff.1 hp
    obtain ⟨p', hp', hp⟩ := bind_ok_iff.1 hp
    obtain ⟨p2, hp2, hp'⟩ := bind_ok_iff.1 hp'
    obtain ⟨q1, hq1, hq⟩ := bind_ok_iff.1 hq
    obtain ⟨q', hq', hq⟩ := bind_ok_iff.1 hq
    obtain ⟨q2, hq2, hq'⟩ := bind_ok_iff.1 hq'
    cases hp'; cases hq'; cases hp; cases hq
    exact .mk (h2 _ _ hp1 hq1) (h3 _ _ hp2 hq2)
  · change t.predict (.ofMat M) = .ok ls at hl
    change t.predict (.ofMat N) = .ok ms at hm
    rw [Tree.predict_eq henc (checkArray_ofMat h.left.1 _) (rows_ofMat M), hu, py_ok_bind] at hl
    rw [Tree.predict_eq henc (checkArray_ofMat h.right.1 _) (rows_ofMat N), hv, py_ok_bind] at hm
    clear hP hQ hr hn r hu hv
    rw [hc] at hl hm
    obtain ⟨is, hi, hl'⟩ := bind_ok_iff.1 hl
    obtain ⟨js, hj, hm'⟩ := bind_ok_iff.1 hm
    clear hl hm
    rename' hl' => hl, hm' => hm
    have hij : List.Forall₂ (fun i j : Nat => i = 1 → j = 1) is js :=
      Both.mapM huv (fun u v huv => by
        obtain ⟨a, b, c, d, rfl, rfl, h1, -, -⟩ := huv
        rw [argmax_two, argmax_two]
        refine .pure fun h => ?_
        by_cases hab : (a <ₚ b) = true
        · rw [if_pos (h1 hab)]
        · rw [if_neg hab] at h; cases h) is js hi hj
    clear huv hi hj
    induction hij generalizing ls ms i with
    | nil => cases hl; simp at hl1
    | @cons k j ks js hkj _ ih =>
      rw [mapM_cons'] at hl hm
      obtain ⟨u, hu, hl⟩ := bind_ok_iff.1 hl
      obtain ⟨us, hus, hl⟩ := bind_ok_iff.1 hl
      obtain ⟨v, hv, hm⟩ := bind_ok_iff.1 hm
      obtain ⟨vs, hvs, hm⟩ := bind_ok_iff.1 hm
      cases hl; cases hm
      cases i with
      | succ i => exact ih us vs i (by simpa using hl1) hus hvs
      | zero =>
        simp only [List.getElem?_cons_zero, Option.some.injEq] at hl1 ⊢
        subst hl1
        have hk : k = 1 := by
          rw [pyGet_ok_nat] at hu
          rcases k with _ | _ | k
          · exact absurd (Option.some.inj hu) hne
          · rfl
          · simp at hu
        rw [hkj hk] at hv
        exact (Except.ok.inj hv).symm

/-! ### XGBoost -/

theorem xgb_rises (hs : fp.Sound) (hm : fp.MonoExp) {m : Xgb (XR fp) (PVal (XR fp))} {ts : List (Tree (XR fp) (PVal (XR fp)))} {ws : List Way}
    {c0 c1 : PVal (XR fp)} (ho : m.objective = .binaryLogistic) (ht : m.trees = .binary ts)
    (hts : ∀ t ∈ ts, ∃ dt, t.Encodes 0 dt ∧ Steady ws Lower dt) (hc : m.classes = [c0, c1]) (hne : c0 ≠ c1) :
    Rises (probabilist m.predict m.predictProba) ws (.share c0 c1) := by
  refine ⟨_, _, rfl, rfl, fun M N h P Q hP hQ => ?_⟩
  change m.predictProba (.ofMat M) = .ok P at hP
  change m.predictProba (.ofMat N) = .ok Q at hQ
  have hPQ : List.Forall₂ Shifted P Q := by
    have hsum : ∀ a b : List (XR fp), List.Forall₂ NotAbove a b →
        Both (List.Forall₂ NotAbove) (ts.foldlM (Xgb.addTree (.ofMat M)) a) (ts.foldlM (Xgb.addTree (.ofMat N)) b) := by
      clear ht hP hQ
      induction ts with
      | nil => exact fun a b hab => .pure hab
      | cons t ts ih =>
        intro a b hab
        rw [List.foldlM_cons, List.foldlM_cons]
        obtain ⟨dt, h1, h2⟩ := hts t (by simp)
        refine Both.bind (R := List.Forall₂ NotAbove) ?_ fun a b hab => ih (fun t ht => hts t (by simp [ht])) a b hab
        exact (treeReg_moves h1 h2 h).bind fun xs ys hxy => .pure (forall₂_zipWith hab hxy fun _ _ _ _ h1 h2 => XR.notAbove_add hs h1 h2)
    have e : ∀ M : List (List (XR fp)), M ≠ [] → m.predictProba (.ofMat M) =
        ts.foldlM (Xgb.addTree (.ofMat M)) (List.replicate M.length (ofInt 0)) >>= fun s => s.mapM expit >>= fun o =>
          .ok (o.map fun x => [ofInt 1 -ₚ x, x]) := by
      intro M hM
      simp only [Xgb.predictProba, checkArray_ofMat hM, py_ok_bind, ho, Xgb.predictBinary, ht]
      rw [show (Arr.ofMat M : Arr (XR fp)).len = .ok M.length by simp [Arr.len, rows_ofMat], py_ok_bind]
      rfl
    rw [e M h.left.1] at hP
    rw [e N h.right.1, ← h.length] at hQ
    refine ((hsum _ _ (forall₂_same XR.notAbove_refl _)).bind fun s t hst => ?_) P Q hP hQ
    refine (Both.mapM hst fun x y hxy => (XR.keeps_expit hs hm).both hxy).bind fun a b hab => .pure ?_
    exact moved_map hab fun x y hxy => .mk (XR.notAbove_sub hs _ hxy) hxy
  refine ⟨hPQ, fun ls ms hl hms => ?_⟩
  change m.predict (.ofMat M) = .ok ls at hl
  change m.predict (.ofMat N) = .ok ms at hms
  rw [Xgb.predict, hP, py_ok_bind, hc] at hl
  rw [Xgb.predict, hQ, py_ok_bind, hc] at hms
  exact labels_shift hne hPQ hl hms

theorem monotonic_rises (hs : fp.Sound) (hm : fp.MonoExp) (lib : String → TextLib) (encode : Str → List Nat) {s : Single (XR fp)} {ws : List Way}
    {e : Effect fp} (h : Monotonic s ws e) : Rises (s.est lib encode) ws e := by
  cases h with
  | scaler h => exact keepsOrder_rises hs lib encode h
  | @logistic m _ c0 c1 mc h hmc hc =>
    refine linear_moves (q := m.predictProba) hs hm h rfl rfl fun M => ?_
    have : m.isOvr = .ok true := by
      unfold Linear.isOvr
      rw [hmc]
      simp only [attr, py_ok_bind, py_pure, h.2.2.1]
      rcases hc with rfl | rfl | rfl <;> rfl
    unfold Linear.predictProba
    rw [this]
    rfl
  | @sgd m _ c0 c1 h hl =>
    have hcp : m.checkProba = .ok () := by simp [Linear.checkProba, hl, attr]
    have he : LinKind.sgd.est m = classifier m.predict m.sgdPredictProba m.sgdPredictLogProba := by
      simp only [LinKind.est, hcp]
    show Rises (LinKind.sgd.est m) _ _
    rw [he]
    refine linear_moves (q := m.sgdPredictProba) hs hm h rfl rfl fun M => ?_
    simp only [Linear.sgdPredictProba, hcp, py_ok_bind, Linear.sgdPredictProba_, hl, attr]
    rfl
  | treeClassifier h1 h2 h3 h4 => exact treeClassifier_rises h1 h2 h3 h4
  | treeRegressor h1 h2 => exact treeRegressor_rises h1 h2
  | xgb h1 h2 h3 h4 h5 => exact xgb_rises hs hm h1 h2 h3 h4 h5

end PurePredict
