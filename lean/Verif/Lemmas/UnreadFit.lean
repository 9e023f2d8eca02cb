import Verif.Spec.Unread
import Verif.Lemmas.TreeEncode
import Verif.Lemmas.RisingFit
import Verif.Lemmas.TransformBatch
import Verif.Lemmas.LeafRecord
/-
Single estimators and the parts of a request they do not look at.
-/
namespace PurePredict
open Spec
variable {fp : FP}

/-! ### Two runs with the same exceptions -/

section
variable {α β γ δ : Type} {R : α → β → Prop} {S : γ → δ → Prop}

theorem Spec.Par.bind {a : Py α} {b : Py β} {f : α → Py γ} {g : β → Py δ} (h : Par R a b) (hf : ∀ x y, R x y → Par S (f x) (g y)) :
    Par S (a >>= f) (b >>= g) := by
  cases h with
  | fail => exact .fail
  | done h => exact hf _ _ h

theorem Spec.Par.mapM {l : List α} {l' : List β} {f : α → Py γ} {g : β → Py δ} (h : List.Forall₂ R l l')
    (hf : ∀ x y, R x y → Par S (f x) (g y)) : Par (List.Forall₂ S) (l.mapM f) (l'.mapM g) := by
  induction h with
  | nil => exact .done .nil
  | cons h _ ih =>
    rw [mapM_cons', mapM_cons']
    exact (hf _ _ h).bind fun u v huv => ih.bind fun us vs hus => .done (.cons huv hus)

theorem Spec.Par.mono {R' : α → β → Prop} {a : Py α} {b : Py β} (h : Par R a b) (hR : ∀ x y, R x y → R' x y) : Par R' a b := by
  cases h with
  | fail => exact .fail
  | done h => exact .done (hR _ _ h)

theorem Spec.Par.refl {R : α → α → Prop} (h : ∀ a, R a a) (p : Py α) : Par R p p := by
  cases p with
  | error e => exact .fail
  | ok a => exact .done (h a)

theorem Spec.Par.eq {p q : Py α} (h : Par Eq p q) : p = q := by
  cases h with
  | fail => rfl
  | done h => rw [h]

theorem mapM_eq_of {l : List α} {l' : List β} {f : α → Py γ} {g : β → Py γ} (h : List.Forall₂ R l l')
    (hf : ∀ x y, R x y → f x = g y) : l.mapM f = l'.mapM g := by
  induction h with
  | nil => rfl
  | cons h _ ih => rw [mapM_cons', mapM_cons', hf _ _ h, ih]
end

/-! ### Requests -/

theorem agree_lengths {ws : List Col} {x y : List (XR fp)} (h : AgreeOn ws x y) : x.length = ws.length ∧ y.length = ws.length := by
  induction h with
  | nil => exact ⟨rfl, rfl⟩
  | cons _ _ ih => simp [ih.1, ih.2]

theorem agree_get {ws : List Col} {x y : List (XR fp)} (h : AgreeOn ws x y) {i : Nat} {w : Col} (hw : ws[i]? = some w) :
    ∃ a b, x[i]? = some a ∧ y[i]? = some b ∧ w.Rel a b := by
  induction h generalizing i with
  | nil => simp at hw
  | @cons _ a b _ _ _ h _ ih =>
    cases i with
    | zero =>
      cases (Option.some.inj hw : _ = w)
      exact ⟨a, b, rfl, rfl, h⟩
    | succ i => exact ih (i := i) hw

theorem agree_append {ws vs : List Col} {x y u v : List (XR fp)} (h : AgreeOn ws x y) (h' : AgreeOn vs u v) : AgreeOn (ws ++ vs) (x ++ u) (y ++ v) := by
  induction h with
  | nil => exact h'
  | cons h _ ih => exact .cons h ih

theorem agree_same (x : List (XR fp)) : AgreeOn (List.replicate x.length .read) x x := by
  induction x with
  | nil => exact .nil
  | cons a x ih => exact .cons rfl ih

theorem agree_all_read {ws : List Col} (hw : ∀ w ∈ ws, w = .read) {x y : List (XR fp)} (h : AgreeOn ws x y) : x = y := by
  induction h with
  | nil => rfl
  | @cons w a b _ _ _ h _ ih =>
    cases hw w (by simp)
    rw [ih fun w hw' => hw w (by simp [hw']), show a = b from h]

theorem Spec.Matching.left {ws : List Col} {M N : List (List (XR fp))} (h : Matching ws M N) : M ≠ [] ∧ Rect ws.length M := by
  refine ⟨h.1, ?_⟩
  obtain ⟨-, h⟩ := h
  induction h with
  | nil => exact fun r hr => by simp at hr
  | cons h _ ih =>
    intro r hr
    rcases List.mem_cons.1 hr with rfl | hr
    · exact (agree_lengths h).1
    · exact ih r hr

theorem Spec.Matching.right {ws : List Col} {M N : List (List (XR fp))} (h : Matching ws M N) : N ≠ [] ∧ Rect ws.length N := by
  obtain ⟨h0, h⟩ := h
  refine ⟨by rintro rfl; cases h; exact h0 rfl, ?_⟩
  clear h0
  induction h with
  | nil => exact fun r hr => by simp at hr
  | cons h _ ih =>
    intro r hr
    rcases List.mem_cons.1 hr with rfl | hr
    · exact (agree_lengths h).2
    · exact ih r hr

theorem Spec.Matching.length {ws : List Col} {M N : List (List (XR fp))} (h : Matching ws M N) : M.length = N.length := h.2.length_eq

theorem Spec.Matching.width {ws : List Col} {M N : List (List (XR fp))} (h : Matching ws M N) : (Arr.ofMat M).width = (Arr.ofMat N).width := by
  rw [width_ofMat h.left.1 h.left.2, width_ofMat h.right.1 h.right.2]

theorem matching_ofRows {ws vs : List Col} {M N M' N' : List (List (XR fp))} (h : Matching ws M N) (h' : List.Forall₂ (AgreeOn vs) M' N')
    (hl : M'.length = M.length) : Matching vs M' N' :=
  ⟨fun e => h.1 (by rw [← List.length_eq_zero_iff, ← hl, e]; rfl), h'⟩

theorem matching_map {ws vs : List Col} {M N : List (List (XR fp))} (h : Matching ws M N) {f : List (XR fp) → List (XR fp)}
    (hf : ∀ x y, AgreeOn ws x y → AgreeOn vs (f x) (f y)) : Matching vs (M.map f) (N.map f) :=
  ⟨by simpa using h.1, moved_map h.2 hf⟩

/-- Picking columns, with an operation on each. -/
theorem picked_par {ws : List Col} {x y : List (XR fp)} (h : AgreeOn ws x y) {op : Nat → XR fp → Py (XR fp)} {is : List Nat} {vs : List Col}
    (hi : List.Forall₂ (fun i v => ws[i]? = some v) is vs)
    (hop : ∀ i w, ws[i]? = some w → ∀ a b, w.Rel a b → Par w.Rel (op i a) (op i b)) :
    Par (AgreeOn vs) (is.mapM fun (i : Nat) => pyGet x (i : Int) >>= op i) (is.mapM fun (i : Nat) => pyGet y (i : Int) >>= op i) := by
  induction hi with
  | nil => exact .done .nil
  | @cons i v is vs h1 _ ih =>
    rw [mapM_cons', mapM_cons']
    obtain ⟨a, b, ha, hb, hab⟩ := agree_get h h1
    rw [pyGet_ok_nat.2 ha, pyGet_ok_nat.2 hb]
    exact (hop i v h1 a b hab).bind fun u v huv => ih.bind fun us vs hus => .done (.cons huv hus)

theorem range_cols (ws : List Col) : List.Forall₂ (fun (i : Nat) v => ws[i]? = some v) (List.range ws.length) ws := by
  rw [List.forall₂_iff_get]
  refine ⟨by simp, fun i h1 h2 => ?_⟩
  simp at h1
  simp [h1]

/-! ### Column by column -/

/-- An operation that keeps what two values of a column have in common. -/
theorem rel_par {w : Col} {f : XR fp → Py (XR fp)} (hfree : ∀ a b, Par (fun _ _ => True) (f a) (f b))
    (hidle : w = .idle → ∀ r : ℝ, ∀ y, f (.fin r) = .ok y → ∃ q : ℝ, y = .fin q) {a b : XR fp} (h : w.Rel a b) : Par w.Rel (f a) (f b) := by
  cases w with
  | read =>
    cases (h : a = b)
    exact .refl (fun _ => rfl) _
  | free => exact hfree a b
  | idle =>
    obtain ⟨⟨r, rfl⟩, s, rfl⟩ := h
    have h1 := hfree (.fin r) (.fin s)
    have k1 := hidle rfl r
    have k2 := hidle rfl s
    revert h1 k1 k2
    generalize f (.fin r) = p
    generalize f (.fin s) = q
    intro h1 k1 k2
    cases h1 with
    | fail => exact .fail
    | done _ => exact .done ⟨k1 _ rfl, k2 _ rfl⟩

theorem div_free (c a b : XR fp) : Par (fun _ _ => True) (a /ₚ c) (b /ₚ c) := by
  show Par _ (XR.div a c) (XR.div b c)
  cases c with
  | fin c =>
    by_cases hc : c = 0
    · subst hc
      cases a <;> cases b <;> simp only [XR.div, if_true] <;> exact .fail
    · cases a <;> cases b <;> simp only [XR.div, if_neg hc] <;> exact .done trivial
  | _ => cases a <;> cases b <;> exact .done trivial

theorem columnwise_par {ws : List Col} {p : List (XR fp)} (hp : p.length = ws.length) {f : XR fp → XR fp → Py (XR fp)}
    (hf : ∀ c ∈ p, ∀ w ∈ ws, ∀ a b, w.Rel a b → Par w.Rel (f a c) (f b c)) {M N : List (List (XR fp))}
    (h : Matching ws M N) : Par (fun A B => ∃ M' N', A = M'.map Row.list ∧ B = N'.map Row.list ∧ Matching ws M' N')
      (columnwise p f (M.map Row.list)) (columnwise p f (N.map Row.list)) := by
  unfold columnwise
  rw [mapM_map', mapM_map']
  have : Par (List.Forall₂ fun r s => ∃ x y, r = Row.list x ∧ s = Row.list y ∧ AgreeOn ws x y)
      (M.mapM fun x => do
        return Row.list (← (List.range p.length).mapM fun (i : Nat) => do f (← (Row.list x).getItem (i : Int)) (← pyGet p (i : Int))))
      (N.mapM fun x => do
        return Row.list (← (List.range p.length).mapM fun (i : Nat) => do f (← (Row.list x).getItem (i : Int)) (← pyGet p (i : Int)))) := by
    refine Par.mapM h.2 fun x y hxy => ?_
    refine Par.bind (R := AgreeOn ws) ?_ fun u v huv => .done ⟨u, v, rfl, rfl, huv⟩
    refine picked_par (op := fun (i : Nat) a => pyGet p (i : Int) >>= fun c => f a c) hxy (by rw [hp]; exact range_cols ws) fun i w hw a b hab => ?_
    have hi : i < p.length := by
      rw [hp]
      exact (List.getElem?_eq_some_iff.1 hw).1
    rw [pyGet_lt hi]
    exact hf _ (List.getElem_mem hi) w (List.mem_of_getElem? hw) a b hab
  have hM := h.1
  have rows : ∀ {A B : List (Row (XR fp))}, List.Forall₂ (fun r s => ∃ x y, r = Row.list x ∧ s = Row.list y ∧ AgreeOn ws x y) A B →
      ∃ M' N', A = M'.map Row.list ∧ B = N'.map Row.list ∧ List.Forall₂ (AgreeOn ws) M' N' := by
    intro A B hAB
    induction hAB with
    | nil => exact ⟨[], [], rfl, rfl, .nil⟩
    | cons h _ ih =>
      obtain ⟨x, y, e1, e2, hxy⟩ := h
      obtain ⟨M', N', e3, e4, hMN⟩ := ih
      exact ⟨x :: M', y :: N', by rw [e1, e3]; rfl, by rw [e2, e4]; rfl, .cons hxy hMN⟩
  revert this
  generalize hA : (M.mapM fun x => do
        return Row.list (← (List.range p.length).mapM fun (i : Nat) => do f (← (Row.list x).getItem (i : Int)) (← pyGet p (i : Int)))) = A
  generalize (N.mapM fun x => do
        return Row.list (← (List.range p.length).mapM fun (i : Nat) => do f (← (Row.list x).getItem (i : Int)) (← pyGet p (i : Int)))) = B
  intro this
  have hlen : ∀ A', A = .ok A' → A'.length = M.length := by
    intro A' e
    rw [e] at hA
    exact mapM_length hA
  cases this with
  | fail => exact .fail
  | done h' =>
    obtain ⟨M', N', e1, e2, e3⟩ := rows h'
    refine .done ⟨M', N', e1, e2, matching_ofRows h e3 ?_⟩
    have := hlen _ rfl
    rw [e1] at this
    simpa using this

theorem sub_idle {c : XR fp} (hc : ∃ r : ℝ, c = .fin r) (hr : ∀ r : ℝ, ∃ q : ℝ, (XR.round r : XR fp) = .fin q) (r : ℝ) (y : XR fp)
    (h : (.ok ((.fin r : XR fp) -ₚ c) : Py (XR fp)) = .ok y) : ∃ q : ℝ, y = .fin q := by
  obtain ⟨s, rfl⟩ := hc
  cases h
  exact hr _

theorem div_idle {c : XR fp} (hc : ∃ r : ℝ, c = .fin r) (hr : ∀ r : ℝ, ∃ q : ℝ, (XR.round r : XR fp) = .fin q) (r : ℝ) (y : XR fp)
    (h : (.fin r : XR fp) /ₚ c = .ok y) : ∃ q : ℝ, y = .fin q := by
  obtain ⟨s, rfl⟩ := hc
  rw [XR.div_fin] at h
  split at h
  · cases h
  · cases h
    exact hr _

theorem sub_column {ws : List Col} {p : List (XR fp)} (hp : PerColumn ws p) (c : XR fp) (hc : c ∈ p) (w : Col) (hw : w ∈ ws) (a b : XR fp)
    (h : w.Rel a b) : Par w.Rel (.ok (a -ₚ c) : Py (XR fp)) (.ok (b -ₚ c)) :=
  rel_par (f := fun a => .ok (a -ₚ c)) (fun _ _ => .done trivial)
    (fun e => by subst e; exact sub_idle ((hp.2 hw).2 c hc) (hp.2 hw).1) h

theorem div_column {ws : List Col} {p : List (XR fp)} (hp : PerColumn ws p) (c : XR fp) (hc : c ∈ p) (w : Col) (hw : w ∈ ws) (a b : XR fp)
    (h : w.Rel a b) : Par w.Rel (a /ₚ c) (b /ₚ c) :=
  rel_par (f := fun a => a /ₚ c) (div_free c) (fun e => by subst e; exact div_idle ((hp.2 hw).2 c hc) (hp.2 hw).1) h

/-- the rows of two requests, and what a step does with them -/
def RowsMatch (ws : List Col) (A B : List (Row (XR fp))) : Prop := ∃ M N, A = M.map Row.list ∧ B = N.map Row.list ∧ Matching ws M N

theorem standard_par {s : StandardScaler (XR fp)} {ws : List Col}
    (h1 : s.withMean = true → ∃ m, s.mean = some m ∧ PerColumn ws m) (h2 : s.withStd = true → ∃ d, s.scale = some d ∧ PerColumn ws d)
    {M N : List (List (XR fp))} (h : Matching ws M N) :
    Par (fun A B => ∃ M' N', A = .ofMat M' ∧ B = .ofMat N' ∧ Matching ws M' N') (s.transform (.ofMat M)) (s.transform (.ofMat N)) := by
  have e : ∀ M : List (List (XR fp)), M ≠ [] → s.transform (.ofMat M) =
      (if s.withMean then notNone s.mean >>= fun m => columnwise m (fun a b => .ok (a -ₚ b)) (M.map Row.list) else .ok (M.map Row.list)) >>=
        fun rs => (if s.withStd then notNone s.scale >>= fun sc => columnwise sc Arith.div rs else .ok rs) >>= fun rs => .ok (.list rs) := by
    intro M hM
    have hc : checkArray (.list (M.map Row.list)) .allow = .ok (.list (M.map Row.list)) := checkArray_ofMat hM _
    show s.transform (.list _) = _
    obtain ⟨wm, wd, sc, mn⟩ := s
    simp only [StandardScaler.transform, hc, py_ok_bind, rows_list]
    cases wm <;> cases wd <;> simp only [Bool.false_eq_true, if_false, if_true, py_pure, py_ok_bind, bind_assoc]
  rw [e M h.left.1, e N h.right.1]
  refine Par.bind (R := RowsMatch ws) ?_ fun A B hAB => ?_
  · cases hm : s.withMean with
    | false => exact .done ⟨M, N, rfl, rfl, h⟩
    | true =>
      obtain ⟨m, e, hp⟩ := h1 hm
      simp only [if_true, e, notNone, py_ok_bind]
      exact columnwise_par hp.1 (sub_column hp) h
  · obtain ⟨M1, N1, rfl, rfl, h⟩ := hAB
    refine Par.bind (R := RowsMatch ws) ?_ fun A B hAB => ?_
    · cases hm : s.withStd with
      | false => exact .done ⟨M1, N1, rfl, rfl, h⟩
      | true =>
        obtain ⟨m, e, hp⟩ := h2 hm
        simp only [if_true, e, notNone, py_ok_bind]
        exact columnwise_par hp.1 (div_column hp) h
    · obtain ⟨M2, N2, rfl, rfl, h⟩ := hAB
      exact .done ⟨M2, N2, rfl, rfl, h⟩

theorem maxAbs_par {s : MaxAbsScaler (XR fp)} {ws : List Col} {d : List (XR fp)} (e : s.scale = some d)
    (hd : PerColumn ws d) {M N : List (List (XR fp))} (h : Matching ws M N) :
    Par (fun A B => ∃ M' N', A = .ofMat M' ∧ B = .ofMat N' ∧ Matching ws M' N') (s.transform (.ofMat M)) (s.transform (.ofMat N)) := by
  have e : ∀ M : List (List (XR fp)), M ≠ [] → s.transform (.ofMat M) = columnwise d Arith.div (M.map Row.list) >>= fun rs => .ok (.list rs) := by
    intro M hM
    have hc : checkArray (.list (M.map Row.list)) .allow = .ok (.list (M.map Row.list)) := checkArray_ofMat hM _
    show s.transform (.list _) = _
    simp only [MaxAbsScaler.transform, hc, py_ok_bind, rows_list, e, notNone]
    rfl
  rw [e M h.left.1, e N h.right.1]
  refine Par.bind (columnwise_par hd.1 (div_column hd) h) fun A B hAB => ?_
  obtain ⟨M2, N2, rfl, rfl, h⟩ := hAB
  exact .done ⟨M2, N2, rfl, rfl, h⟩

theorem mapM_matching {ws vs : List Col} {M N : List (List (XR fp))} (h : Matching ws M N) {f : List (XR fp) → Py (List (XR fp))}
    (hf : ∀ x y, AgreeOn ws x y → Par (AgreeOn vs) (f x) (f y)) : Par (Matching vs) (M.mapM f) (N.mapM f) := by
  have h1 := Par.mapM h.2 hf
  have hl : ∀ A, M.mapM f = .ok A → A.length = M.length := fun A e => mapM_length e
  revert h1 hl
  generalize M.mapM f = p
  generalize N.mapM f = q
  intro h1 hl
  cases h1 with
  | fail => exact .fail
  | done h' => exact .done (matching_ofRows h h' (hl _ rfl))

theorem minMax_par {s : MinMaxScaler (XR fp)} {ws : List Col} {a b : List (XR fp)} (ea : s.scale = some a)
    (ha : PerColumn ws a) (eb : s.min = some b) (hb : PerColumn ws b) {M N : List (List (XR fp))} (h : Matching ws M N) :
    Par (fun A B => ∃ M' N', A = .ofMat M' ∧ B = .ofMat N' ∧ Matching ws M' N') (s.transform (.ofMat M)) (s.transform (.ofMat N)) := by
  have e : ∀ M : List (List (XR fp)), M ≠ [] → s.transform (.ofMat M) = (M.mapM fun x => (List.range a.length).mapM fun (i : Nat) =>
      pyGet x (i : Int) >>= fun u => pyGet a (i : Int) >>= fun c => pyGet b (i : Int) >>= fun d => .ok ((u *ₚ c) +ₚ d)) >>=
        fun rs => .ok (.ofMat rs) := by
    intro M hM
    simp only [MinMaxScaler.transform, issparse_ofMat, Bool.false_eq_true, if_false, checkArray_ofMat hM, py_ok_bind, rows_ofMat, notNone,
      ea, eb]
    rw [mapM_map']
    rfl
  rw [e M h.left.1, e N h.right.1]
  refine Par.bind (R := Matching ws) (mapM_matching h fun x y hxy => ?_) fun M' N' hMN => .done ⟨M', N', rfl, rfl, hMN⟩
  refine picked_par (op := fun (i : Nat) u => pyGet a (i : Int) >>= fun c => pyGet b (i : Int) >>= fun d => .ok ((u *ₚ c) +ₚ d))
    hxy (by rw [ha.1]; exact range_cols ws) fun i w hw u v huv => ?_
  have hi : i < ws.length := (List.getElem?_eq_some_iff.1 hw).1
  have hi1 : i < a.length := by rw [ha.1]; exact hi
  have hi2 : i < b.length := by rw [hb.1]; exact hi
  rw [pyGet_lt hi1, pyGet_lt hi2]
  refine rel_par (f := fun u => .ok ((u *ₚ a[i]) +ₚ b[i])) (fun _ _ => .done trivial) (fun ew r y hy => ?_) huv
  subst ew
  have hm := List.mem_of_getElem? hw
  obtain ⟨p, hp⟩ := (ha.2 hm).2 _ (List.getElem_mem hi1)
  obtain ⟨q, hq⟩ := (hb.2 hm).2 _ (List.getElem_mem hi2)
  rw [hp, hq] at hy
  obtain ⟨z, hz⟩ := (ha.2 hm).1 (r * p)
  have : (.fin r : XR fp) *ₚ .fin p = .fin z := hz
  rw [this] at hy
  cases hy
  exact (ha.2 hm).1 (z + q)

/-! ### Imputation -/

theorem imputed_agree {s : SimpleImputer (XR fp)} {ws : List Col} (hl : s.statistics.length = ws.length)
    (hi : ∀ p ∈ ws.zip s.statistics, p.1 = .idle → ∃ r : ℝ, p.2 = .fin r) {x y : List (XR fp)} (h : AgreeOn ws x y) (d : XR fp) :
    AgreeOn (imputedCols s ws) (s.out d x) (s.out d y) := by
  obtain ⟨lx, ly⟩ := agree_lengths h
  have ec : imputedCols s ws = ((List.range s.statistics.length).filter (s.keep d)).map fun j => ws.getD j .free := by
    unfold imputedCols
    have : ws.zip s.statistics = (List.range s.statistics.length).map fun j => (ws.getD j .free, s.statistics.getD j d) := by
      apply List.ext_getElem
      · simp [hl]
      · intro i h1 h2
        simp only [List.length_zip] at h1
        simp [show i < ws.length by omega, show i < s.statistics.length by omega]
    rw [this, List.filter_map, List.map_map]
    rfl
  rw [ec]
  show AgreeOn _ (((List.range s.statistics.length).filter (s.keep d)).map fun j => _) (((List.range s.statistics.length).filter (s.keep d)).map fun j => _)
  have hlt : ∀ j ∈ (List.range s.statistics.length).filter (s.keep d), j < ws.length := fun j hj => by
    rw [← hl]
    exact List.mem_range.1 (List.mem_filter.1 hj).1
  revert hlt
  generalize (List.range s.statistics.length).filter (s.keep d) = J
  intro hlt
  induction J with
  | nil => exact .nil
  | cons j J ih =>
    refine .cons ?_ (ih fun j hj => hlt j (by simp [hj]))
    have hj := hlt j (by simp)
    have hw : ws[j]? = some ws[j] := List.getElem?_eq_getElem hj
    obtain ⟨a, b, ha, hb, hab⟩ := agree_get h hw
    simp only [List.getD_eq_getElem?_getD, hw, ha, hb, Option.getD_some]
    have hs : j < s.statistics.length := by omega
    have hst : ws[j] = .idle → ∃ r : ℝ, s.statistics[j] = .fin r := fun e => by
      refine hi (ws[j], s.statistics[j]) ?_ e
      rw [← List.getElem_zip (h := by simpa using ⟨hj, hs⟩)]
      exact List.getElem_mem _
    rw [List.getElem?_eq_getElem hs, Option.getD_some]
    generalize ws[j] = w at hab hst
    cases w with
    | read => cases (hab : a = b); exact rfl
    | free => trivial
    | idle =>
      obtain ⟨r, hr⟩ := hst rfl
      refine ⟨?_, ?_⟩
      · split
        · exact ⟨r, hr⟩
        · exact hab.1
      · split
        · exact ⟨r, hr⟩
        · exact hab.2

theorem flags_same {i : MissingIndicator (XR fp)} {ws : List Col} (hf : Flags i ws) {x y : List (XR fp)} (h : AgreeOn ws x y) (d : XR fp) :
    i.out d x = i.out d y := by
  obtain ⟨-, h1, -, -, h2⟩ := hf
  unfold MissingIndicator.out missingMask
  rw [List.map_map, List.map_map]
  refine List.map_congr_left fun j hj => ?_
  have : j ∈ i.features := by
    have := (List.mem_filter.1 hj).2
    simpa [MissingIndicator.selected, h1] using this
  obtain ⟨a, b, ha, hb, hab⟩ := agree_get h (h2 j this)
  cases (hab : a = b)
  simp only [Function.comp, List.getD_eq_getElem?_getD, ha, hb]

theorem columnStep_par {s : Single (XR fp)} {ws vs : List Col} (h : ColumnStep s ws vs) (lib : String → TextLib) (encode : Str → List Nat) :
    Blind (s.est lib encode) (SameColumns ws) (.columns vs) := by
  have go : ∀ {t : Arr (XR fp) → Py (Arr (XR fp))}, (∀ M N, Matching ws M N →
      Par (fun A B => ∃ M' N', A = .ofMat M' ∧ B = .ofMat N' ∧ Matching vs M' N') (t (.ofMat M)) (t (.ofMat N))) →
      Blind (transformer (Data.onArr t)) (SameColumns ws) (.columns vs) := by
    intro t ht
    refine ⟨_, rfl, fun X Y hXY => ?_⟩
    cases hXY with
    | @mk M N h =>
      refine (ht M N h).bind fun A B hAB => ?_
      obtain ⟨M', N', rfl, rfl, h'⟩ := hAB
      exact .done (.mk h')
  cases h with
  | standard h1 h2 => exact go fun M N h => standard_par h1 h2 h
  | minMax h1 h2 h3 h4 => exact go fun M N h => minMax_par h1 h2 h3 h4 h
  | maxAbs h1 h2 => exact go fun M N h => maxAbs_par h1 h2 h
  | @imputer s _ h0 ha hl hi =>
    refine go fun M N h => ?_
    rw [C30_transform s (ofInt 0) h.left.1 (by rw [hl]; exact h.left.2) h0 ha, C30_transform s (ofInt 0) h.right.1 (by rw [hl]; exact h.right.2) h0 ha]
    exact .done ⟨_, _, rfl, rfl, matching_map h fun x y hxy => imputed_agree hl hi hxy _⟩
  | @imputerFlags s _ i h0 ha hs hf hl hi =>
    refine go fun M N h => ?_
    obtain ⟨⟨f1, f2⟩, f3, f4, f5, f6⟩ := hf
    rw [C30_indicator s (ofInt 0) h.left.1 (by rw [hl]; exact h.left.2) h0 ha hs f4 (by rw [f5, hl]) f1 f2,
      C30_indicator s (ofInt 0) h.right.1 (by rw [hl]; exact h.right.2) h0 ha hs f4 (by rw [f5, hl]) f1 f2]
    refine .done ⟨_, _, rfl, rfl, matching_map h fun x y hxy => agree_append (imputed_agree hl hi hxy _) ?_⟩
    rw [flags_same ⟨⟨f1, f2⟩, f3, f4, f5, f6⟩ hxy (ofInt 0)]
    have := agree_same (i.out (ofInt 0) y)
    rw [i.out_length ⟨f1, f2⟩, flagColumns, if_pos f3] at this
    exact this

/-! ### Predictors -/

theorem weighs_dot {ws : List Col} {c : List (XR fp)} (hc : Weighs ws c) {x y : List (XR fp)} (h : AgreeOn ws x y) : dotList x c = dotList y c := by
  have : List.zipWith Arith.mul x c = List.zipWith Arith.mul y c := by
    induction hc generalizing x y with
    | nil => cases h; rfl
    | read _ ih =>
      cases h with
      | cons h h' => cases (h : _ = _); rw [List.zipWith_cons_cons, List.zipWith_cons_cons, ih h']
    | idle _ ih =>
      cases h with
      | cons h h' =>
        obtain ⟨⟨r, rfl⟩, s, rfl⟩ := h
        rw [List.zipWith_cons_cons, List.zipWith_cons_cons, ih h']
        have e : ∀ r : ℝ, Arith.mul (.fin r : XR fp) (.fin 0) = XR.round 0 := fun r => by
          show XR.round (r * 0) = _
          rw [mul_zero]
        rw [e, e]
  unfold dotList
  rw [this]

theorem decision_same {C : Type} {m : Linear (XR fp) C} {ws : List Col} (hm : ∀ c ∈ m.coef, Weighs ws c) {M N : List (List (XR fp))}
    (h : Matching ws M N) : m.decisionFunction (.ofMat M) = m.decisionFunction (.ofMat N) := by
  have h1 : m.checkWidth (.ofMat M) = m.checkWidth (.ofMat N) := by
    unfold Linear.checkWidth
    rw [h.width]
  have h2 : (M.map Row.list).mapM m.rowScores = (N.map Row.list).mapM m.rowScores := by
    rw [mapM_map', mapM_map']
    refine mapM_eq_of h.2 fun x y hxy => ?_
    unfold Linear.rowScores
    rw [dot_list, dot_list]
    have : (m.coef.map fun b => dotList x b) = m.coef.map fun b => dotList y b := List.map_congr_left fun c hc => weighs_dot (hm c hc) hxy
    rw [this]
  unfold Linear.decisionFunction
  simp only [checkArray_ofMat h.left.1, checkArray_ofMat h.right.1, py_ok_bind, rows_ofMat, h1, h2]

theorem eval_skips {ws : List Col} {dt : DTree (XR fp)} (hd : ∀ f ∈ dt.features, ws[f]? = some .read) {x y : List (XR fp)} (h : AgreeOn ws x y) :
    dt.eval (fun i => x[i]?) = dt.eval (fun i => y[i]?) := by
  induction dt with
  | leaf v => rfl
  | node f thr l r ihl ihr =>
    obtain ⟨a, b, ha, hb, hab⟩ := agree_get h (hd f (by simp [DTree.features]))
    cases (hab : a = b)
    simp only [DTree.eval, ha, hb]
    rw [ihl fun g hg => hd g (by simp [DTree.features, hg]), ihr fun g hg => hd g (by simp [DTree.features, hg])]

theorem evalPy_skips {ws : List Col} {dt : DTree (XR fp)} (hd : ∀ f ∈ dt.features, ws[f]? = some .read) {M N : List (List (XR fp))}
    (h : Matching ws M N) : (M.map Row.list).mapM dt.evalPy = (N.map Row.list).mapM dt.evalPy := by
  rw [mapM_map', mapM_map']
  refine mapM_eq_of h.2 fun x y hxy => ?_
  have := eval_skips hd hxy
  unfold DTree.evalPy
  rw [show (Row.list x).look = fun i => x[i]? from rfl, show (Row.list y).look = fun i => y[i]? from rfl, this]
  rfl

theorem treeReg_same {C : Type} {t : Tree (XR fp) C} {ws : List Col} (ht : Tests ws t) {M N : List (List (XR fp))} (h : Matching ws M N) :
    t.predictReg (.ofMat M) = t.predictReg (.ofMat N) := by
  obtain ⟨dt, henc, hd⟩ := ht
  rw [Tree.predictReg_eq henc (checkArray_ofMat h.left.1 _) (rows_ofMat M), Tree.predictReg_eq henc (checkArray_ofMat h.right.1 _) (rows_ofMat N),
    evalPy_skips hd h]

theorem treeProba_same {C : Type} {t : Tree (XR fp) C} {ws : List Col} (ht : Tests ws t) {M N : List (List (XR fp))} (h : Matching ws M N) :
    t.predictProba (.ofMat M) = t.predictProba (.ofMat N) ∧ t.predict (.ofMat M) = t.predict (.ofMat N) := by
  obtain ⟨dt, henc, hd⟩ := ht
  rw [Tree.predictProba_eq henc (checkArray_ofMat h.left.1 _) (rows_ofMat M), Tree.predictProba_eq henc (checkArray_ofMat h.right.1 _) (rows_ofMat N),
    Tree.predict_eq henc (checkArray_ofMat h.left.1 _) (rows_ofMat M), Tree.predict_eq henc (checkArray_ofMat h.right.1 _) (rows_ofMat N),
    evalPy_skips hd h]
  exact ⟨rfl, rfl⟩

theorem foldlM_congr_mem {α β : Type} {f g : β → α → Py β} {l : List α} (h : ∀ a ∈ l, ∀ b, f b a = g b a) (b : β) : l.foldlM f b = l.foldlM g b := by
  induction l generalizing b with
  | nil => rfl
  | cons a l ih =>
    rw [List.foldlM_cons, List.foldlM_cons, h a (by simp) b]
    congr 1
    funext c
    exact ih (fun a ha => h a (by simp [ha])) c

theorem xgb_same {C : Type} {m : Xgb (XR fp) C} {ws : List Col} (hm : ∀ t ∈ boosterTrees m.trees, Tests ws t) {M N : List (List (XR fp))}
    (h : Matching ws M N) : m.predictProba (.ofMat M) = m.predictProba (.ofMat N) := by
  have add : ∀ t ∈ boosterTrees m.trees, ∀ acc, Xgb.addTree (.ofMat M) acc t = Xgb.addTree (.ofMat N) acc t := by
    intro t ht acc
    unfold Xgb.addTree
    rw [treeReg_same (hm t ht) h]
  have e1 : m.predictBinary (.ofMat M) = m.predictBinary (.ofMat N) := by
    unfold Xgb.predictBinary
    rw [len_ofMat, len_ofMat, h.length]
    simp only [py_ok_bind]
    cases hts : m.trees with
    | binary ts => exact foldlM_congr_mem (fun t ht acc => add t (by rw [hts]; exact ht) acc) _
    | multi rounds => rfl
  have e2 : m.predict_ (.ofMat M) = m.predict_ (.ofMat N) := by
    unfold Xgb.predict_
    refine mapM_congr fun c _ => ?_
    rw [len_ofMat, len_ofMat, h.length]
    simp only [py_ok_bind]
    refine foldlM_congr_mem (fun e _ acc => ?_) _
    cases hts : m.trees with
    | binary ts => rfl
    | multi rounds =>
      simp only
      cases h1 : pyGet rounds (e : Int) with
      | error _ => rfl
      | ok r =>
        simp only [py_ok_bind]
        cases h2 : pyGet r (c : Int) with
        | error _ => rfl
        | ok t =>
          refine add t ?_ acc
          rw [hts]
          exact List.mem_flatten.2 ⟨r, List.mem_of_getElem? (pyGet_ok_nat.1 h1), List.mem_of_getElem? (pyGet_ok_nat.1 h2)⟩
  unfold Xgb.predictProba
  rw [checkArray_ofMat h.left.1, checkArray_ofMat h.right.1]
  simp only [py_ok_bind]
  cases m.objective with
  | multiSoftprob =>
    simp only [e2, len_ofMat, h.length]
  | binaryLogistic => simp only [e1]

/-- Dense requests with the same answers from the methods of a classifier. -/
theorem blind_of {f : Methods (XR fp)} {ws : List Col} (h : ∀ M N, Matching ws M N →
      (∀ t, f.transform = some t → t (.arr (.ofMat M)) = t (.arr (.ofMat N))) ∧ (∀ p, f.predict = some p → p (.arr (.ofMat M)) = p (.arr (.ofMat N))) ∧
      (∀ q, f.predictProba = some q → q (.arr (.ofMat M)) = q (.arr (.ofMat N))) ∧
      ∀ q, f.predictLogProba = some q → q (.arr (.ofMat M)) = q (.arr (.ofMat N))) : Blind f (SameColumns ws) .all := by
  intro X Y hXY
  cases hXY with
  | mk hMN => exact h _ _ hMN

theorem classifier_blind {p : Arr (XR fp) → Py (List (PVal (XR fp)))} {pp pl : Arr (XR fp) → Py (List (List (XR fp)))} {ws : List Col}
    (h : ∀ M N, Matching ws M N → p (.ofMat M) = p (.ofMat N) ∧ pp (.ofMat M) = pp (.ofMat N) ∧ pl (.ofMat M) = pl (.ofMat N)) :
    Blind (classifier p pp pl) (SameColumns ws) .all :=
  blind_of fun M N hMN => ⟨fun _ e => (by cases e), fun _ e => by cases e; exact (h M N hMN).1, fun _ e => by cases e; exact (h M N hMN).2.1,
    fun _ e => by cases e; exact (h M N hMN).2.2⟩

theorem predictor_blind {p : Arr (XR fp) → Py (List (PVal (XR fp)))} {ws : List Col}
    (h : ∀ M N, Matching ws M N → p (.ofMat M) = p (.ofMat N)) : Blind (predictor p) (SameColumns ws) .all :=
  blind_of fun M N hMN => ⟨fun _ e => (by cases e), fun _ e => (by cases e; exact h M N hMN), fun _ e => (by cases e), fun _ e => by cases e⟩

theorem skips_blind {s : Single (XR fp)} {ws : List Col} (h : Skips s ws) (lib : String → TextLib) (encode : Str → List Nat) :
    Blind (s.est lib encode) (SameColumns ws) .all := by
  cases h with
  | @linear k m _ hm =>
    have hp : ∀ M N, Matching ws M N → m.predict (.ofMat M) = m.predict (.ofMat N) := fun M N h => by
      unfold Linear.predict
      rw [decision_same hm h]
    have hlr : ∀ M N, Matching ws M N → m.predictProbaLr (.ofMat M) = m.predictProbaLr (.ofMat N) := fun M N h => by
      unfold Linear.predictProbaLr
      rw [decision_same hm h]
    show Blind (k.est m) _ _
    cases k with
    | logistic =>
      have hpp : ∀ M N, Matching ws M N → m.predictProba (.ofMat M) = m.predictProba (.ofMat N) := fun M N h => by
        unfold Linear.predictProba
        rw [decision_same hm h, hlr M N h]
      refine classifier_blind fun M N h => ⟨hp M N h, hpp M N h, ?_⟩
      unfold Linear.predictLogProba
      rw [hpp M N h]
    | sgd =>
      unfold LinKind.est
      have hpp : ∀ M N, Matching ws M N → m.sgdPredictProba (.ofMat M) = m.sgdPredictProba (.ofMat N) := fun M N h => by
        unfold Linear.sgdPredictProba Linear.sgdPredictProba_
        rw [hlr M N h]
      cases m.checkProba with
      | ok _ =>
        refine classifier_blind fun M N h => ⟨hp M N h, hpp M N h, ?_⟩
        unfold Linear.sgdPredictLogProba
        rw [hpp M N h]
      | error _ => exact predictor_blind hp
    | plain => exact predictor_blind hp
  | @treeClassifier t _ ht =>
    refine classifier_blind fun M N h => ⟨(treeProba_same ht h).2, (treeProba_same ht h).1, ?_⟩
    unfold Tree.predictLogProba
    rw [(treeProba_same ht h).1]
  | @treeRegressor t _ ht => exact predictor_blind fun M N h => by rw [treeReg_same ht h]
  | @xgb m _ hm =>
    refine blind_of fun M N h => ⟨fun _ e => (by cases e), fun _ e => ?_, fun _ e => ?_, fun _ e => by cases e⟩
    · cases e
      show m.predict _ = m.predict _
      unfold Xgb.predict
      rw [xgb_same hm h]
    · cases e
      exact xgb_same hm h
  | @dummy d _ =>
    refine classifier_blind fun M N h => ?_
    have e1 : d.predictProba (.ofMat M) = d.predictProba (.ofMat N) := by
      unfold Dummy.predictProba
      rw [len_ofMat, len_ofMat, h.length]
    refine ⟨?_, e1, ?_⟩
    · unfold Dummy.predict
      rw [len_ofMat, len_ofMat, h.length]
    · unfold Dummy.predictLogProba
      rw [e1]
  | @indicator m _ hf =>
    refine blind_of fun M N h => ⟨fun _ e => ?_, fun _ e => (by cases e), fun _ e => (by cases e), fun _ e => by cases e⟩
    cases e
    obtain ⟨⟨f1, f2⟩, f3, f4, f5, f6⟩ := hf
    show (do return Data.arr (← (do return Arr.ofMat (← m.transform (.ofMat M))))) = (do return Data.arr (← (do return Arr.ofMat (← m.transform (.ofMat N)))))
    rw [C31_total_partial m (ofInt 0) h.left.1 (by rw [f5]; exact h.left.2) f1 f2 (.inl f4),
      C31_total_partial m (ofInt 0) h.right.1 (by rw [f5]; exact h.right.2) f1 f2 (.inl f4)]
    have : M.map (m.out (ofInt 0)) = N.map (m.out (ofInt 0)) := by
      have h2 := h.2
      clear h
      induction h2 with
      | nil => rfl
      | cons h _ ih => rw [List.map_cons, List.map_cons, flags_same ⟨⟨f1, f2⟩, f3, f4, f5, f6⟩ h, ih]
    rw [this]

/-! ### Words and keys -/

theorem foldl_filter_of {α β : Type} {f : β → α → β} {p : α → Bool} (h : ∀ b a, p a = false → f b a = b) (l : List α) (b : β) :
    l.foldl f b = (l.filter p).foldl f b := by
  induction l generalizing b with
  | nil => rfl
  | cons a l ih =>
    cases hp : p a with
    | true => rw [List.filter_cons_of_pos hp, List.foldl_cons, List.foldl_cons, ih]
    | false => rw [List.filter_cons_of_neg (by simp [hp]), List.foldl_cons, h b a hp, ih]

theorem foldlM_filter_of {α β : Type} {f : β → α → Py β} {p : α → Bool} (h : ∀ b a, p a = false → f b a = .ok b) (l : List α) (b : β) :
    l.foldlM f b = (l.filter p).foldlM f b := by
  induction l generalizing b with
  | nil => rfl
  | cons a l ih =>
    cases hp : p a with
    | true =>
      rw [List.filter_cons_of_pos hp, List.foldlM_cons, List.foldlM_cons]
      congr 1
      funext c
      exact ih c
    | false => rw [List.filter_cons_of_neg (by simp [hp]), List.foldlM_cons, h b a hp, py_ok_bind, ih]

theorem countDoc_known (voc : Dict Str Int) (l : List Str) : countDoc voc l = countDoc voc (l.filter fun w => (voc.get? w).isSome) := by
  refine foldl_filter_of (fun c w hw => ?_) l []
  unfold countStep
  cases h : voc.get? w with
  | none => rfl
  | some i => rw [h] at hw; cases hw

theorem map_eq_of {α β γ : Type} {R : α → β → Prop} {l : List α} {l' : List β} {f : α → γ} {g : β → γ} (h : List.Forall₂ R l l')
    (hf : ∀ x y, R x y → f x = g y) : l.map f = l'.map g := by
  induction h with
  | nil => rfl
  | cons h _ ih => rw [List.map_cons, List.map_cons, hf _ _ h, ih]

theorem count_same {lib : TextLib} {s : CountVectorizer} {words : Str → List Str} (hw : buildAnalyzer lib s.opts = .ok words) {ds es : List Str}
    (h : List.Forall₂ (fun d e => (words d).filter (fun w => (s.vocabulary.get? w).isSome) = (words e).filter (fun w => (s.vocabulary.get? w).isSome)) ds es) :
    (s.transform lib (some ds) : Py (Arr (XR fp))) = s.transform lib (some es) := by
  have : (s.countVocab lib ds : Py (Arr (XR fp))) = s.countVocab lib es := by
    unfold CountVectorizer.countVocab
    rw [hw]
    simp only [py_ok_bind]
    rw [map_eq_of h fun d e hde => by rw [countDoc_known, hde, ← countDoc_known]]
  unfold CountVectorizer.transform
  simp only [this]

theorem docs_blind {t : List Str → Py (Arr (XR fp))} {words : Str → List Str} {counts : Str → Bool}
    (h : ∀ ds es, List.Forall₂ (fun d e => (words d).filter counts = (words e).filter counts) ds es → t ds = t es) :
    Blind (transformer (Data.onDocs t)) (SameWords words counts) .all := by
  intro X Y hXY
  cases hXY with
  | @mk ds es _ hde =>
    refine ⟨fun _ e => ?_, fun _ e => (by cases e), fun _ e => (by cases e), fun _ e => by cases e⟩
    cases e
    show (t ds >>= _) = (t es >>= _)
    rw [h ds es hde]

theorem count_blind {lib : TextLib} {s : CountVectorizer} {words : Str → List Str} (hw : buildAnalyzer lib s.opts = .ok words) :
    Blind (fp := fp) (transformer (Data.onDocs fun ds => s.transform lib (some ds))) (SameWords words fun w => (s.vocabulary.get? w).isSome) .all :=
  docs_blind fun _ _ h => count_same hw h

theorem tfidfVec_blind {lib : TextLib} {s : CountVectorizer} {t : Tfidf (XR fp)} {words : Str → List Str} (hw : buildAnalyzer lib s.opts = .ok words) :
    Blind (fp := fp) (transformer (Data.onDocs fun ds => tfidfVectorizerTransform lib s t (some ds))) (SameWords words fun w => (s.vocabulary.get? w).isSome) .all :=
  docs_blind fun _ _ h => by
    unfold tfidfVectorizerTransform
    rw [count_same hw h]

theorem hashing_blind {lib : TextLib} {encode : Str → List Nat} {s : HashingVectorizer} {words : Str → List Str} (hw : buildAnalyzer lib s.opts = .ok words) :
    Blind (fp := fp) (transformer (Data.onDocs fun ds => s.transform lib encode (some ds))) (SameWords words fun _ => true) .all :=
  docs_blind fun ds es h => by
    have : ds.map words = es.map words := map_eq_of h fun d e hde => by simpa using hde
    unfold HashingVectorizer.transform
    simp only [hw, py_ok_bind, this]

theorem dictVec_blind {s : DictVectorizer} :
    Blind (fp := fp) (transformer (Data.onRecords s.transform)) (SameEntries s.separator fun n => (s.vocabulary.get? n).isSome) .all := by
  intro X Y hXY
  cases hXY with
  | @mk xs ys _ h =>
    refine ⟨fun _ e => ?_, fun _ e => (by cases e), fun _ e => (by cases e), fun _ e => by cases e⟩
    cases e
    have key : ∀ x : Dict Str (FeatVal (XR fp)), s.row x = s.row (x.filter fun kv => (s.vocabulary.get? (entryName s.separator kv)).isSome) := by
      intro x
      refine foldlM_filter_of (f := s.step) (fun row kv hk => ?_) x []
      obtain ⟨k, v⟩ := kv
      cases v with
      | str w =>
        simp only [DictVectorizer.step]
        simp only [entryName] at hk
        cases hg : s.vocabulary.get? (k ++ s.separator ++ w) with
        | none => rfl
        | some i => rw [hg] at hk; cases hk
      | num w =>
        simp only [DictVectorizer.step]
        simp only [entryName] at hk
        cases hg : s.vocabulary.get? k with
        | none => rfl
        | some i => rw [hg] at hk; cases hk
    have : xs.mapM s.row = ys.mapM s.row := mapM_eq_of h fun x y hxy => by rw [key, hxy, ← key]
    show (s.transform (.many xs) >>= _) = (s.transform (.many ys) >>= _)
    unfold DictVectorizer.transform
    simp only [this]

end PurePredict
