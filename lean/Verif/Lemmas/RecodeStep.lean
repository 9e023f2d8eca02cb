import Verif.Lemmas.RecodeArith
/-
Transformers fitted in other units.
-/
namespace PurePredict
open Spec
variable {fp : FP}

/-! ### Requests -/

/-- the matrices of two such requests -/
def Cod (φs : List (Code fp)) (M N : List (List (XR fp))) : Prop := M ≠ [] ∧ List.Forall₂ (Recoded φs) M N

theorem Cod.left {φs : List (Code fp)} {M N : List (List (XR fp))} (h : Cod φs M N) : M ≠ [] ∧ Rect φs.length M := by
  refine ⟨h.1, ?_⟩
  obtain ⟨-, h⟩ := h
  induction h with
  | nil => exact fun r hr => by simp at hr
  | cons h _ ih =>
    intro r hr
    rcases List.mem_cons.1 hr with rfl | hr
    · exact h.lengths.1
    · exact ih r hr

theorem Cod.right {φs : List (Code fp)} {M N : List (List (XR fp))} (h : Cod φs M N) : N ≠ [] ∧ Rect φs.length N := by
  obtain ⟨h0, h⟩ := h
  refine ⟨by rintro rfl; cases h; exact h0 rfl, ?_⟩
  clear h0
  induction h with
  | nil => exact fun r hr => by simp at hr
  | cons h _ ih =>
    intro r hr
    rcases List.mem_cons.1 hr with rfl | hr
    · exact h.lengths.2
    · exact ih r hr

theorem Cod.length {φs : List (Code fp)} {M N : List (List (XR fp))} (h : Cod φs M N) : M.length = N.length := h.2.length_eq

theorem Cod.map {φs ψs : List (Code fp)} {M N : List (List (XR fp))} (h : Cod φs M N) {f g : List (XR fp) → List (XR fp)}
    (hf : ∀ x y, Recoded φs x y → Recoded ψs (f x) (g y)) : Cod ψs (M.map f) (N.map g) :=
  ⟨by simpa using h.1, moved_map h.2 hf⟩

/-! ### Scalers -/

theorem standard_run (s : StandardScaler (XR fp)) {M : List (List (XR fp))} (hM : M ≠ []) : s.transform (.ofMat M) =
    (if s.withMean then notNone s.mean >>= fun m => columnwise m (fun a b => .ok (a -ₚ b)) (M.map Row.list) else .ok (M.map Row.list)) >>=
      fun rs => (if s.withStd then notNone s.scale >>= fun sc => columnwise sc Arith.div rs else .ok rs) >>= fun rs => .ok (.list rs) := by
  have hc : checkArray (.list (M.map Row.list)) .allow = .ok (.list (M.map Row.list)) := checkArray_ofMat hM _
  show s.transform (.list _) = _
  obtain ⟨wm, wd, sc, mn⟩ := s
  simp only [StandardScaler.transform, hc, py_ok_bind, rows_list]
  cases wm <;> cases wd <;> simp only [Bool.false_eq_true, if_false, if_true, py_pure, py_ok_bind, bind_assoc]

theorem floats_length (l : List ℝ) : (floats fp l).length = l.length := by simp [floats]

theorem floats_mem {l : List ℝ} {a : XR fp} (h : a ∈ floats fp l) : ∃ r ∈ l, a = .fin r := by
  obtain ⟨r, hr, rfl⟩ := List.mem_map.1 h
  exact ⟨r, hr, rfl⟩

theorem columnwise_sub {m : List ℝ} {M : List (List (XR fp))} (hM : Rect m.length M) :
    columnwise (floats fp m) (fun a b => .ok (a -ₚ b)) (M.map Row.list) = .ok ((M.map fun x => x.zipWith (fun a b => a -ₚ b) (floats fp m)).map Row.list) :=
  columnwise_zip (fun _ _ _ => rfl) (by rw [floats_length]; exact hM)

theorem columnwise_div {s : List ℝ} (hs : 0 ∉ s) {M : List (List (XR fp))} (hM : Rect s.length M) :
    columnwise (floats fp s) Arith.div (M.map Row.list) = .ok ((M.map fun x => x.zipWith quotOr (floats fp s)).map Row.list) := by
  refine columnwise_zip (fun a b hb => div_quotOr (fun e => ?_) a) (by rw [floats_length]; exact hM)
  obtain ⟨r, hr, e2⟩ := floats_mem hb
  rw [e] at e2
  cases e2
  exact hs hr

theorem spreads_nonzero {cs : List Change} {s : List ℝ} (hc : ∀ c ∈ cs, 0 < c.factor) (hs : 0 ∉ s) : 0 ∉ spreads cs s := by
  intro h
  unfold spreads at h
  induction cs generalizing s with
  | nil => simp at h
  | cons c cs ih =>
    cases s with
    | nil => simp at h
    | cons a s =>
      simp only [List.zipWith_cons_cons, List.mem_cons] at h hs
      rcases h with h | h
      · have := hc c (by simp)
        rcases mul_eq_zero.1 h.symm with g | g
        · exact this.ne' g
        · exact hs (.inl g.symm)
      · exact ih (fun c hc' => hc c (by simp [hc'])) (fun h => hs (.inr h)) h

theorem values_length (cs : List Change) {m : List ℝ} (h : m.length = cs.length) : (values cs m).length = cs.length := by simp [values, h]

theorem spreads_length (cs : List Change) {m : List ℝ} (h : m.length = cs.length) : (spreads cs m).length = cs.length := by simp [spreads, h]

theorem centred_rows {cs : List Change} (hu : ∀ c ∈ cs, 0 < c.factor) {m : List ℝ} (hm : m.length = cs.length) {x y : List Ex}
    (h : Recoded (cs.map Change.on) x y) : Recoded (cs.map fun c => Change.on ⟨c.factor, 0⟩) (x.zipWith (fun a b => a -ₚ b) (floats FP.exact m))
      (y.zipWith (fun a b => a -ₚ b) (floats FP.exact (values cs m))) := by
  have := recoded_zip (g := fun a b => a -ₚ b) (q := fun c x => c.factor * x + c.offset) (ψ := fun c _ => Change.on ⟨c.factor, 0⟩) hm
    (fun c hc r _ a => exact_centre (hu c hc) r a) h
  rw [zipWith_const _ hm] at this
  exact this

theorem divided_rows {cs : List Change} (hu : ∀ c ∈ cs, 0 < c.factor) {s : List ℝ} (hs : s.length = cs.length) (h0 : 0 ∉ s) {x y : List Ex}
    (h : Recoded (cs.map Change.on) x y) : Recoded (cs.zipWith (fun c x => Change.on ⟨1, c.offset / (c.factor * x)⟩) s)
      (x.zipWith quotOr (floats FP.exact s)) (y.zipWith quotOr (floats FP.exact (spreads cs s))) :=
  recoded_zip (g := quotOr) (q := fun c x => c.factor * x) hs (fun c hc r hr a => exact_divide (hu c hc) (fun e => h0 (e ▸ hr)) a) h

theorem divided_plain {cs : List Change} (hu : ∀ c ∈ cs, 0 < c.factor) {φ : Change → Code FP.exact} (hφ : ∀ c, φ c = Change.on ⟨c.factor, 0⟩) {s : List ℝ}
    (hs : s.length = cs.length) (h0 : 0 ∉ s) {x y : List Ex} (h : Recoded (cs.map φ) x y) :
    Recoded (asIs FP.exact cs.length) (x.zipWith quotOr (floats FP.exact s)) (y.zipWith quotOr (floats FP.exact (spreads cs s))) := by
  have := recoded_zip (g := quotOr) (q := fun c x => c.factor * x) (ψ := fun _ _ => id) hs (fun c hc r hr a => by
    rw [hφ c, exact_divide (c := ⟨c.factor, 0⟩) (hu c hc) (fun e => h0 (e ▸ hr)) a]
    simp only [zero_div, exact_on_one, id]) h
  rw [zipWith_const _ hs, map_id_asIs] at this
  exact this

theorem rect_cast {w w' : Nat} {M : List (List (XR fp))} (h : Rect w M) (e : w = w') : Rect w' M := e ▸ h

/-! ### Imputers -/

theorem imputer_run (s : SimpleImputer (XR fp)) {M : List (List (XR fp))} (ha : s.addIndicator = false) (hne : s.statistics ≠ [])
    (hk : s.constant = true ∨ ∀ x ∈ s.statistics, Arith.isnan x = false) (hM : M ≠ []) (hw : Rect s.statistics.length M) :
    s.transform (.ofMat M) = .ok (.ofMat (M.map fun x => x.zipWith (fun v c => if toImpute v s.missing then c else v) s.statistics)) := by
  rw [C30_transform s (ofInt 0) hM hw hne ha]
  congr 2
  refine List.map_congr_left fun x hx => ?_
  have hl := hw x hx
  unfold imputed
  rw [List.filter_eq_self.2]
  · apply List.ext_getElem
    · simp [hl]
    · intro i h1 h2
      have : i < s.statistics.length := by simpa using h1
      simp [this, hl]
  · intro j hj
    have hj := List.mem_range.1 hj
    rcases hk with hk | hk
    · simp [hk]
    · have := hk s.statistics[j] (List.getElem_mem hj)
      simp [hj, this]

theorem imputer_coded {φs : List (Code fp)} {m m' : XR fp} (hφ : ∀ φ ∈ φs, ∀ x, toImpute (φ x) m' = toImpute x m) {x y u v : List (XR fp)}
    (h : Recoded φs x y) (h' : Recoded φs u v) :
    Recoded φs (x.zipWith (fun v c => if toImpute v m then c else v) u) (y.zipWith (fun v c => if toImpute v m' then c else v) v) := by
  induction h generalizing u v with
  | nil => cases h'; exact .nil
  | @cons φ φs a x y _ ih =>
    cases h' with
    | @cons _ _ b u v h' =>
      simp only [List.zipWith_cons_cons, hφ φ (by simp)]
      have ih := ih (fun φ hφ' => hφ φ (by simp [hφ'])) h'
      split
      · exact .cons ih
      · exact .cons ih

/-! ### Normalizers -/

theorem normalizer_run {n : Norm} (hn : n = .l1 ∨ n = .l2) {M : List (List (XR fp))} (hM : M ≠ []) :
    normalizerTransform n (.ofMat M) = denseNorms n (.ofMat M) >>= fun q =>
      (M.zip (handleZeros q)).mapM (fun p => p.1.mapM fun a => a /ₚ p.2) >>= fun rs => .ok (.ofMat rs) := by
  have hb : n ≠ .bad := by rcases hn with rfl | rfl <;> decide
  have e : normalizeRows (.ofMat M : Arr (XR fp)) n = (do
      let norms := handleZeros (← denseNorms n (.ofMat M))
      let rs' ← (List.zip (← (Arr.ofMat M : Arr (XR fp)).rows) norms).mapM fun p => do
        (← p.1.iter).mapM fun a => a /ₚ p.2
      return (.ofMat rs', norms)) := rfl
  have hz : ∀ q : List (XR fp), List.zip (M.map Row.list) q = (M.zip q).map fun p => ((Row.list p.1 : Row (XR fp)), p.2) := by
    intro q
    clear hM e
    induction M generalizing q with
    | nil => rfl
    | cons r M ih =>
      cases q with
      | nil => rfl
      | cons a q => simp [ih q]
  simp only [normalizerTransform, normalizePure, normalizePure', issparse_ofMat,
    Bool.and_false, Bool.false_eq_true, if_false, hb, checkArray_ofMat hM, py_ok_bind,
    show ((1 : Int) == 0) = false from rfl, show ((1 : Int) == 1) = true from rfl, Bool.or_true,
    Bool.not_true, py_pure, Bool.false_and, e, bind_assoc, rows_ofMat, hz, mapM_map']
  rfl

theorem l1_run (M : List (List (XR fp))) : denseNorms .l1 (.ofMat M) = M.mapM fun x => .ok (pySum (x.map Arith.abs)) := by
  simp only [denseNorms, apply2d_ofMat_ok, py_ok_bind, applyAxis2d_ofMat]
  rw [mapM_map']

theorem l2_run {w : Nat} {M : List (List (XR fp))} (hM : M ≠ []) (hw : Rect w M) :
    denseNorms .l2 (.ofMat M) = M.mapM fun x => Arith.sqrt (pySum (x.zipWith Arith.mul x)) := by
  have hsh := shape_ofMat hM (w := w) hw
  have hm : matmultSameDim (.ofMat M : Arr (XR fp)) (.ofMat M) =
      .ok (.ofMat (M.map fun r => List.zipWith Arith.mul r r)) := by
    have e : matmultSameDim (.ofMat M : Arr (XR fp)) (.ofMat M) = (do
        let rs ← (List.zip (M.map Row.list) (M.map Row.list)).mapM fun p =>
          mulRows w p.1 p.2
        return .ofMat rs) := by
      simp only [matmultSameDim, hsh, py_ok_bind, bne_self_eq_false, Bool.false_eq_true, if_false]
      rfl
    rw [e]
    have hz : List.zip (M.map Row.list) (M.map Row.list) = M.map fun r => ((Row.list r : Row (XR fp)), (Row.list r : Row (XR fp))) := by
      clear hM hw hsh e
      induction M with
      | nil => rfl
      | cons r A ih => simpa using ih
    rw [hz, mapM_map', mapM_ok_map (g := fun r => List.zipWith Arith.mul r r)]
    · rfl
    · intro r hr
      rw [← hw r hr]
      exact mulRows_self r
  simp only [denseNorms, rowNorms, hm, py_ok_bind]
  show ((applyAxis2d (.ofMat _) _) >>= _) = _
  rw [applyAxis2d_ofMat, mapM_map', mapM_ok_map (g := fun r => pySum (List.zipWith Arith.mul r r))
    fun _ _ => rfl, py_ok_bind, mapM_map']

/-- a positive multiple -/
noncomputable def times (r : ℝ) (x : Ex) : Ex := .fin r *ₚ x

theorem on_times (r : ℝ) (x : Ex) : Change.on ⟨r, 0⟩ x = times r x := exact_add_zero _

theorem times_fin (r x : ℝ) : times r (.fin x) = .fin (r * x) := XR.mul_exact r x
theorem times_pinf {r : ℝ} (h : 0 < r) : times r .pinf = .pinf := infMul_pos (p := true) h
theorem times_ninf {r : ℝ} (h : 0 < r) : times r .ninf = .ninf := infMul_pos (p := false) h
theorem times_nan (r : ℝ) : times r .nan = .nan := rfl

theorem times_add {r : ℝ} (h : 0 < r) (a b : Ex) : times r (a +ₚ b) = times r a +ₚ times r b := by
  cases a <;> cases b <;> simp only [times_fin, times_pinf h, times_ninf h, times_nan, XR.add_exact] <;> first
    | (rw [mul_add])
    | (exact times_pinf h)
    | (exact times_ninf h)
    | rfl

theorem times_foldl {r : ℝ} (h : 0 < r) (l : List Ex) (a : Ex) : (l.map (times r)).foldl Arith.add (times r a) = times r (l.foldl Arith.add a) := by
  induction l generalizing a with
  | nil => rfl
  | cons b l ih => rw [List.map_cons, List.foldl_cons, List.foldl_cons, ← times_add h, ih]

theorem times_sum {r : ℝ} (h : 0 < r) (l : List Ex) : pySum (l.map (times r)) = times r (pySum l) := by
  unfold pySum
  rw [← times_foldl h, XR.ofInt_exact, times_fin]
  simp

theorem times_abs {r : ℝ} (h : 0 < r) (a : Ex) : Arith.abs (times r a) = times r (Arith.abs a) := by
  cases a with
  | fin a => simp [times_fin, abs_mul, abs_of_pos h]
  | pinf => rw [times_pinf h]; exact (times_pinf h).symm
  | ninf => rw [times_ninf h]; exact (times_pinf h).symm
  | nan => rfl

theorem times_mul {r : ℝ} (h : 0 < r) (a : Ex) : times r a *ₚ times r a = times (r * r) (a *ₚ a) := by
  have h2 := mul_pos h h
  cases a with
  | fin a =>
    simp only [times_fin, XR.mul_exact]
    congr 1
    ring
  | pinf => rw [times_pinf h]; exact (times_pinf h2).symm
  | ninf => rw [times_ninf h]; exact (times_pinf h2).symm
  | nan => rfl

theorem times_sqrt {r : ℝ} (h : 0 < r) (a : Ex) : (Arith.sqrt (times (r * r) a) : Py Ex) = (Arith.sqrt a >>= fun b => .ok (times r b) : Py Ex) := by
  have h2 := mul_pos h h
  cases a with
  | fin a =>
    rw [times_fin]
    by_cases ha : 0 ≤ a
    · rw [XR.sqrt_exact ha, XR.sqrt_exact (by positivity), py_ok_bind, times_fin, Real.sqrt_mul h2.le, Real.sqrt_mul_self h.le]
    · have ha : a < 0 := not_le.1 ha
      have hb : r * r * a < 0 := mul_neg_of_pos_of_neg h2 ha
      show XR.sqrt _ = XR.sqrt _ >>= _
      simp [XR.sqrt, ha, hb]
  | pinf => rw [times_pinf h2]; show XR.sqrt _ = XR.sqrt _ >>= _; simp [XR.sqrt, py_ok_bind, times_pinf h]
  | ninf => rw [times_ninf h2]; rfl
  | nan => rfl

theorem times_quot {r : ℝ} (h : 0 < r) (a : Ex) {q : Ex} (hq : q ≠ .fin 0) : (times r a /ₚ times r q : Py Ex) = a /ₚ q := by
  show XR.div _ _ = XR.div _ _
  cases q with
  | fin q =>
    have hq : q ≠ 0 := fun e => hq (by rw [e])
    have h2 : r * q ≠ 0 := mul_ne_zero h.ne' hq
    cases a with
    | fin a =>
      simp only [times_fin, XR.div, h2, hq, if_false]
      rw [mul_div_mul_left _ _ h.ne']
    | pinf => simp only [times_fin, times_pinf h, XR.div, h2, hq, if_false, infMul_scaled h]
    | ninf => simp only [times_fin, times_ninf h, XR.div, h2, hq, if_false, infMul_scaled h]
    | nan => simp only [times_fin, times_nan, XR.div, h2, hq, if_false]
  | pinf => cases a <;> simp only [times_fin, times_pinf h, times_ninf h, times_nan, XR.div]
  | ninf => cases a <;> simp only [times_fin, times_pinf h, times_ninf h, times_nan, XR.div]
  | nan => cases a <;> simp only [times_fin, times_pinf h, times_ninf h, times_nan, XR.div]

/-- a number that is not negative, an infinity or NaN -/
def NotNeg (a : Ex) : Prop := ∀ r, a = .fin r → 0 ≤ r

/-- sums of such numbers vanish only when every summand does -/
theorem sum_vanishes {l : List Ex} (h : ∀ a ∈ l, NotNeg a) {a : Ex} (ha : NotNeg a) (hi : a ≠ .ninf) (hl : ∀ b ∈ l, b ≠ .ninf)
    (h0 : l.foldl Arith.add a = .fin 0) : a = .fin 0 ∧ ∀ b ∈ l, b = .fin 0 := by
  induction l generalizing a with
  | nil => exact ⟨h0, by simp⟩
  | cons b l ih =>
    have hb := h b (by simp)
    have hbi := hl b (by simp)
    have hs : NotNeg (a +ₚ b) ∧ a +ₚ b ≠ .ninf := by
      cases a <;> cases b <;> simp_all only [ne_eq, not_true_eq_false, reduceCtorEq, not_false_eq_true] <;> first
        | (refine ⟨fun r e => ?_, ?_⟩ <;> first | cases e; done | (intro e; cases e; done) | skip)
      · rename_i x y
        rw [XR.add_exact] at e
        cases e
        exact add_nonneg (ha x rfl) (hb y rfl)
    obtain ⟨h1, h2⟩ := ih (fun c hc => h c (by simp [hc])) hs.1 hs.2 (fun c hc => hl c (by simp [hc])) h0
    cases a with
    | fin x =>
      cases b with
      | fin y =>
        rw [XR.add_exact] at h1
        have h1 : x + y = 0 := XR.fin_inj.1 h1
        have hx := ha x rfl
        have hy := hb y rfl
        have : x = 0 := by linarith
        have : y = 0 := by linarith
        subst x y
        refine ⟨rfl, fun c hc => ?_⟩
        rcases List.mem_cons.1 hc with rfl | hc
        · rfl
        · exact h2 c hc
      | _ => cases h1
    | pinf => cases b <;> cases h1
    | ninf => exact absurd rfl hi
    | nan => cases h1

/-- the norm of a record: it grows with the record, and vanishes only with it -/
theorem norm_scales {n : Norm} (hn : n = .l1 ∨ n = .l2) {r : ℝ} (h : 0 < r) : ∃ f : List Ex → Py Ex,
    (∀ (w : Nat) (M : List (List Ex)), M ≠ [] → Rect w M → denseNorms n (.ofMat M) = M.mapM f) ∧
    (∀ x, f (x.map (times r)) = f x >>= fun q => .ok (times r q)) ∧ ∀ x, f x = .ok (.fin 0) → ∀ a ∈ x, a = .fin 0 := by
  rcases hn with rfl | rfl
  · refine ⟨fun x => .ok (pySum (x.map Arith.abs)), fun w M _ _ => l1_run M, fun x => ?_, fun x hx a ha => ?_⟩
    · simp only [py_ok_bind]
      rw [List.map_map, ← times_sum h, List.map_map]
      congr 3
      funext a
      exact times_abs h a
    · have hx : (x.map Arith.abs).foldl Arith.add (ofInt 0 : Ex) = .fin 0 := Except.ok.inj hx
      have nn : ∀ b : Ex, NotNeg (Arith.abs b) ∧ Arith.abs b ≠ .ninf := by
        intro b
        cases b with
        | fin b => exact ⟨fun r e => by cases e; exact abs_nonneg b, fun e => by cases e⟩
        | _ => exact ⟨fun r e => (by cases e), fun e => (by cases e)⟩
      obtain ⟨-, h2⟩ := sum_vanishes (l := x.map Arith.abs) (by
          intro b hb
          obtain ⟨c, _, rfl⟩ := List.mem_map.1 hb
          exact (nn c).1) (a := ofInt 0) (fun r e => by rw [XR.ofInt_exact] at e; cases e; simp) (by rw [XR.ofInt_exact]; intro e; cases e)
          (by
            intro b hb
            obtain ⟨c, _, rfl⟩ := List.mem_map.1 hb
            exact (nn c).2) hx
      have := h2 _ (List.mem_map_of_mem ha)
      cases a with
      | fin a =>
        have : |a| = 0 := XR.fin_inj.1 this
        rw [abs_eq_zero.1 this]
      | _ => cases this
  · refine ⟨fun x => Arith.sqrt (pySum (x.zipWith Arith.mul x)), fun w M hM hw => l2_run hM hw, fun x => ?_, fun x hx a ha => ?_⟩
    · show Arith.sqrt _ = Arith.sqrt _ >>= _
      rw [← times_sqrt h, ← times_sum (mul_pos h h)]
      congr 2
      induction x with
      | nil => rfl
      | cons a x ih => simp only [List.map_cons, List.zipWith_cons_cons, ih, times_mul h]
    · have nn : ∀ b : Ex, NotNeg (b *ₚ b) ∧ b *ₚ b ≠ .ninf := by
        intro b
        cases b with
        | fin b =>
          rw [XR.mul_exact]
          exact ⟨fun r e => by cases e; exact mul_self_nonneg b, fun e => by cases e⟩
        | _ => exact ⟨fun r e => (by cases e), fun e => (by cases e)⟩
      have sq : ∀ x : List Ex, (x.zipWith Arith.mul x) = x.map fun b => b *ₚ b := by
        intro x
        induction x with
        | nil => rfl
        | cons a x ih => simp only [List.map_cons, List.zipWith_cons_cons, ih]
      simp only [sq] at hx
      have h0 : (x.map fun b => b *ₚ b).foldl Arith.add (ofInt 0 : Ex) = .fin 0 := by
        have hx : XR.sqrt (pySum (x.map fun b => b *ₚ b)) = .ok (.fin 0) := hx
        unfold pySum at hx
        revert hx
        generalize (x.map fun b => b *ₚ b).foldl Arith.add (ofInt 0 : Ex) = q
        intro hx
        cases q with
        | fin q =>
          simp only [XR.sqrt] at hx
          split at hx
          · cases hx
          · rw [XR.round_exact] at hx
            have := XR.fin_inj.1 (Except.ok.inj hx)
            rw [Real.sqrt_eq_zero (by linarith)] at this
            rw [this]
        | _ => cases hx
      obtain ⟨-, h2⟩ := sum_vanishes (l := x.map fun b => b *ₚ b) (by
          intro b hb
          obtain ⟨c, _, rfl⟩ := List.mem_map.1 hb
          exact (nn c).1) (a := ofInt 0) (fun r e => by rw [XR.ofInt_exact] at e; cases e; simp) (by rw [XR.ofInt_exact]; intro e; cases e)
          (by
            intro b hb
            obtain ⟨c, _, rfl⟩ := List.mem_map.1 hb
            exact (nn c).2) h0
      have := h2 _ (List.mem_map_of_mem (f := fun b => b *ₚ b) ha)
      cases a with
      | fin a =>
        simp only [XR.mul_exact] at this
        have : a * a = 0 := XR.fin_inj.1 this
        rw [mul_self_eq_zero.1 this]
      | _ => cases this

theorem recoded_times {r : ℝ} {w : Nat} {x y : List Ex} (h : Recoded (List.replicate w (Change.on ⟨r, 0⟩)) x y) : y = x.map (times r) := by
  generalize hφ : List.replicate w (Change.on ⟨r, 0⟩ : Code FP.exact) = φs at h
  induction h generalizing w with
  | nil => rfl
  | cons _ ih =>
    cases w with
    | zero => simp at hφ
    | succ w =>
      obtain ⟨rfl, h2⟩ := List.cons.inj hφ
      rw [ih h2, on_times]
      rfl

theorem normalizer_same {n : Norm} (hn : n = .l1 ∨ n = .l2) {r : ℝ} (hr : 0 < r) {w : Nat} {M N : List (List Ex)}
    (h : Cod (List.replicate w (Change.on ⟨r, 0⟩)) M N) : normalizerTransform n (.ofMat M) = normalizerTransform n (.ofMat N) := by
  obtain ⟨f, h1, h2, h3⟩ := norm_scales hn hr
  rw [normalizer_run hn h.left.1, normalizer_run hn h.right.1, h1 _ M h.left.1 h.left.2, h1 _ N h.right.1 h.right.2]
  have key : ∀ (M N : List (List Ex)), List.Forall₂ (Recoded (List.replicate w (Change.on ⟨r, 0⟩))) M N →
      Par (fun q q' : List Ex => ((M.zip (handleZeros q)).mapM fun p => p.1.mapM fun a => a /ₚ p.2) =
        ((N.zip (handleZeros q')).mapM fun p => p.1.mapM fun a => a /ₚ p.2)) (M.mapM f) (N.mapM f) := by
    intro M N h
    induction h with
    | nil => exact .done rfl
    | @cons x y M N hxy _ ih =>
      rw [mapM_cons', mapM_cons', recoded_times hxy, h2]
      cases hf : f x with
      | error e => exact .fail
      | ok q =>
        simp only [py_ok_bind]
        refine ih.bind fun qs qs' hqs => .done ?_
        show ((_ :: M.zip (handleZeros qs)).mapM _) = ((_ :: N.zip (handleZeros qs')).mapM _)
        rw [mapM_cons', mapM_cons', hqs]
        congr 1
        rw [mapM_map']
        refine mapM_congr fun a ha => ?_
        by_cases hq : q = .fin 0
        · subst hq
          have ha := h3 x hf a ha
          subst ha
          simp [times_fin, XR.div_exact]
        · have hz : ∀ q : Ex, q ≠ .fin 0 → (q ==ₚ (ofInt 0 : Ex)) = false := by
            intro q hq
            rw [XR.ofInt_exact]
            cases q with
            | fin q =>
              have : q ≠ 0 := fun e => hq (by rw [e])
              simp [this]
            | _ => rfl
          have hq' : times r q ≠ .fin 0 := by
            cases q with
            | fin q =>
              have : q ≠ 0 := fun e => hq (by rw [e])
              rw [times_fin]
              intro e
              rcases mul_eq_zero.1 (XR.fin_inj.1 e) with e | e
              · exact hr.ne' e
              · exact this e
            | pinf => rw [times_pinf hr]; intro e; cases e
            | ninf => rw [times_ninf hr]; intro e; cases e
            | nan => intro e; cases e
          simp only [hz q hq, hz _ hq', Bool.false_eq_true, if_false]
          exact (times_quot hr a hq).symm
  refine Par.eq ?_
  refine (key M N h.2).bind fun q q' e => ?_
  rw [e]
  exact .refl (fun _ => rfl) _

/-! ### All transformers -/

theorem toImpute_coded {φs : List (Code fp)} {m m' : XR fp}
    (h : Arith.isnan m = true ∧ Arith.isnan m' = true ∧ (∀ φ ∈ φs, ∀ x, Arith.isnan (φ x) = Arith.isnan x) ∨
      Arith.isnan m = false ∧ Arith.isnan m' = false ∧ ∀ φ ∈ φs, ∀ x, (φ x ==ₚ m') = (x ==ₚ m)) :
    ∀ φ ∈ φs, ∀ x, toImpute (φ x) m' = toImpute x m := by
  intro φ hφ x
  unfold toImpute
  rcases h with ⟨h1, h2, h3⟩ | ⟨h1, h2, h3⟩
  · simp only [h1, h2, if_true, h3 φ hφ]
  · simp only [h1, h2, Bool.false_eq_true, if_false, h3 φ hφ]

theorem minMax_run {n : Nat} {a b : List (XR fp)} {M : List (List (XR fp))} (ha : a.length = n) (hb : b.length = n) (hM : M ≠ []) (hw : Rect n M) :
    (⟨some a, some b⟩ : MinMaxScaler (XR fp)).transform (.ofMat M) =
      .ok (.ofMat (M.map fun x => (x.zipWith (fun u c => u *ₚ c) a).zipWith (fun u c => u +ₚ c) b)) := by
  have := C23_transform n (fun j => a.getD j (ofInt 0)) (fun j => b.getD j (ofInt 0)) M hM hw (ofInt 0)
  rw [← zip_range (ofInt 0) a ha, ← zip_range (ofInt 0) b hb] at this
  rw [this]
  congr 2
  unfold onColumns
  refine List.map_congr_left fun x hx => ?_
  have hl := hw x hx
  apply List.ext_getElem
  · simp [hl, ha, hb]
  · intro i h1 h2
    have : i < n := by simpa using h1
    simp [this, hl, ha, hb]

theorem minMax_rows {cs : List Change} (hu : ∀ c ∈ cs, 0 < c.factor) {s m : List ℝ} (hs : s.length = cs.length) (hm : m.length = cs.length) {x y : List Ex}
    (h : Recoded (cs.map Change.on) x y) : Recoded (asIs FP.exact cs.length)
      ((x.zipWith (fun u c => u *ₚ c) (floats FP.exact s)).zipWith (fun u c => u +ₚ c) (floats FP.exact m))
      ((y.zipWith (fun u c => u *ₚ c) (floats FP.exact (rates cs s))).zipWith (fun u c => u +ₚ c)
        (floats FP.exact (m.zipWith (· - ·) (cs.zipWith (fun c x => x / c.factor * c.offset) s)))) := by
  have h1 := recoded_zip (g := fun u c => u *ₚ c) (q := fun c x => x / c.factor) (ψ := fun c x => Change.on ⟨1, x / c.factor * c.offset⟩) hs
    (fun c hc r _ a => by
      rw [exact_rate (hu c hc).ne']
      have : ∀ (z : Ex) (d : ℝ), z +ₚ .fin d = Change.on ⟨1, d⟩ z := by
        intro z d
        have := exact_correct d d z
        rw [sub_self, exact_add_zero] at this
        exact this.symm
      rw [this]) h
  have e1 : (cs.zipWith (fun c x => (Change.on ⟨1, x / c.factor * c.offset⟩ : Code FP.exact)) s) =
      (cs.zipWith (fun c x => (⟨1, x / c.factor * c.offset⟩ : Change)) s).map Change.on := by
    rw [List.map_zipWith]
  rw [e1] at h1
  have h2 := recoded_zip (g := fun u c => u +ₚ c) (q := fun c x => x - c.offset) (ψ := fun _ _ => id) (m := m) (by simp [hs, hm])
    (fun c hc r _ a => by
      obtain ⟨d, hd⟩ : ∃ d, c = ⟨1, d⟩ := by
        obtain ⟨i, hi, e⟩ := List.getElem_of_mem hc
        rw [List.getElem_zipWith] at e
        exact ⟨_, e.symm⟩
      subst hd
      exact exact_correct d r a) h1
  rw [zipWith_const _ (by simp [hs, hm]), map_id_asIs, List.length_zipWith, hs, Nat.min_self] at h2
  have e2 : (cs.zipWith (fun c x => (⟨1, x / c.factor * c.offset⟩ : Change)) s).zipWith (fun c x => x - c.offset) m =
      m.zipWith (· - ·) (cs.zipWith (fun c x => x / c.factor * c.offset) s) := by
    clear h1 h2 h e1 hu
    induction cs generalizing s m with
    | nil => simp
    | cons c cs ih =>
      cases s with
      | nil => simp
      | cons a s =>
        cases m with
        | nil => simp
        | cons b m => simp [ih (s := s) (m := m) (by simpa using hs) (by simpa using hm)]
  rw [e2] at h2
  exact h2

theorem rows_same {w : Nat} {M : List (List (XR fp))} (h : Rect w M) : List.Forall₂ (Recoded (asIs fp w)) M M := by
  induction M with
  | nil => exact .nil
  | cons x M ih =>
    refine .cons ?_ (ih fun x hx => h x (by simp [hx]))
    rw [← h x (by simp)]
    exact recoded_same x

theorem step_accords {φs ψs : List (Code fp)} {s s' : Single (XR fp)} (h : RecodedStep φs s s' ψs) (lib : String → TextLib) (encode : Str → List Nat) :
    Accord (s.est lib encode) (s'.est lib encode) φs (.columns ψs) := by
  have go : ∀ {t u : Arr (XR fp) → Py (Arr (XR fp))}, (∀ M N, Cod φs M N →
      Par (fun A B => ∃ M' N', A = .ofMat M' ∧ B = .ofMat N' ∧ Cod ψs M' N') (t (.ofMat M)) (u (.ofMat N))) →
      Accord (transformer (Data.onArr t)) (transformer (Data.onArr u)) φs (.columns ψs) := by
    intro t u ht
    refine ⟨_, _, rfl, rfl, fun X Y hXY => ?_⟩
    cases hXY with
    | @mk M N h1 h2 =>
      refine (ht M N ⟨h1, h2⟩).bind fun A B hAB => ?_
      obtain ⟨M', N', rfl, rfl, h'⟩ := hAB
      exact .done (.mk h'.1 h'.2)
  cases h with
  | @standard cs m s hu hm hs h0 =>
    obtain ⟨hfp, hu⟩ := hu
    subst hfp
    refine go fun M N h => ?_
    have hl : (cs.map (Change.on (fp := FP.exact))).length = cs.length := by simp
    have h1 := h.map fun x y hxy => centred_rows hu hm hxy
    have h2 := h1.map fun x y hxy => divided_plain hu (fun _ => rfl) hs h0 hxy
    have r1 := rect_cast h1.left.2 (by simp : _ = cs.length)
    have r2 := rect_cast h1.right.2 (by simp : _ = cs.length)
    rw [standard_run _ h.left.1, standard_run _ h.right.1]
    simp only [if_true, notNone, py_ok_bind]
    rw [columnwise_sub (rect_cast h.left.2 (by rw [hl, hm])), columnwise_sub (rect_cast h.right.2 (by rw [hl, values_length cs hm])), py_ok_bind, py_ok_bind,
      columnwise_div h0 (rect_cast r1 hs.symm), columnwise_div (spreads_nonzero hu h0) (rect_cast r2 (spreads_length cs hs).symm)]
    exact .done ⟨_, _, rfl, rfl, h2⟩
  | @centred cs m sc sc' hu hm =>
    obtain ⟨hfp, hu⟩ := hu
    subst hfp
    refine go fun M N h => ?_
    have hl : (cs.map (Change.on (fp := FP.exact))).length = cs.length := by simp
    have h1 := h.map fun x y hxy => centred_rows hu hm hxy
    rw [standard_run _ h.left.1, standard_run _ h.right.1]
    simp only [if_true, notNone, py_ok_bind, Bool.false_eq_true, if_false]
    rw [columnwise_sub (rect_cast h.left.2 (by rw [hl, hm])), columnwise_sub (rect_cast h.right.2 (by rw [hl, values_length cs hm]))]
    exact .done ⟨_, _, rfl, rfl, h1⟩
  | @divided cs s m m' hu hs h0 =>
    obtain ⟨hfp, hu⟩ := hu
    subst hfp
    refine go fun M N h => ?_
    have hl : (cs.map (Change.on (fp := FP.exact))).length = cs.length := by simp
    have h1 := h.map fun x y hxy => divided_rows hu hs h0 hxy
    rw [standard_run _ h.left.1, standard_run _ h.right.1]
    simp only [if_true, notNone, py_ok_bind, Bool.false_eq_true, if_false]
    rw [columnwise_div h0 (rect_cast h.left.2 (by rw [hl, hs])), columnwise_div (spreads_nonzero hu h0) (rect_cast h.right.2 (by rw [hl, spreads_length cs hs]))]
    exact .done ⟨_, _, rfl, rfl, h1⟩
  | neither =>
    refine go fun M N h => ?_
    rw [standard_run _ h.left.1, standard_run _ h.right.1]
    simp only [py_ok_bind, Bool.false_eq_true, if_false]
    exact .done ⟨_, _, rfl, rfl, h⟩
  | @minMax cs s m hu hm hs =>
    obtain ⟨hfp, hu⟩ := hu
    subst hfp
    refine go fun M N h => ?_
    have hl : (cs.map (Change.on (fp := FP.exact))).length = cs.length := by simp
    rw [minMax_run (n := cs.length) (by simp [floats, hs]) (by simp [floats, hm]) h.left.1 (rect_cast h.left.2 hl),
      minMax_run (n := cs.length) (by simp [floats, rates, hs]) (by simp [floats, hs, hm]) h.right.1 (rect_cast h.right.2 hl)]
    exact .done ⟨_, _, rfl, rfl, h.map fun x y hxy => minMax_rows hu hs hm hxy⟩
  | @maxAbs cs s m m' hu ho hs h0 =>
    obtain ⟨hfp, hu⟩ := hu
    subst hfp
    refine go fun M N h => ?_
    have hl : (cs.map (Change.on (fp := FP.exact))).length = cs.length := by simp
    have e : ∀ (d : List Ex) (m : Option (List Ex)) (M : List (List Ex)), M ≠ [] →
        (⟨some d, m⟩ : MaxAbsScaler Ex).transform (.ofMat M) = columnwise d Arith.div (M.map Row.list) >>= fun rs => .ok (.list rs) := by
      intro d m M hM
      have hc : checkArray (.list (M.map Row.list)) .allow = .ok (.list (M.map Row.list)) := checkArray_ofMat hM _
      show MaxAbsScaler.transform _ (.list _) = _
      simp only [MaxAbsScaler.transform, hc, py_ok_bind, rows_list, notNone]
      rfl
    rw [e _ _ _ h.left.1, e _ _ _ h.right.1, columnwise_div h0 (rect_cast h.left.2 (by rw [hl, hs])),
      columnwise_div (spreads_nonzero hu h0) (rect_cast h.right.2 (by rw [hl, spreads_length cs hs]))]
    refine .done ⟨_, _, rfl, rfl, h.map fun x y hxy => ?_⟩
    have hcs : (cs.map Change.on : List (Code FP.exact)) = cs.map fun c => Change.on ⟨c.factor, 0⟩ :=
      List.map_congr_left fun c hc => by rw [← ho c hc]
    rw [hcs] at hxy
    exact divided_plain hu (fun _ => rfl) hs h0 hxy
  | @imputer _ s s' a1 a2 e1 n1 hk hs hm =>
    refine go fun M N h => ?_
    have n2 : s'.statistics ≠ [] := by
      intro e
      have h1 := hs.lengths
      rw [e] at h1
      exact n1 (List.length_eq_zero_iff.1 (h1.1.trans h1.2.symm))
    rw [imputer_run s a1 n1 (hk.imp_right fun g x hx => g x (by simp [hx])) h.left.1 (rect_cast h.left.2 hs.lengths.1.symm),
      imputer_run s' a2 n2 (by rw [e1]; exact hk.imp_right fun g x hx => g x (by simp [hx])) h.right.1 (rect_cast h.right.2 hs.lengths.2.symm)]
    exact .done ⟨_, _, rfl, rfl, h.map fun x y hxy => imputer_coded (toImpute_coded hm) hxy hs⟩
  | @normalizer n r w hfp hn hr =>
    subst hfp
    refine go fun M N h => ?_
    rw [← normalizer_same hn hr h]
    have hw := h.left
    rw [List.length_replicate] at hw
    cases hq : normalizerTransform n (.ofMat M) with
    | error e => exact .fail
    | ok A =>
      rw [normalizer_run hn h.left.1] at hq
      obtain ⟨q, hq1, hq⟩ := bind_ok_iff.1 hq
      obtain ⟨rs, hq2, hq⟩ := bind_ok_iff.1 hq
      cases hq
      have hlq : q.length = M.length := by
        obtain ⟨f, h1, -, -⟩ := norm_scales hn hr
        rw [h1 _ M hw.1 hw.2] at hq1
        exact mapM_length hq1
      have hl := mapM_length hq2
      rw [List.length_zip, show (handleZeros q).length = q.length by simp [handleZeros], hlq, Nat.min_self] at hl
      have hrect : Rect w rs := by
        intro x hx
        obtain ⟨p, hp, e⟩ := mapM_mem hq2 hx
        rw [mapM_length e]
        exact hw.2 _ (List.of_mem_zip hp).1
      refine .done ⟨rs, rs, rfl, rfl, fun e => hw.1 ?_, ?_⟩
      · rw [e] at hl
        exact List.length_eq_zero_iff.1 hl.symm
      · exact rows_same hrect

end PurePredict
