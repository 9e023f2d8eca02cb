import Verif.Lemmas.EnclosureObject
import Verif.Props.C101
/-
C107: error certificates for whole objects.  Intervals for the intermediate numbers of an evaluation, wide enough step by
step for the rounding errors of double precision, bound the answers of the converted object on every request within a box;
answers of the same model in exact arithmetic lie in the same intervals.
-/
namespace PurePredict
open Spec
variable {lib : String → TextLib} {encode : Str → List Nat}

/-- **C107** in any arithmetic whose roundings are as close as those of double precision: a fitted object with a certificate
is converted, and the converted object answers every request in the box within the bounds. -/
theorem C107_certified {fp : FP} (hs : fp.Sound) (hc : fp.Close) (trunc : XR fp → Py Int) {o : SkObj (Attrs (XR fp)) (PVal (XR fp)) (XR fp)}
    {B : List Span} {b : Bound fp} (h : Enclosed o B b) {f : Methods (XR fp)} (hb : Behaves lib encode o f) :
    ∃ c, convert (singles trunc initXgb) o = .ok c ∧ Encloses (c.methods lib encode) B b := by
  obtain ⟨c, hc', rfl⟩ := C89_converted_behaves trunc lib encode o f hb
  exact ⟨c, hc', behaves_encloses hs hc h hb⟩

/-- **C107** in double precision, for probabilities: every record in the box gets probabilities that are numbers (neither
infinite nor NaN) within the intervals. -/
theorem C107_double_probabilities (trunc : XR FP.binary64 → Py Int) {o : SkObj (Attrs (XR FP.binary64)) (PVal (XR FP.binary64)) (XR FP.binary64)}
    {B P : List Span} (h : Enclosed o B (.shares P)) {f : Methods (XR FP.binary64)} (hb : Behaves lib encode o f) :
    ∃ c q, convert (singles trunc initXgb) o = .ok c ∧ (c.methods lib encode).predictProba = some q ∧ ∀ M, Holding B M →
      ∃ N, q (.arr (.ofMat M)) = .ok N ∧ N.length = M.length ∧ ∀ x ∈ N, InBox P x := by
  obtain ⟨c, h1, q, h2, h3⟩ := C107_certified (lib := lib) (encode := encode) FP.binary64_sound FP.binary64_close trunc h hb
  exact ⟨c, q, h1, h2, h3⟩

/-- **C107** in double precision, for labels: every record in the box gets this label. -/
theorem C107_double_labels (trunc : XR FP.binary64 → Py Int) {o : SkObj (Attrs (XR FP.binary64)) (PVal (XR FP.binary64)) (XR FP.binary64)}
    {B : List Span} {l : PVal (XR FP.binary64)} (h : Enclosed o B (.label l)) {f : Methods (XR FP.binary64)} (hb : Behaves lib encode o f) :
    ∃ c p, convert (singles trunc initXgb) o = .ok c ∧ (c.methods lib encode).predict = some p ∧ ∀ M, Holding B M →
      p (.arr (.ofMat M)) = .ok (List.replicate M.length l) := by
  obtain ⟨c, h1, q, h2, h3⟩ := C107_certified (lib := lib) (encode := encode) FP.binary64_sound FP.binary64_close trunc h hb
  exact ⟨c, q, h1, h2, h3⟩

/-! ### Two computations under one certificate -/

/-- Two answers to one record: numbers that differ by no more than the lengths of the intervals. -/
def Spec.SideBySide {fp fp' : FP} (P : List Span) (r : List (XR fp)) (r' : List (XR fp')) : Prop :=
  Columns (fun (d : Span) (x : XR fp) (y : XR fp') => ∃ u v : ℝ, x = .fin u ∧ y = .fin v ∧ |u - v| ≤ d.hi - d.lo) P r r'

theorem sideBySide_of {fp fp' : FP} {P : List Span} {r : List (XR fp)} {r' : List (XR fp')} (h : InBox P r) (h' : InBox P r') : SideBySide P r r' := by
  induction h generalizing r' with
  | nil =>
    cases h'
    exact .nil
  | cons h _ ih =>
    cases h' with
    | cons h2 h3 =>
      obtain ⟨u, rfl, hu⟩ := h
      obtain ⟨v, rfl, hv⟩ := h2
      refine .cons ⟨u, v, rfl, rfl, abs_le.2 ⟨?_, ?_⟩⟩ (ih h3)
      · linarith [hu.1, hv.2]
      · linarith [hu.2, hv.1]

/-- **C107**: double precision against exact arithmetic.  Where a model has the same certificate in double precision and in
exact arithmetic, both answer, and probability by probability the two differ by no more than the length of the interval;
the requests may differ too, as long as their records are in the box. -/
theorem C107_against_exact (trunc : XR FP.binary64 → Py Int) (trunc' : Ex → Py Int)
    {o : SkObj (Attrs (XR FP.binary64)) (PVal (XR FP.binary64)) (XR FP.binary64)} {o' : SkObj (Attrs Ex) (PVal Ex) Ex} {B P : List Span}
    (h : Enclosed o B (.shares P)) (h' : Enclosed (fp := FP.exact) o' B (.shares P)) {f : Methods (XR FP.binary64)} {f' : Methods Ex}
    (hb : Behaves lib encode o f) (hb' : Behaves lib encode o' f') :
    ∃ c c' q q', convert (singles trunc initXgb) o = .ok c ∧ convert (singles trunc' initXgb) o' = .ok c' ∧
      (c.methods lib encode).predictProba = some q ∧ (c'.methods lib encode).predictProba = some q' ∧
      ∀ M M', Holding B M → Holding B M' → ∃ N N', q (.arr (.ofMat M)) = .ok N ∧ q' (.arr (.ofMat M')) = .ok N' ∧
        ∀ (i j : Nat) r r', N[i]? = some r → N'[j]? = some r' → SideBySide (fp := FP.binary64) (fp' := FP.exact) P r r' := by
  obtain ⟨c, h1, q, h2, h3⟩ := C107_certified (lib := lib) (encode := encode) FP.binary64_sound FP.binary64_close trunc h hb
  obtain ⟨c', h1', q', h2', h3'⟩ := C107_certified (lib := lib) (encode := encode) FP.exact_sound FP.exact_close trunc' h' hb'
  refine ⟨c, c', q, q', h1, h1', h2, h2', fun M M' hM hM' => ?_⟩
  obtain ⟨N, n1, -, n3⟩ := h3 M hM
  obtain ⟨N', n1', -, n3'⟩ := h3' M' hM'
  exact ⟨N, N', n1, n1', fun i j r r' hr hr' => sideBySide_of (n3 r (List.mem_of_getElem? hr)) (n3' r' (List.mem_of_getElem? hr'))⟩

/-- **C107**: small changes of a request.  Records in the same box get probabilities that differ by no more than the lengths
of the intervals. -/
theorem C107_small_changes (trunc : XR FP.binary64 → Py Int) {o : SkObj (Attrs (XR FP.binary64)) (PVal (XR FP.binary64)) (XR FP.binary64)}
    {B P : List Span} (h : Enclosed o B (.shares P)) {f : Methods (XR FP.binary64)} (hb : Behaves lib encode o f) :
    ∃ c q, convert (singles trunc initXgb) o = .ok c ∧ (c.methods lib encode).predictProba = some q ∧ ∀ M M', Holding B M → Holding B M' →
      ∃ N N', q (.arr (.ofMat M)) = .ok N ∧ q (.arr (.ofMat M')) = .ok N' ∧
        ∀ (i j : Nat) r r', N[i]? = some r → N'[j]? = some r' → SideBySide (fp := FP.binary64) (fp' := FP.binary64) P r r' := by
  obtain ⟨c, q, h1, h2, h3⟩ := C107_double_probabilities (lib := lib) (encode := encode) trunc h hb
  refine ⟨c, q, h1, h2, fun M M' hM hM' => ?_⟩
  obtain ⟨N, n1, -, n3⟩ := h3 M hM
  obtain ⟨N', n1', -, n3'⟩ := h3 M' hM'
  exact ⟨N, N', n1, n1', fun i j r r' hr hr' => sideBySide_of (n3 r (List.mem_of_getElem? hr)) (n3' r' (List.mem_of_getElem? hr'))⟩

/-! ### Certificates are checked at the ends of the intervals -/

theorem rounded_between {z1 z2 z : ℝ} {d : Span} (h1 : Rounded z1 d) (h2 : Rounded z2 d) (l : z1 ≤ z) (u : z ≤ z2) : Rounded z d := by
  obtain ⟨a1, b1, c1⟩ := h1
  obtain ⟨a2, b2, c2⟩ := h2
  have e : (0 : ℝ) ≤ 2 ^ (-53 : ℤ) := by positivity
  have e1 : (2 : ℝ) ^ (-53 : ℤ) ≤ 1 := by
    rw [← zpow_zero (2 : ℝ)]
    exact zpow_le_zpow_right₀ (by norm_num) (by norm_num)
  unfold Rounded ulps at *
  generalize (2 : ℝ) ^ (-1075 : ℤ) = η at *
  generalize (2 : ℝ) ^ (-53 : ℤ) = ε at *
  have t1 : |z| - |z1| ≤ z - z1 := by
    have := abs_sub_abs_le_abs_sub z z1
    rwa [abs_of_nonneg (sub_nonneg.2 l)] at this
  have t2 : |z| - |z2| ≤ z2 - z := by
    have := abs_sub_abs_le_abs_sub z z2
    rwa [abs_sub_comm, abs_of_nonneg (sub_nonneg.2 u)] at this
  refine ⟨abs_le.2 ⟨by linarith [(abs_le.1 a1).1], by linarith [(abs_le.1 a2).2]⟩, ?_, ?_⟩
  · have : ε * (|z| - |z1|) ≤ 1 * (z - z1) := (mul_le_mul_of_nonneg_left t1 e).trans (mul_le_mul_of_nonneg_right e1 (sub_nonneg.2 l))
    linarith [mul_sub ε |z| |z1|]
  · have : ε * (|z| - |z2|) ≤ 1 * (z2 - z) := (mul_le_mul_of_nonneg_left t2 e).trans (mul_le_mul_of_nonneg_right e1 (sub_nonneg.2 u))
    linarith [mul_sub ε |z| |z2|]

theorem rounded_mix {p q x : ℝ} {a d : Span} (hx : a.Has x) (h1 : Rounded (a.lo * p + q) d) (h2 : Rounded (a.hi * p + q) d) : Rounded (x * p + q) d := by
  rcases le_total 0 p with hp | hp
  · exact rounded_between h1 h2 (by nlinarith [hx.1]) (by nlinarith [hx.2])
  · exact rounded_between h2 h1 (by nlinarith [hx.2]) (by nlinarith [hx.1])

/-- **C107**: an addition is checked at the two ends. -/
theorem C107_add_ends {a b d : Span} (h1 : Rounded (a.lo + b.lo) d) (h2 : Rounded (a.hi + b.hi) d) : Added a b d :=
  fun _ _ hx hy => rounded_between h1 h2 (add_le_add hx.1 hy.1) (add_le_add hx.2 hy.2)

/-- **C107**: a subtraction is checked at the two ends. -/
theorem C107_sub_ends {a b d : Span} (h1 : Rounded (a.lo - b.hi) d) (h2 : Rounded (a.hi - b.lo) d) : Subtracted a b d :=
  fun _ _ hx hy => rounded_between h1 h2 (sub_le_sub hx.1 hy.2) (sub_le_sub hx.2 hy.1)

/-- **C107**: a product is checked at the four corners. -/
theorem C107_mul_corners {a b d : Span} (h1 : Rounded (a.lo * b.lo) d) (h2 : Rounded (a.lo * b.hi) d) (h3 : Rounded (a.hi * b.lo) d)
    (h4 : Rounded (a.hi * b.hi) d) : Multiplied a b d := by
  intro x y hx hy
  have k : ∀ u, Rounded (u * b.lo) d → Rounded (u * b.hi) d → Rounded (u * y) d := fun u k1 k2 => by
    have := rounded_mix (p := u) (q := 0) hy (by rwa [add_zero, mul_comm]) (by rwa [add_zero, mul_comm])
    rwa [add_zero, mul_comm] at this
  have := rounded_mix (p := y) (q := 0) hx (by rw [add_zero]; exact k _ h1 h2) (by rw [add_zero]; exact k _ h3 h4)
  rwa [add_zero] at this

/-- **C107**: a quotient by numbers of one sign is checked at the four corners. -/
theorem C107_div_corners {a b d : Span} (h0 : 0 < b.lo ∨ b.hi < 0) (h1 : Rounded (a.lo / b.lo) d) (h2 : Rounded (a.lo / b.hi) d)
    (h3 : Rounded (a.hi / b.lo) d) (h4 : Rounded (a.hi / b.hi) d) : Divided a b d := by
  intro x y hx hy
  have hy0 : y ≠ 0 := by
    rcases h0 with h | h
    · exact (lt_of_lt_of_le h hy.1).ne'
    · exact (lt_of_le_of_lt hy.2 h).ne
  refine ⟨hy0, ?_⟩
  have := C107_mul_corners (a := a) (b := ⟨b.hi⁻¹, b.lo⁻¹⟩) (d := d) (by simpa [div_eq_mul_inv] using h2) (by simpa [div_eq_mul_inv] using h1)
    (by simpa [div_eq_mul_inv] using h4) (by simpa [div_eq_mul_inv] using h3) x y⁻¹ hx (by
      rcases h0 with h | h
      · have p := lt_of_lt_of_le h hy.1
        exact ⟨inv_anti₀ p hy.2, inv_anti₀ h hy.1⟩
      · have p := lt_of_le_of_lt hy.2 h
        exact ⟨(inv_le_inv_of_neg h p).2 hy.2, (inv_le_inv_of_neg p (lt_of_le_of_lt hy.1 p)).2 hy.1⟩)
  rwa [← div_eq_mul_inv] at this

theorem lib_between {z1 z2 z : ℝ} {d : Span} (h1 : d.lo ≤ z1 - ulpsLib z1) (h2 : z2 + ulpsLib z2 ≤ d.hi) (l : z1 ≤ z) (u : z ≤ z2) :
    d.lo ≤ z - ulpsLib z ∧ z + ulpsLib z ≤ d.hi := by
  have e : (0 : ℝ) ≤ 2 ^ (-52 : ℤ) := by positivity
  have e1 : (2 : ℝ) ^ (-52 : ℤ) ≤ 1 := by
    rw [← zpow_zero (2 : ℝ)]
    exact zpow_le_zpow_right₀ (by norm_num) (by norm_num)
  unfold ulpsLib at *
  generalize (2 : ℝ) ^ (-52 : ℤ) = ε at *
  have t1 : |z| - |z1| ≤ z - z1 := by
    have := abs_sub_abs_le_abs_sub z z1
    rwa [abs_of_nonneg (sub_nonneg.2 l)] at this
  have t2 : |z| - |z2| ≤ z2 - z := by
    have := abs_sub_abs_le_abs_sub z z2
    rwa [abs_sub_comm, abs_of_nonneg (sub_nonneg.2 u)] at this
  constructor
  · have : ε * (|z| - |z1|) ≤ 1 * (z - z1) := (mul_le_mul_of_nonneg_left t1 e).trans (mul_le_mul_of_nonneg_right e1 (sub_nonneg.2 l))
    linarith [mul_sub ε |z| |z1|]
  · have : ε * (|z| - |z2|) ≤ 1 * (z2 - z) := (mul_le_mul_of_nonneg_left t2 e).trans (mul_le_mul_of_nonneg_right e1 (sub_nonneg.2 u))
    linarith [mul_sub ε |z| |z2|]

/-- **C107**: an exponential is checked at the two ends. -/
theorem C107_exp_ends {a d : Span} (h0 : a.hi ≤ 600) (h1 : d.lo ≤ Real.exp a.lo - ulpsLib (Real.exp a.lo))
    (h2 : Real.exp a.hi + ulpsLib (Real.exp a.hi) ≤ d.hi) : Exponential a d :=
  fun _ hx => ⟨hx.2.trans h0, lib_between h1 h2 (Real.exp_le_exp.2 hx.1) (Real.exp_le_exp.2 hx.2)⟩

/-- **C107**: a logarithm is checked at the two ends. -/
theorem C107_log_ends {a d : Span} (h0 : 0 < a.lo) (h1 : d.lo ≤ Real.log a.lo - ulpsLib (Real.log a.lo))
    (h2 : Real.log a.hi + ulpsLib (Real.log a.hi) ≤ d.hi) : Logarithm a d :=
  fun _ hx => ⟨lt_of_lt_of_le h0 hx.1, lib_between h1 h2 (Real.log_le_log h0 hx.1) (Real.log_le_log (lt_of_lt_of_le h0 hx.1) hx.2)⟩

/-! ### Trees as scikit-learn grows them -/

/-- **C107**: a decision tree grown by scikit-learn in which every record of the box reaches the same leaf: the label of the
largest count in that leaf, and its class shares. -/
theorem C107_grown_classifiers {fp : FP} {c : String} {v : Option (List Char)} {e : Attrs (XR fp)} {s : SkTree (XR fp)} {cs : List (PVal (XR fp))}
    {B : List Span} {w : List (XR fp)} {ns : List Span} (hc : c = "DecisionTreeClassifier" ∨ c = "ExtraTreeClassifier") (he : HoldsTree e s)
    (hl : HasLabels e cs) (hv : ∀ a ∈ s.values, a ≠ []) (hs : Lands B s.first w) (hn : InBox ns w) :
    (∀ k l, Leads ns k → cs[k]? = some l → Enclosed (.leaf c v e) B (.label l)) ∧
    ∀ t P, Summed ns t → List.Forall₂ (fun n p => Divided n t p) ns P → Enclosed (.leaf c v e) B (.shares P) := by
  obtain ⟨t, h1, h2, h3⟩ := Tree.ofSklearn_encodes s hv (some cs) [.int 0, .int 1]
  have h3 : t.classes = cs := h3
  exact ⟨fun k l hk hkl => .single (.treeClassifier (cs := some _) hc he hl h1) (.treeLabel h2 hs hn hk (by rw [h3]; exact hkl)),
    fun u P hu hP => .single (.treeClassifier (cs := some _) hc he hl h1) (.treeShares h2 hs hn hu hP)⟩

/-- **C107**: likewise a regression tree. -/
theorem C107_grown_regressors {fp : FP} {c : String} {v : Option (List Char)} {e : Attrs (XR fp)} {s : SkTree (XR fp)}
    {cs : Option (List (PVal (XR fp)))} {B : List Span} {w : List (XR fp)} {x : XR fp} {d : Span}
    (hc : c = "DecisionTreeRegressor" ∨ c = "ExtraTreeRegressor") (he : HoldsTree e s) (hl : HasLabelsOrNot e cs) (hv : ∀ a ∈ s.values, a ≠ [])
    (hs : Lands B s.first w) (hx : w[0]? = some x) (hd : d.Holds x) : Enclosed (.leaf c v e) B (.value d) := by
  obtain ⟨t, h1, h2, -⟩ := Tree.ofSklearn_encodes s hv cs [.int 0, .int 1]
  exact .single (.treeRegressor hc he hl h1) (.treeValue ⟨_, _, _, h2, hs, hx, hd⟩)

/-! ### Non-vacuity -/

/-- a wide enough interval around a number of moderate size -/
theorem rounded_of {z : ℝ} {d : Span} (h : |z| ≤ 1000000) (h1 : d.lo ≤ z - 1 / 1000000000) (h2 : z + 1 / 1000000000 ≤ d.hi) : Rounded z d := by
  have e : ulps z ≤ 1 / 1000000000 := by
    unfold ulps
    have t : (2 : ℝ) ^ (-1075 : ℤ) ≤ 2 ^ (-53 : ℤ) := zpow_le_zpow_right₀ (by norm_num) (by norm_num)
    have : (2 : ℝ) ^ (-53 : ℤ) * |z| ≤ 2 ^ (-53 : ℤ) * 1000000 := by gcongr
    have : (2 : ℝ) ^ (-53 : ℤ) * 1000001 ≤ 1 / 1000000000 := by norm_num
    generalize (2 : ℝ) ^ (-1075 : ℤ) = η at *
    generalize (2 : ℝ) ^ (-53 : ℤ) = ε at *
    linarith
  have : (1000000 : ℝ) ≤ 2 ^ 1000 := by
    calc (1000000 : ℝ) ≤ 2 ^ 20 := by norm_num
      _ ≤ 2 ^ 1000 := pow_le_pow_right₀ (by norm_num) (by norm_num)
  exact ⟨h.trans this, by linarith, by linarith⟩

theorem ulpsLib_small {z : ℝ} (h : |z| ≤ 1000000) : ulpsLib z ≤ 1 / 1000000000 := by
  unfold ulpsLib
  have t : (2 : ℝ) ^ (-1074 : ℤ) ≤ 2 ^ (-52 : ℤ) := zpow_le_zpow_right₀ (by norm_num) (by norm_num)
  have : (2 : ℝ) ^ (-52 : ℤ) * |z| ≤ 2 ^ (-52 : ℤ) * 1000000 := by gcongr
  have : (2 : ℝ) ^ (-52 : ℤ) * 1000001 ≤ 1 / 1000000000 := by norm_num
  generalize (2 : ℝ) ^ (-1074 : ℤ) = η at *
  generalize (2 : ℝ) ^ (-52 : ℤ) = ε at *
  linarith

/-- The logistic function between 0.9 and 1.1. -/
theorem logistic_demo : Logistic ⟨9 / 10, 11 / 10⟩ ⟨69 / 100, 77 / 100⟩ := by
  refine ⟨⟨32 / 100, 42 / 100⟩, ⟨131 / 100, 143 / 100⟩, ?_, ?_, ?_⟩
  · have e0 : Real.exp (-1) * Real.exp 1 = 1 := by rw [← Real.exp_add]; norm_num
    have p := Real.exp_pos (-1)
    have l1 := Real.exp_one_gt_d9
    have u1 := Real.exp_one_lt_d9
    have a1 : 0.3678 ≤ Real.exp (-1) := by nlinarith
    have a2 : Real.exp (-1) ≤ 0.3679 := by nlinarith
    have b : (9 / 10 : ℝ) ≤ Real.exp (-(1 / 10)) := by have := Real.add_one_le_exp (-(1 / 10) : ℝ); linarith
    have b0 : Real.exp (1 / 10) * Real.exp (-(1 / 10)) = 1 := by rw [← Real.exp_add]; norm_num
    have b1 : Real.exp (1 / 10) ≤ 10 / 9 := by nlinarith [Real.exp_pos (1 / 10 : ℝ)]
    have c1 : 0.33 ≤ Real.exp (-(11 / 10)) := by
      rw [show (-(11 / 10) : ℝ) = -1 + -(1 / 10) by norm_num, Real.exp_add]
      nlinarith
    have c2 : Real.exp (-(9 / 10)) ≤ 0.41 := by
      rw [show (-(9 / 10) : ℝ) = -1 + 1 / 10 by norm_num, Real.exp_add]
      nlinarith [Real.exp_pos (1 / 10 : ℝ)]
    have c3 : Real.exp (-(11 / 10)) ≤ Real.exp (-(9 / 10)) := Real.exp_le_exp.2 (by norm_num)
    have s1 := ulpsLib_small (z := Real.exp (-(11 / 10))) (by rw [abs_of_pos (Real.exp_pos _)]; linarith)
    have s2 := ulpsLib_small (z := Real.exp (-(9 / 10))) (by rw [abs_of_pos (Real.exp_pos _)]; linarith)
    refine C107_exp_ends (a := Span.negated ⟨9 / 10, 11 / 10⟩) (by norm_num [Span.negated]) ?_ ?_
    · show (32 / 100 : ℝ) ≤ Real.exp (-(11 / 10)) - ulpsLib (Real.exp (-(11 / 10)))
      linarith
    · show Real.exp (-(9 / 10)) + ulpsLib (Real.exp (-(9 / 10))) ≤ (42 / 100 : ℝ)
      linarith
  · refine C107_add_ends (rounded_of ?_ ?_ ?_) (rounded_of ?_ ?_ ?_) <;> norm_num [one]
  · refine C107_div_corners (.inl (by norm_num)) (rounded_of ?_ ?_ ?_) (rounded_of ?_ ?_ ?_) (rounded_of ?_ ?_ ?_) (rounded_of ?_ ?_ ?_) <;> norm_num [one, abs_of_pos]

/-- The scaled two-class model on records between (3, 1) and (3.1, 1.1). -/
noncomputable def demoBox : List Span := [⟨3, 31 / 10⟩, ⟨1, 11 / 10⟩]

theorem floatScaling_enclosed : Enclosed (.leaf "StandardScaler" (some "0.22".toList) floatScaling) demoBox (.rows [⟨99 / 100, 106 / 100⟩, ⟨-1 / 100, 6 / 100⟩]) := by
  refine .single floatScaling_learned (.standard (C := [⟨199 / 100, 211 / 100⟩, ⟨-1 / 100, 11 / 100⟩]) (fun _ => ⟨_, rfl, [one, one], ?_, ?_⟩) (fun h => absurd h (by simp))
    (fun _ => ⟨_, rfl, [⟨2, 2⟩, ⟨2, 2⟩], ?_, ?_⟩) (fun h => absurd h (by simp)))
  · exact .cons ⟨1, rfl, by norm_num [Span.Has, one]⟩ (.cons ⟨1, rfl, by norm_num [Span.Has, one]⟩ .nil)
  · refine .cons (C107_sub_ends (rounded_of ?_ ?_ ?_) (rounded_of ?_ ?_ ?_)) (.cons (C107_sub_ends (rounded_of ?_ ?_ ?_) (rounded_of ?_ ?_ ?_)) .nil) <;>
      norm_num [one, abs_of_pos]
  · exact .cons ⟨2, rfl, by norm_num [Span.Has]⟩ (.cons ⟨2, rfl, by norm_num [Span.Has]⟩ .nil)
  · refine .cons (C107_div_corners (.inl (by norm_num)) (rounded_of ?_ ?_ ?_) (rounded_of ?_ ?_ ?_) (rounded_of ?_ ?_ ?_) (rounded_of ?_ ?_ ?_))
      (.cons (C107_div_corners (.inl (by norm_num)) (rounded_of ?_ ?_ ?_) (rounded_of ?_ ?_ ?_) (rounded_of ?_ ?_ ?_) (rounded_of ?_ ?_ ?_)) .nil) <;>
      norm_num [abs_of_pos, abs_of_neg]

theorem floatLogistic_scores : ScoresIn (fp := FP.binary64) (Linear.ofFitted [[.fin 1, .fin (-1)]] [.str "no", .str "yes"] (some (.vector [.fin 0])) (some "auto") (some "lbfgs") none)
    [⟨99 / 100, 106 / 100⟩, ⟨-1 / 100, 6 / 100⟩] [⟨9 / 10, 11 / 10⟩] := by
  refine ⟨by simp [Linear.ofFitted], [.fin 0], rfl, .cons ⟨[⟨985 / 1000, 1065 / 1000⟩, ⟨-65 / 1000, 15 / 1000⟩], ⟨915 / 1000, 1085 / 1000⟩, nought, ⟨[⟨1, 1⟩, ⟨-1, -1⟩], ?_, ?_⟩, ?_, ⟨0, rfl, ?_⟩, ?_⟩ .nil⟩
  · exact .cons ⟨1, rfl, by norm_num [Span.Has]⟩ (.cons ⟨-1, rfl, by norm_num [Span.Has]⟩ .nil)
  · refine .cons (C107_mul_corners (rounded_of ?_ ?_ ?_) (rounded_of ?_ ?_ ?_) (rounded_of ?_ ?_ ?_) (rounded_of ?_ ?_ ?_))
      (.cons (C107_mul_corners (rounded_of ?_ ?_ ?_) (rounded_of ?_ ?_ ?_) (rounded_of ?_ ?_ ?_) (rounded_of ?_ ?_ ?_)) .nil) <;>
      norm_num [abs_of_pos, abs_of_neg]
  · refine .cons (d := ⟨984 / 1000, 1066 / 1000⟩) (C107_add_ends (rounded_of ?_ ?_ ?_) (rounded_of ?_ ?_ ?_))
      (.cons (C107_add_ends (rounded_of ?_ ?_ ?_) (rounded_of ?_ ?_ ?_)) .nil) <;> norm_num [nought, abs_of_pos]
  · norm_num [Span.Has, nought]
  · refine C107_add_ends (rounded_of ?_ ?_ ?_) (rounded_of ?_ ?_ ?_) <;> norm_num [nought, abs_of_pos]

/-- Probabilities of a scaled two-class model: the second lies between 0.69 and 0.77. -/
theorem floatPipe_enclosed : Enclosed floatPipe demoBox (.shares [⟨22 / 100, 32 / 100⟩, ⟨69 / 100, 77 / 100⟩]) := by
  refine .firstStep floatScaling_enclosed (.lastStep (.single floatLogistic_learned (.logistic floatLogistic_scores (.inl ⟨rfl, rfl⟩) logistic_demo ?_)))
  refine C107_sub_ends (rounded_of ?_ ?_ ?_) (rounded_of ?_ ?_ ?_) <;> norm_num [one, abs_of_pos]

/-- The label of every record in the box is "yes". -/
theorem floatPipe_yes : Enclosed floatPipe demoBox (.label (.str "yes")) :=
  .firstStep floatScaling_enclosed (.lastStep (.single floatLogistic_learned (.positive floatLogistic_scores rfl (by norm_num))))

theorem floatPipe_behaves : ∃ f, Behaves lib encode floatPipe f :=
  ⟨_, .pipeline (steps := [(_, _), (_, _)]) (es := [_, _]) version_022 (.cons (.single version_022 floatScaling_learned)
      (.cons (.single version_022 floatLogistic_learned) .nil))⟩

/-- The record (3, 1): label and probabilities in double precision. -/
example (trunc : XR FP.binary64 → Py Int) : ∃ c p q, convert (singles trunc initXgb) floatPipe = .ok c ∧ (c.methods lib encode).predict = some p ∧
    (c.methods lib encode).predictProba = some q ∧ p (.arr (.ofMat [[.fin 3, .fin 1]])) = .ok [.str "yes"] ∧
    ∃ r, q (.arr (.ofMat [[.fin 3, .fin 1]])) = .ok [r] ∧ InBox [⟨22 / 100, 32 / 100⟩, ⟨69 / 100, 77 / 100⟩] r := by
  obtain ⟨f, hf⟩ := floatPipe_behaves (lib := lib) (encode := encode)
  obtain ⟨c, p, h1, h2, h3⟩ := C107_double_labels (lib := lib) (encode := encode) trunc floatPipe_yes hf
  obtain ⟨c', q, h1', h2', h3'⟩ := C107_double_probabilities (lib := lib) (encode := encode) trunc floatPipe_enclosed hf
  rw [h1] at h1'
  cases h1'
  have hM : Holding (fp := FP.binary64) demoBox [[.fin 3, .fin 1]] := ⟨by simp, fun x hx => by
    rw [List.mem_singleton.1 hx]
    exact .cons ⟨3, rfl, by norm_num [Span.Has]⟩ (.cons ⟨1, rfl, by norm_num [Span.Has]⟩ .nil)⟩
  obtain ⟨N, n1, n2, n3⟩ := h3' _ hM
  obtain ⟨r, rfl⟩ := List.length_eq_one_iff.1 n2
  exact ⟨c, p, q, h1, h2, h2', h3 _ hM, r, n1, n3 r (by simp)⟩

/-- The same model twice under bagging on all columns, and its label. -/
example : Enclosed (.ensemble .bagging (some "0.22".toList) (some [[0, 1], [0, 1]]) [.str "no", .str "yes"] [floatPipe, floatPipe]) demoBox (.label (.str "yes")) := by
  refine .ensembleLabel (P := [⟨21 / 100, 33 / 100⟩, ⟨68 / 100, 78 / 100⟩]) (k := 1) ?_ ⟨_, rfl, fun j t ht hj => ?_, fun j t ht hj => ?_⟩ rfl
  · refine .subspaces (ms := [(floatPipe, [0, 1], [⟨22 / 100, 32 / 100⟩, ⟨69 / 100, 77 / 100⟩]), (floatPipe, [0, 1], [⟨22 / 100, 32 / 100⟩, ⟨69 / 100, 77 / 100⟩])])
      (fun m hm i hi => ?_) (fun m hm => ?_) ⟨_, [_], [⟨435 / 1000, 645 / 1000⟩, ⟨1375 / 1000, 1545 / 1000⟩], ⟨199 / 100, 201 / 100⟩, rfl, .cons ?_ .nil, rounded_of ?_ ?_ ?_, ?_⟩
    · simp only [List.mem_cons, List.not_mem_nil, or_false, or_self] at hm
      subst hm
      simp only [List.mem_cons, List.not_mem_nil, or_false] at hi
      rcases hi with rfl | rfl <;> simp [demoBox]
    · simp only [List.mem_cons, List.not_mem_nil, or_false, or_self] at hm
      subst hm
      exact floatPipe_enclosed
    · refine .cons (C107_add_ends (rounded_of ?_ ?_ ?_) (rounded_of ?_ ?_ ?_)) (.cons (C107_add_ends (rounded_of ?_ ?_ ?_) (rounded_of ?_ ?_ ?_)) .nil) <;> norm_num [abs_of_pos]
    · norm_num
    · norm_num
    · norm_num
    · refine .cons (C107_div_corners (.inl (by norm_num)) (rounded_of ?_ ?_ ?_) (rounded_of ?_ ?_ ?_) (rounded_of ?_ ?_ ?_) (rounded_of ?_ ?_ ?_))
        (.cons (C107_div_corners (.inl (by norm_num)) (rounded_of ?_ ?_ ?_) (rounded_of ?_ ?_ ?_) (rounded_of ?_ ?_ ?_) (rounded_of ?_ ?_ ?_)) .nil) <;> norm_num [abs_of_pos]
  · obtain rfl : j = 0 := by omega
    cases ht
    norm_num
  · have := (List.getElem?_eq_some_iff.1 ht).1
    simp at this
    omega

/-- A tree that splits at 1, on records between 2 and 3: they all reach the right leaf, with counts 1 and 3. -/
theorem riseTree_enclosed {fp : FP} : Enclosed (.leaf "DecisionTreeClassifier" (some "0.22".toList)
      (riseTree (riseStump (fp := fp) [.fin 3, .fin 1] [.fin 1, .fin 3]) [("classes_", .ndarray (.list [.int 0, .int 1]))])) [⟨2, 3⟩] (.label (.int 1)) ∧
    Enclosed (.leaf "DecisionTreeClassifier" (some "0.22".toList)
      (riseTree (riseStump (fp := fp) [.fin 3, .fin 1] [.fin 1, .fin 3]) [("classes_", .ndarray (.list [.int 0, .int 1]))])) [⟨2, 3⟩]
      (.shares [⟨24 / 100, 26 / 100⟩, ⟨74 / 100, 76 / 100⟩]) := by
  obtain ⟨h1, h2⟩ := C107_grown_classifiers (v := some "0.22".toList) (cs := [.int 0, .int 1]) (B := [⟨2, 3⟩]) (w := [.fin 1, .fin 3]) (ns := [⟨1, 1⟩, ⟨3, 3⟩]) (.inl rfl)
    (riseTree_holds (riseStump (fp := fp) [.fin 3, .fin 1] [.fin 1, .fin 3]) [("classes_", .ndarray (.list [.int 0, .int 1]))])
    ⟨rfl, fun c hc => by
      simp only [List.mem_cons, List.not_mem_nil, or_false] at hc
      rcases hc with rfl | rfl <;> exact .int _⟩ (by simp [riseStump, SkTree.values])
    (.right rfl rfl (by norm_num) .leaf) (.cons ⟨1, rfl, by norm_num [Span.Has]⟩ (.cons ⟨3, rfl, by norm_num [Span.Has]⟩ .nil))
  refine ⟨h1 1 (.int 1) ⟨_, rfl, fun j t ht hj => ?_, fun j t ht hj => ?_⟩ rfl, h2 ⟨399 / 100, 401 / 100⟩ _ ?_ ?_⟩
  · obtain rfl : j = 0 := by omega
    cases ht
    norm_num
  · have := (List.getElem?_eq_some_iff.1 ht).1
    simp at this
    omega
  · refine .cons (d := ⟨999 / 1000, 1001 / 1000⟩) (C107_add_ends (rounded_of ?_ ?_ ?_) (rounded_of ?_ ?_ ?_))
      (.cons (C107_add_ends (rounded_of ?_ ?_ ?_) (rounded_of ?_ ?_ ?_)) .nil) <;> norm_num [nought, abs_of_pos]
  · refine .cons (C107_div_corners (.inl (by norm_num)) (rounded_of ?_ ?_ ?_) (rounded_of ?_ ?_ ?_) (rounded_of ?_ ?_ ?_) (rounded_of ?_ ?_ ?_))
      (.cons (C107_div_corners (.inl (by norm_num)) (rounded_of ?_ ?_ ?_) (rounded_of ?_ ?_ ?_) (rounded_of ?_ ?_ ?_) (rounded_of ?_ ?_ ?_)) .nil) <;>
      norm_num [abs_of_pos]

theorem riseTree_behaves {fp : FP} : ∃ f, Behaves lib encode (.leaf "DecisionTreeClassifier" (some "0.22".toList)
    (riseTree (riseStump (fp := fp) [.fin 3, .fin 1] [.fin 1, .fin 3]) [("classes_", .ndarray (.list [.int 0, .int 1]))])) f := by
  obtain ⟨t, h1, -, -⟩ := Tree.ofSklearn_encodes (riseStump (fp := fp) [.fin 3, .fin 1] [.fin 1, .fin 3]) (by simp [riseStump, SkTree.values]) (some [PVal.int (F := XR fp) 0, .int 1]) [.int 0, .int 1]
  refine ⟨_, .single version_022 (.treeClassifier (cs := some _) (.inl rfl) (riseTree_holds _ _) ⟨rfl, fun c hc => ?_⟩ h1)⟩
  simp only [List.mem_cons, List.not_mem_nil, or_false] at hc
  rcases hc with rfl | rfl <;> exact .int _

/-- The shares of this tree in double precision and in exact arithmetic. -/
example (trunc : XR FP.binary64 → Py Int) (trunc' : Ex → Py Int) (o : ∀ fp : FP, SkObj (Attrs (XR fp)) (PVal (XR fp)) (XR fp))
    (ho : ∀ fp, o fp = .leaf "DecisionTreeClassifier" (some "0.22".toList)
      (riseTree (riseStump [.fin 3, .fin 1] [.fin 1, .fin 3]) [("classes_", .ndarray (.list [.int 0, .int 1]))])) :
    ∃ c c' q q', convert (singles trunc initXgb) (o FP.binary64) = .ok c ∧ convert (F := Ex) (singles trunc' initXgb) (o FP.exact) = .ok c' ∧
      (c.methods lib encode).predictProba = some q ∧ (c'.methods lib encode).predictProba = some q' ∧
      ∃ N N', q (.arr (.ofMat [[.fin 2]])) = .ok N ∧ q' (.arr (.ofMat [[.fin 2]])) = .ok N' ∧
        ∀ (i j : Nat) r r', N[i]? = some r → N'[j]? = some r' →
          SideBySide (fp := FP.binary64) (fp' := FP.exact) [⟨24 / 100, 26 / 100⟩, ⟨74 / 100, 76 / 100⟩] r r' := by
  obtain ⟨f, hf⟩ := riseTree_behaves (lib := lib) (encode := encode) (fp := FP.binary64)
  obtain ⟨f', hf'⟩ := riseTree_behaves (lib := lib) (encode := encode) (fp := FP.exact)
  obtain ⟨c, c', q, q', h1, h2, h3, h4, h5⟩ := C107_against_exact (lib := lib) (encode := encode) trunc trunc'
    (riseTree_enclosed (fp := FP.binary64)).2 (riseTree_enclosed (fp := FP.exact)).2 hf hf'
  rw [ho, ho]
  have hM : ∀ {fp : FP}, Holding (fp := fp) [⟨2, 3⟩] [[.fin 2]] := ⟨by simp, fun x hx => by
    rw [List.mem_singleton.1 hx]
    exact .cons ⟨2, rfl, by norm_num [Span.Has]⟩ .nil⟩
  exact ⟨c, c', q, q', h1, h2, h3, h4, h5 _ _ hM hM⟩

/-- The logistic function between 0.1 and 0.35. -/
theorem logistic_demo' : Logistic ⟨1 / 10, 35 / 100⟩ ⟨51 / 100, 62 / 100⟩ := by
  refine ⟨⟨64 / 100, 92 / 100⟩, ⟨163 / 100, 193 / 100⟩, ?_, ?_, ?_⟩
  · have b : (65 / 100 : ℝ) ≤ Real.exp (-(35 / 100)) := by have := Real.add_one_le_exp (-(35 / 100) : ℝ); linarith
    have b0 : Real.exp (1 / 10) * Real.exp (-(1 / 10)) = 1 := by rw [← Real.exp_add]; norm_num
    have b1 : (11 / 10 : ℝ) ≤ Real.exp (1 / 10) := by have := Real.add_one_le_exp (1 / 10 : ℝ); linarith
    have c2 : Real.exp (-(1 / 10)) ≤ 0.91 := by nlinarith [Real.exp_pos (-(1 / 10) : ℝ)]
    have c3 : Real.exp (-(35 / 100)) ≤ Real.exp (-(1 / 10)) := Real.exp_le_exp.2 (by norm_num)
    have s1 := ulpsLib_small (z := Real.exp (-(35 / 100))) (by rw [abs_of_pos (Real.exp_pos _)]; linarith)
    have s2 := ulpsLib_small (z := Real.exp (-(1 / 10))) (by rw [abs_of_pos (Real.exp_pos _)]; linarith)
    refine C107_exp_ends (a := Span.negated ⟨1 / 10, 35 / 100⟩) (by norm_num [Span.negated]) ?_ ?_
    · show (64 / 100 : ℝ) ≤ Real.exp (-(35 / 100)) - ulpsLib (Real.exp (-(35 / 100)))
      linarith
    · show Real.exp (-(1 / 10)) + ulpsLib (Real.exp (-(1 / 10))) ≤ (92 / 100 : ℝ)
      linarith
  · refine C107_add_ends (rounded_of ?_ ?_ ?_) (rounded_of ?_ ?_ ?_) <;> norm_num [one]
  · refine C107_div_corners (.inl (by norm_num)) (rounded_of ?_ ?_ ?_) (rounded_of ?_ ?_ ?_) (rounded_of ?_ ?_ ?_) (rounded_of ?_ ?_ ?_) <;> norm_num [one, abs_of_pos]

/-- Gradient boosting: class frequencies 1/2 and 1/2, one stump of value 2 on the records of the box, learning rate 1/8. -/
example : Enclosed (.boosting (some "0.22".toList) [.int 0, .int 1]
    [[.leaf "DecisionTreeRegressor" (some "0.22".toList) (riseTree (riseStump (fp := FP.binary64) [.fin (-1)] [.fin 2]) [])]]
    (.leaf "DummyClassifier" (some "0.22".toList) floatInit) "deviance" [.float (.fin (1 / 8)), .int ([(⟨2, 3⟩ : Span)].length : Nat)])
    [⟨2, 3⟩] (.label (.int 1)) := by
  refine .boostingLabel (P := [⟨37 / 100, 50 / 100⟩, ⟨51 / 100, 62 / 100⟩]) (k := 1) ?_ ⟨_, rfl, fun j t ht hj => ?_, fun j t ht hj => ?_⟩ rfl
  · refine .boosting (stages := [[(_, ⟨2, 2⟩)]]) (lr := ⟨1 / 8, 1 / 8⟩) (I := [⟨1 / 2, 1 / 2⟩, ⟨1 / 2, 1 / 2⟩]) (R := [⟨1 / 10, 35 / 100⟩]) (l := .binomial) rfl (by simp)
      ⟨_, rfl, by norm_num [Span.Has]⟩ ?_ (fun st hst m hm => ?_) ⟨[⟨-3 / 100, 4 / 100⟩], [⟨24 / 100, 26 / 100⟩], ?_, by simp, rfl, fun k d hd => ?_, .cons ?_ .nil⟩
      (.binomial logistic_demo' ?_)
    · refine .single (s := .dummy ⟨[.fin (1 / 2), .fin (1 / 2)]⟩) (.dummy (.inr ⟨rfl, rfl⟩) rfl ⟨_, rfl, .int _⟩ ⟨_, rfl, .int _⟩) (.dummyShares ?_)
      exact .cons ⟨_, rfl, by norm_num [Span.Has]⟩ (.cons ⟨_, rfl, by norm_num [Span.Has]⟩ .nil)
    · rw [List.mem_singleton.1 hst] at hm
      rw [List.mem_singleton.1 hm]
      exact C107_grown_regressors (cs := none) (.inl rfl) (riseTree_holds _ _) (.inl rfl) (by simp [riseStump, SkTree.values])
        (.right rfl rfl (by norm_num) .leaf) rfl ⟨2, rfl, by norm_num [Span.Has]⟩
    · refine .binomial (c := ⟨499 / 1000, 501 / 1000⟩) (o := ⟨98 / 100, 103 / 100⟩) ⟨⟨0, 1 / 1000⟩, ⟨99 / 100, 2⟩, rounded_of ?_ ?_ ?_, C107_sub_ends (rounded_of ?_ ?_ ?_) (rounded_of ?_ ?_ ?_), ?_, ?_⟩
        (C107_sub_ends (rounded_of ?_ ?_ ?_) (rounded_of ?_ ?_ ?_))
        (C107_div_corners (.inl (by norm_num)) (rounded_of ?_ ?_ ?_) (rounded_of ?_ ?_ ?_) (rounded_of ?_ ?_ ?_) (rounded_of ?_ ?_ ?_)) ?_
      case refine_30 =>
        have u1 := Real.log_le_sub_one_of_pos (show (0 : ℝ) < 103 / 100 by norm_num)
        have l1 := Real.one_sub_inv_le_log_of_pos (show (0 : ℝ) < 98 / 100 by norm_num)
        have u2 : Real.log (98 / 100) ≤ 0 := Real.log_nonpos (by norm_num) (by norm_num)
        have l2 : 0 ≤ Real.log (103 / 100) := Real.log_nonneg (by norm_num)
        norm_num at l1
        have s1 := ulpsLib_small (z := Real.log (98 / 100)) (by rw [abs_of_nonpos u2]; norm_num; linarith)
        have s2 := ulpsLib_small (z := Real.log (103 / 100)) (by rw [abs_of_nonneg l2]; linarith)
        refine C107_log_ends (by norm_num) ?_ ?_
        · show (-3 / 100 : ℝ) ≤ Real.log (98 / 100) - ulpsLib (Real.log (98 / 100))
          norm_num at s1 ⊢
          linarith
        · show Real.log (103 / 100) + ulpsLib (Real.log (103 / 100)) ≤ (4 / 100 : ℝ)
          linarith
      all_goals norm_num [one, abs_of_pos]
    · have hk : k = 0 := by
        have := (List.getElem?_eq_some_iff.1 hd).1
        simp at this
        omega
      subst hk
      cases hd
      refine ⟨[⟨2, 2⟩], .cons ⟨_, rfl⟩ .nil, .cons (p := ⟨249 / 1000, 251 / 1000⟩)
        (C107_mul_corners (rounded_of ?_ ?_ ?_) (rounded_of ?_ ?_ ?_) (rounded_of ?_ ?_ ?_) (rounded_of ?_ ?_ ?_))
        (C107_add_ends (rounded_of ?_ ?_ ?_) (rounded_of ?_ ?_ ?_)) .nil⟩ <;> norm_num [nought, abs_of_pos]
    · refine C107_add_ends (rounded_of ?_ ?_ ?_) (rounded_of ?_ ?_ ?_) <;> norm_num [abs_of_pos]
    · refine C107_sub_ends (rounded_of ?_ ?_ ?_) (rounded_of ?_ ?_ ?_) <;> norm_num [one, abs_of_pos]
  · obtain rfl : j = 0 := by omega
    cases ht
    norm_num
  · have := (List.getElem?_eq_some_iff.1 ht).1
    simp at this
    omega

end PurePredict
