import Verif.Lemmas.MemberOrderObject
import Verif.Props.C82
import Verif.Props.C111
/-
C112: the order of the members of an ensemble, of the stages of a boosting model and of the rounds of an XGBoost model does not matter.
-/
namespace PurePredict
open Spec
variable {fp : FP} {lib : String → TextLib} {encode : Str → List Nat}

section
variable (trunc : XR fp → Py Int)

/-- **C112** where sums do not depend on the order of the summands: a fitted object and the same object with members, stages or
rounds in another order are both converted, and on every request both give the same answer, or both raise. -/
theorem C112_any_order_partial (ho : AnyOrder fp) {o o' : SkObj (Attrs (XR fp)) (PVal (XR fp)) (XR fp)} (h : Resorted o o')
    {f : Methods (XR fp)} (hb : Behaves lib encode o f) :
    ∃ c c', convert (singles trunc initXgb) o = .ok c ∧ convert (singles trunc initXgb) o' = .ok c' ∧
      AllAgree (c.methods lib encode) (c'.methods lib encode) := by
  obtain ⟨f', hb', hr⟩ := behaves_resorted ho h hb
  obtain ⟨c, hc, rfl⟩ := C89_converted_behaves trunc lib encode o f hb
  obtain ⟨c', hc', rfl⟩ := C89_converted_behaves trunc lib encode o' f' hb'
  exact ⟨c, c', hc, hc', hr⟩

/-- **C112** in exact arithmetic, infinities and NaN included. -/
theorem C112_exact (trunc : Ex → Py Int) {o o' : SkObj (Attrs Ex) (PVal Ex) Ex} (h : Resorted o o') {f : Methods Ex} (hb : Behaves lib encode o f) :
    ∃ c c', convert (singles trunc initXgb) o = .ok c ∧ convert (singles trunc initXgb) o' = .ok c' ∧
      AllAgree (c.methods lib encode) (c'.methods lib encode) :=
  C112_any_order_partial trunc anyOrder_exact h hb

/-- **C112** for an ensemble of two members, with all rounding: which of them is listed first does not matter. -/
theorem C112_two_members {k v cs a b} {f : Methods (XR fp)} (hb : Behaves lib encode (.ensemble k v none cs [a, b]) f) :
    ∃ c c', convert (singles trunc initXgb) (.ensemble k v none cs [a, b]) = .ok c ∧ convert (singles trunc initXgb) (.ensemble k v none cs [b, a]) = .ok c' ∧
      AllAgree (c.methods lib encode) (c'.methods lib encode) := by
  cases hb with
  | ensemble hv hpl he =>
    cases he with
    | @cons _ x _ _ h1 he =>
      cases he with
      | @cons _ y _ _ h2 hn =>
        cases hn
        obtain ⟨c, hc, e⟩ := C89_converted_behaves trunc lib encode _ _ (.ensemble hv hpl (.cons h1 (.cons h2 .nil)))
        obtain ⟨c', hc', e'⟩ := C89_converted_behaves trunc lib encode _ _ (.ensemble hv hpl (.cons h2 (.cons h1 .nil)))
        exact ⟨c, c', hc, hc', e ▸ e' ▸ pair_agree x y cs⟩

/-- **C112** for an ensemble of two members that read columns of their own, with all rounding. -/
theorem C112_two_subspaces {k v cs a b s t} {f : Methods (XR fp)} (hb : Behaves lib encode (.ensemble k v (some [s, t]) cs [a, b]) f) :
    ∃ c c', convert (singles trunc initXgb) (.ensemble k v (some [s, t]) cs [a, b]) = .ok c ∧
      convert (singles trunc initXgb) (.ensemble k v (some [t, s]) cs [b, a]) = .ok c' ∧
      AllAgree (c.methods lib encode) (c'.methods lib encode) := by
  cases hb with
  | ensemble hv hpl he =>
    cases he with
    | @cons _ x _ _ h1 he =>
      cases he with
      | @cons _ y _ _ h2 hn =>
        cases hn
        obtain ⟨c, hc, e⟩ := C89_converted_behaves trunc lib encode _ _ (.ensemble hv hpl (.cons h1 (.cons h2 .nil)))
        obtain ⟨c', hc', e'⟩ := C89_converted_behaves trunc lib encode _ _ (.ensemble hv hpl (.cons h2 (.cons h1 .nil)))
        exact ⟨c, c', hc, hc', e ▸ e' ▸ pair_subspaces_agree x y s t cs⟩

end

/-! ### How much the order matters in double precision -/

theorem assigned_average (trunc : XR FP.binary64 → Py Int) {k v cs ms} {X : Arr (XR FP.binary64)} {n w : Nat} (hv : ReadableVersion v) (hcs : ∀ c ∈ cs, Plain c)
    {Ps : List (Nat → Nat → ℝ)} (hne : Ps ≠ []) (hn : 0 < n) (h : List.Forall₂ (Assigns lib encode X n w) ms Ps) (hT : ms.length ≤ 2 ^ 51) :
    ∃ c q, ∃ Q : Nat → Nat → ℝ, convert (singles trunc initXgb) (.ensemble k v none cs ms) = .ok c ∧ (c.methods lib encode).predictProba = some q ∧
      q (.arr X) = .ok (mat n w fun i c => .fin (Q i c)) ∧ ∀ i < n, ∀ c < w, Within64 ms.length (meanEntry Ps i c) 1 (Q i c) (meanEntry Ps i c) := by
  obtain ⟨es, he, hr⟩ : ∃ es : List (Methods (XR FP.binary64)), List.Forall₂ (Behaves lib encode) ms es ∧
      List.Forall₂ (fun e P => Est.runProba e X = .ok (mat n w fun i c => .fin (P i c))) es Ps := by
    clear hT hne
    induction h with
    | nil => exact ⟨[], .nil, .nil⟩
    | cons h _ ih =>
      obtain ⟨es, h1, h2⟩ := ih
      obtain ⟨⟨f, q, hf, hq, hX⟩, -⟩ := h
      refine ⟨f :: es, .cons hf h1, .cons ?_ h2⟩
      unfold Est.runProba
      rw [hq]
      exact hX
  obtain ⟨c, hc, e⟩ := C89_converted_behaves trunc lib encode _ _ (.ensemble (k := k) hv hcs he)
  generalize hb : (⟨none, cs, es.map fun m => ⟨m.runProba⟩⟩ : Bagging (XR FP.binary64) (PVal (XR FP.binary64))) = b
  have hlen : b.estimators.length = ms.length := by subst hb; simp [he.length_eq]
  obtain ⟨Q, hQ, hw⟩ := C82_average b (by subst hb; exact fun fs h => nomatch h) X n w hn Ps hne (by
      subst hb
      unfold Bagging.members
      simp only [List.map_map]
      rw [List.forall₂_map_left_iff]
      exact hr) (hlen ▸ hT) fun P hP => by
    obtain ⟨o, -, ho⟩ := forall₂_mem_right h hP
    exact ho.2
  rw [hlen] at hw
  refine ⟨c, _, Q, hc, by rw [e]; rfl, ?_, hw⟩
  subst hb
  exact hQ

/-- **C112** in double precision, for ensembles: if the members answer a request with probabilities, so do both orders of the ensemble, and no probability
changes by more than 2⁻⁵¹ times the number of members (and twice the smallest double). -/
theorem C112_close (trunc : XR FP.binary64 → Py Int) {k v cs ms ms'} (hp : ms.Perm ms') {X : Arr (XR FP.binary64)} {n w : Nat} (hv : ReadableVersion v)
    (hcs : ∀ c ∈ cs, Plain c) {Ps : List (Nat → Nat → ℝ)} (hn : 0 < n) (hne : ms ≠ []) (h : List.Forall₂ (Assigns lib encode X n w) ms Ps) (hT : ms.length ≤ 2 ^ 51) :
    ∃ c c' q q', ∃ Q Q' : Nat → Nat → ℝ, convert (singles trunc initXgb) (.ensemble k v none cs ms) = .ok c ∧ convert (singles trunc initXgb) (.ensemble k v none cs ms') = .ok c' ∧
      (c.methods lib encode).predictProba = some q ∧ (c'.methods lib encode).predictProba = some q' ∧
      q (.arr X) = .ok (mat n w fun i c => .fin (Q i c)) ∧ q' (.arr X) = .ok (mat n w fun i c => .fin (Q' i c)) ∧
      ∀ i < n, ∀ c < w, |Q i c - Q' i c| ≤ ms.length * 2 ^ (-51 : ℤ) + 2 ^ (-1073 : ℤ) := by
  obtain ⟨Ps', hP, h'⟩ := perm_with hp h
  have hl := h.length_eq
  have hPs : Ps ≠ [] := by
    rintro rfl
    exact hne (List.length_eq_zero_iff.1 hl)
  have hPs' : Ps' ≠ [] := fun e => hPs (by rw [e] at hP; exact hP.eq_nil)
  obtain ⟨c, q, Q, h1, h2, h3, h4⟩ := assigned_average (k := k) trunc hv hcs hPs hn h hT
  obtain ⟨c', q', Q', h1', h2', h3', h4'⟩ := assigned_average (k := k) trunc hv hcs hPs' hn h' (hp.length_eq ▸ hT)
  refine ⟨c, c', q, q', Q, Q', h1, h1', h2, h2', h3, h3', fun i hi j hj => ?_⟩
  have hm : meanEntry Ps' i j = meanEntry Ps i j := by
    unfold meanEntry
    rw [(hP.map fun P => P i j).sum_eq, hP.length_eq]
  have hm1 : meanEntry Ps i j ≤ 1 := by
    unfold meanEntry
    have hpos : (0 : ℝ) < Ps.length := by exact_mod_cast List.length_pos_iff.2 hPs
    rw [div_le_one hpos]
    have : ∀ l : List (Nat → Nat → ℝ), (∀ P ∈ l, P i j ≤ 1) → (l.map fun P => P i j).sum ≤ l.length := by
      intro l hl
      induction l with
      | nil => simp
      | cons P l ih =>
        have a1 := hl P (by simp)
        have a2 := ih fun P hP => hl P (by simp [hP])
        rw [List.map_cons, List.sum_cons, List.length_cons]
        push_cast
        linarith
    exact this Ps fun P hP => by
      obtain ⟨o, -, ho⟩ := forall₂_mem_right h hP
      exact (ho.2 i hi j hj).2.1
  have b1 := h4 i hi j hj
  have b2 := h4' i hi j hj
  rw [hm, ← hp.length_eq] at b2
  unfold Within64 at b1 b2
  have tri : |Q i j - Q' i j| ≤ |Q i j - meanEntry Ps i j| + |Q' i j - meanEntry Ps i j| := by
    rw [abs_sub_comm (Q' i j)]
    exact abs_sub_le _ _ _
  have e1 : (2 : ℝ) ^ (-51 : ℤ) = 2 * 2 ^ (-52 : ℤ) := by
    rw [← zpow_one_add₀ (by norm_num)]
    norm_num
  have e2 : (2 : ℝ) ^ (-1073 : ℤ) = 2 * 2 ^ (-1074 : ℤ) := by
    rw [← zpow_one_add₀ (by norm_num)]
    norm_num
  have hk : (ms.length : ℝ) * 2 ^ (-52 : ℤ) * meanEntry Ps i j ≤ ms.length * 2 ^ (-52 : ℤ) := mul_le_of_le_one_right (by positivity) hm1
  rw [e1, e2]
  push_cast at b1 b2
  linarith

/-! ### Cases -/

/-- Bagged priors in any order. -/
example (a b c : Ex) : Resorted (.ensemble .bagging (some "0.22".toList) none [.int 0, .int 1, .int 2]
      [.leaf "DummyClassifier" (some "0.22".toList) (demoPrior a b c), .leaf "DummyClassifier" (some "0.22".toList) (demoPrior b c a), .leaf "DummyClassifier" (some "0.22".toList) (demoPrior c a b)])
    (.ensemble .bagging (some "0.22".toList) none [.int 0, .int 1, .int 2]
      [.leaf "DummyClassifier" (some "0.22".toList) (demoPrior c a b), .leaf "DummyClassifier" (some "0.22".toList) (demoPrior a b c), .leaf "DummyClassifier" (some "0.22".toList) (demoPrior b c a)]) ∧
    ∃ f, Behaves lib encode (.ensemble .bagging (some "0.22".toList) none [.int 0, .int 1, .int 2]
      [.leaf "DummyClassifier" (some "0.22".toList) (demoPrior a b c), .leaf "DummyClassifier" (some "0.22".toList) (demoPrior b c a), .leaf "DummyClassifier" (some "0.22".toList) (demoPrior c a b)]) f := by
  refine ⟨.members ?_, _, .ensemble version_022 (fun c hc => ?_) (.cons (.single version_022 (demoPrior_learned a b c)) (.cons (.single version_022 (demoPrior_learned b c a))
    (.cons (.single version_022 (demoPrior_learned c a b)) .nil)))⟩
  · exact (List.perm_append_comm (l₁ := [_, _]) (l₂ := [_]))
  · simp only [List.mem_cons, List.not_mem_nil, or_false] at hc
    rcases hc with rfl | rfl | rfl <;> exact .int _

/-- Members with their columns. -/
example (v : Option (List Char)) (m m' m'' : SkObj (Attrs Ex) (PVal Ex) Ex) : Resorted (.ensemble .bagging v (some [[0, 1], [1, 2], [2]]) [.int 0, .int 1] [m, m', m''])
    (.ensemble .bagging v (some [[1, 2], [2], [0, 1]]) [.int 0, .int 1] [m', m'', m]) :=
  .subspaces (parts := [(m, [0, 1]), (m', [1, 2]), (m'', [2])]) (parts' := [(m', [1, 2]), (m'', [2]), (m, [0, 1])])
    (List.perm_append_comm (l₁ := [_]) (l₂ := [_, _]))

/-- a regression tree with one leaf -/
noncomputable def regTree {F : Type} [Arith F] (x : F) : Attrs F := treeAttrs (.leaf [[x]])

theorem regTree_learned {F : Type} [Arith F] (x : F) : Learned "DecisionTreeRegressor" (regTree x) (.treeRegressor (leafModel [x] [.int 0, .int 1])) :=
  .treeRegressor (cs := none) (.inl rfl) ⟨_, _, _, _, rfl, rfl, rfl, rfl, rfl, rfl⟩ (.inl rfl) rfl

/-- Boosting with two stages of one tree, after a scaler. -/
example (x y lr : Ex) (init : SkObj (Attrs Ex) (PVal Ex) Ex) (s : Attrs Ex) :
    let r : Ex → SkObj (Attrs Ex) (PVal Ex) Ex := fun z => .leaf "DecisionTreeRegressor" (some "0.22".toList) (regTree z)
    Resorted (.pipeline (some "0.22".toList) [("scale", .leaf "StandardScaler" (some "0.22".toList) s),
        ("boost", .boosting (some "0.22".toList) [.int 0, .int 1] [[r x], [r y]] init "deviance" [.float lr, .int 1])])
      (.pipeline (some "0.22".toList) [("scale", .leaf "StandardScaler" (some "0.22".toList) s),
        ("boost", .boosting (some "0.22".toList) [.int 0, .int 1] [[r y], [r x]] init "deviance" [.float lr, .int 1])]) := by
  refine .inPipeline (steps := [_]) (.stages (n := 1) (.swap _ _ _) ?_ ?_)
  · intro st hst
    simp only [List.mem_cons, List.not_mem_nil, or_false] at hst
    rcases hst with rfl | rfl <;> rfl
  · intro st hst m hm
    simp only [List.mem_cons, List.not_mem_nil, or_false] at hst
    rcases hst with rfl | rfl <;> (simp only [List.mem_cons, List.not_mem_nil, or_false] at hm; subst hm; exact .mk (regTree_learned _))

/-! ### Double precision -/

/-- an exact tie goes to the even mantissa -/
theorem B64.tie_one : B64.rndFin (1 + 2 ^ (-53 : ℤ)) = 1 := by
  have hlog : Int.log 2 |(1 : ℝ) + 2 ^ (-53 : ℤ)| = 0 := by
    rw [abs_of_pos (by positivity)]
    refine le_antisymm ?_ ?_
    · have : Int.log 2 ((1 : ℝ) + 2 ^ (-53 : ℤ)) < 1 := (Int.lt_zpow_iff_log_lt (by norm_num) (by positivity)).1 (by norm_num)
      omega
    · exact (Int.zpow_le_iff_le_log (by norm_num) (by positivity)).1 (by norm_num)
  have hl : B64.lsb ((1 : ℝ) + 2 ^ (-53 : ℤ)) = -52 := by
    unfold B64.lsb
    rw [hlog]
    norm_num
  unfold B64.rndFin
  rw [hl]
  have hx : ((1 : ℝ) + 2 ^ (-53 : ℤ)) * 2 ^ (-(-52) : ℤ) = ((2 ^ 52 : ℤ) : ℝ) + 1 / 2 := by norm_num
  have hf : ⌊((2 ^ 52 : ℤ) : ℝ) + 1 / 2⌋ = 2 ^ 52 := by
    rw [Int.floor_intCast_add]
    norm_num
  have hr : Int.fract (((2 ^ 52 : ℤ) : ℝ) + 1 / 2) = 1 / 2 := by
    unfold Int.fract
    rw [hf]
    ring
  rw [hx]
  unfold B64.rne
  rw [hr, hf, if_neg (lt_irrefl _), if_neg (lt_irrefl _), if_pos (by decide)]
  norm_num

/-- three classes with the priors `x`, `1 - x` and 0 -/
noncomputable def tiltedPrior (x : ℝ) : SkObj (Attrs (XR FP.binary64)) (PVal (XR FP.binary64)) (XR FP.binary64) :=
  .leaf "DummyClassifier" (some "0.22".toList) (demoPrior (.fin x) (.fin (1 - x)) (.fin 0))

/-- the four of them bagged -/
noncomputable def tiltedBag (a b c d : ℝ) : SkObj (Attrs (XR FP.binary64)) (PVal (XR FP.binary64)) (XR FP.binary64) :=
  .ensemble .bagging (some "0.22".toList) none [.int 0, .int 1, .int 2] [tiltedPrior a, tiltedPrior b, tiltedPrior c, tiltedPrior d]

/-- Members that answer with doubles between 0 and 1. -/
example (x : ℝ) (h0 : 0 ≤ x) (h1 : x ≤ 1) (hr : FP.binary64.rnd x = (x : EReal)) (hr' : FP.binary64.rnd (1 - x) = ((1 - x : ℝ) : EReal)) :
    Assigns lib encode (.ofMat [[.fin 0]]) 1 3 (tiltedPrior x) fun _ c => if c = 0 then x else if c = 1 then 1 - x else 0 := by
  refine ⟨⟨_, _, .single version_022 (demoPrior_learned _ _ _), rfl, rfl⟩, fun i _ c hc => ?_⟩
  have z : FP.binary64.rnd 0 = ((0 : ℝ) : EReal) := FP.binary64_sound.zero
  rcases c with _ | _ | c
  · exact ⟨h0, h1, hr⟩
  · exact ⟨by norm_num; linarith, by norm_num; linarith, by simpa using hr'⟩
  · exact ⟨by simp, by simp, by simpa using z⟩

theorem div_four (a : XR FP.binary64) : ∃ q, a /ₚ (.fin 4 : XR FP.binary64) = .ok q := by
  cases a with
  | fin r =>
    refine ⟨XR.round (r / 4), ?_⟩
    show XR.div _ _ = _
    simp only [XR.div]
    rw [if_neg (by norm_num)]
  | pinf => exact ⟨_, by show XR.div _ _ = _; simp only [XR.div]; rw [if_neg (by norm_num)]⟩
  | ninf => exact ⟨_, by show XR.div _ _ = _; simp only [XR.div]; rw [if_neg (by norm_num)]⟩
  | nan => exact ⟨_, by show XR.div _ _ = _; simp only [XR.div]; rw [if_neg (by norm_num)]⟩

theorem tiltedBag_proba (trunc : XR FP.binary64 → Py Int) (a b c d : ℝ) {s : ℝ}
    (hs : (((.fin a : XR FP.binary64) +ₚ .fin b) +ₚ .fin c) +ₚ .fin d = .fin s) :
    ∃ z q row, convert (singles trunc initXgb) (tiltedBag a b c d) = .ok z ∧ (z.methods lib encode).predictProba = some q ∧
      q (.arr (.ofMat [[.fin 0]])) = .ok [XR.round (s / 4) :: row] := by
  have hb : Behaves lib encode (tiltedBag a b c d) _ := .ensemble version_022 (fun c hc => by
      simp only [List.mem_cons, List.not_mem_nil, or_false] at hc
      rcases hc with rfl | rfl | rfl <;> exact .int _)
    (.cons (.single version_022 (demoPrior_learned _ _ _)) (.cons (.single version_022 (demoPrior_learned _ _ _))
      (.cons (.single version_022 (demoPrior_learned _ _ _)) (.cons (.single version_022 (demoPrior_learned _ _ _)) .nil))))
  obtain ⟨z, hz, e⟩ := C89_converted_behaves trunc lib encode _ _ hb
  obtain ⟨q2, h2⟩ := div_four ((((.fin (1 - a) : XR FP.binary64) +ₚ .fin (1 - b)) +ₚ .fin (1 - c)) +ₚ .fin (1 - d))
  obtain ⟨q3, h3⟩ := div_four ((((.fin 0 : XR FP.binary64) +ₚ .fin 0) +ₚ .fin 0) +ₚ .fin 0)
  refine ⟨z, _, [q2, q3], hz, by rw [e]; rfl, ?_⟩
  have four : (ofInt (4 : Nat) : XR FP.binary64) = .fin 4 := by
    show XR.round _ = _
    exact FP.binary64_round 4 (by norm_num) (by norm_num)
  have h1 : (.fin s : XR FP.binary64) /ₚ .fin 4 = .ok (XR.round (s / 4)) := by
    show XR.div _ _ = _
    simp only [XR.div]
    rw [if_neg (by norm_num)]
  show Bagging.predictProba _ _ = _
  rw [predictProba_pile]
  have op : ∀ x y : List (XR FP.binary64), x.length = y.length → operate2d (.ofMat [x]) (.ofMat [y]) Arith.add = .ok [List.zipWith Arith.add x y] := by
    intro x y h
    rw [operate2d_shapes, shape_ofMat_cons, shape_ofMat_cons, h]
    simp
  have sum : pile (fun a q => operate2d (.ofMat a) (.ofMat q) Arith.add) [(.ok [[.fin a, .fin (1 - a), .fin 0]] : Py (List (List (XR FP.binary64)))),
      .ok [[.fin b, .fin (1 - b), .fin 0]], .ok [[.fin c, .fin (1 - c), .fin 0]], .ok [[.fin d, .fin (1 - d), .fin 0]]] =
      .ok [[.fin s, (((.fin (1 - a) : XR FP.binary64) +ₚ .fin (1 - b)) +ₚ .fin (1 - c)) +ₚ .fin (1 - d), (((.fin 0 : XR FP.binary64) +ₚ .fin 0) +ₚ .fin 0) +ₚ .fin 0]] := by
    unfold pile
    simp only [foldlM_cons', py_ok_bind, List.foldlM_nil, py_pure]
    rw [op _ _ (by simp), py_ok_bind, op _ _ (by simp), py_ok_bind, op _ _ (by simp), py_ok_bind]
    simp only [List.zipWith_cons_cons, List.zipWith_nil_right, hs]
  refine (congrArg (fun p => p >>= fun p => apply2d (.ofMat p) fun x => x /ₚ (ofInt (4 : Nat) : XR FP.binary64)) sum).trans ?_
  simp only [py_ok_bind, apply2d_ofMat, mapM_cons', four, h1, h2, h3]
  rfl

/-- **C112 is false in double precision**: four members that give the first class 1, 2⁻⁵³, 2⁻⁵³ and 0; their mean is 1/4, but it is more if
the first member comes last, since then the two small numbers are not lost. -/
theorem C112_false_rounding (trunc : XR FP.binary64 → Py Int) :
    Resorted (tiltedBag 1 (2 ^ (-53 : ℤ)) (2 ^ (-53 : ℤ)) 0) (tiltedBag (2 ^ (-53 : ℤ)) (2 ^ (-53 : ℤ)) 0 1) ∧
    ∃ c c' q q' row row' r, convert (singles trunc initXgb) (tiltedBag 1 (2 ^ (-53 : ℤ)) (2 ^ (-53 : ℤ)) 0) = .ok c ∧
      convert (singles trunc initXgb) (tiltedBag (2 ^ (-53 : ℤ)) (2 ^ (-53 : ℤ)) 0 1) = .ok c' ∧
      (c.methods lib encode).predictProba = some q ∧ (c'.methods lib encode).predictProba = some q' ∧
      q (.arr (.ofMat [[.fin 0]])) = .ok [.fin (1 / 4) :: row] ∧ q' (.arr (.ofMat [[.fin 0]])) = .ok [.fin r :: row'] ∧ 1 / 4 < r := by
  have rep : ∀ x : ℝ, B64.Representable x → |x| ≤ 2 ^ 60 → (XR.round x : XR FP.binary64) = .fin x := fun x h h' => round_small (B64.rndFin_of_representable h) h'
  have add : ∀ x y z : ℝ, (XR.round (x + y) : XR FP.binary64) = .fin z → (.fin x : XR FP.binary64) +ₚ .fin y = .fin z := fun x y z h => h
  have r1 : (XR.round 1 : XR FP.binary64) = .fin 1 := rep 1 ⟨1, 0, by norm_num, by norm_num, by norm_num⟩ (by norm_num)
  have s1 : (.fin 1 : XR FP.binary64) +ₚ .fin (2 ^ (-53 : ℤ)) = .fin 1 := add _ _ _ (round_small B64.tie_one (by norm_num))
  have s2 : (.fin 1 : XR FP.binary64) +ₚ .fin 0 = .fin 1 := add _ _ _ (by rw [add_zero, r1])
  have s3 : (.fin (2 ^ (-53 : ℤ)) : XR FP.binary64) +ₚ .fin (2 ^ (-53 : ℤ)) = .fin (2 ^ (-52 : ℤ)) := add _ _ _ (by
    rw [show (2 : ℝ) ^ (-53 : ℤ) + 2 ^ (-53 : ℤ) = 2 ^ (-52 : ℤ) by norm_num]
    exact rep _ ⟨1, -52, by norm_num, by norm_num, by norm_num⟩ (by norm_num))
  have s4 : (.fin (2 ^ (-52 : ℤ)) : XR FP.binary64) +ₚ .fin 0 = .fin (2 ^ (-52 : ℤ)) := add _ _ _ (by
    rw [add_zero]
    exact rep _ ⟨1, -52, by norm_num, by norm_num, by norm_num⟩ (by norm_num))
  have s5 : (.fin (2 ^ (-52 : ℤ)) : XR FP.binary64) +ₚ .fin 1 = .fin (1 + 2 ^ (-52 : ℤ)) := add _ _ _ (by
    rw [add_comm]
    exact rep _ ⟨2 ^ 52 + 1, -52, by norm_num, by norm_num, by norm_num⟩ (by norm_num))
  obtain ⟨c, q, row, h1, h2, h3⟩ := tiltedBag_proba (lib := lib) (encode := encode) trunc 1 (2 ^ (-53 : ℤ)) (2 ^ (-53 : ℤ)) 0 (s := 1) (by rw [s1, s1, s2])
  obtain ⟨c', q', row', h1', h2', h3'⟩ := tiltedBag_proba (lib := lib) (encode := encode) trunc (2 ^ (-53 : ℤ)) (2 ^ (-53 : ℤ)) 0 1 (s := 1 + 2 ^ (-52 : ℤ)) (by rw [s3, s4, s5])
  rw [rep (1 / 4) ⟨1, -2, by norm_num, by norm_num, by norm_num⟩ (by norm_num)] at h3
  rw [rep ((1 + 2 ^ (-52 : ℤ)) / 4) ⟨2 ^ 52 + 1, -54, by norm_num, by norm_num, by norm_num⟩ (by norm_num)] at h3'
  refine ⟨.members ?_, c, c', q, q', row, row', _, h1, h1', h2, h2', h3, h3', by norm_num⟩
  exact List.perm_append_comm (l₁ := [_]) (l₂ := [_, _, _])

end PurePredict
