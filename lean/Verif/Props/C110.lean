import Verif.Lemmas.AlikeObject
import Verif.Lemmas.AlikeNum
import Verif.Props.C108
/-
C110: Python ints and floats.  Equal numbers in a request, ints or floats, get the same answers; the signs of zeros do not matter;
and the floats of the model, which has neither ints nor signed zeros, give the answers of Python's numbers.
-/
namespace PurePredict
open Spec
variable {fp : FP} {lib : String → TextLib} {encode : Str → List Nat}

section
variable {F G : Type} [Arith F] [Arith G]

/-- **C110**, for any two kinds of numbers: alike fitted objects are both converted, have the same methods, and give alike answers,
or the same exception, to alike requests. -/
theorem C110_alike (trunc : F → Py Int) (trunc' : G → Py Int) {k : Likeness F G} (hk : k.Sound) {o : SkObj (Attrs F) (PVal F) F}
    {o' : SkObj (Attrs G) (PVal G) G} (h : ObjectsAlike k o o') {f : Methods F} (hb : Behaves lib encode o f) :
    ∃ c c', convert (singles trunc initXgb) o = .ok c ∧ convert (singles trunc' initXgb) o' = .ok c' ∧
      MethodsAlike k (c.methods lib encode) (c'.methods lib encode) := by
  obtain ⟨f', hb', hr⟩ := behaves_alike hk h hb
  obtain ⟨c, hc, rfl⟩ := C89_converted_behaves trunc lib encode o f hb
  obtain ⟨c', hc', rfl⟩ := C89_converted_behaves trunc' lib encode o' f' hb'
  exact ⟨c, c', hc, hc', hr⟩

/-- dense records with alike entries -/
theorem requests_ofMat {k : Likeness F G} {M : List (List F)} {N : List (List G)} (h : List.Forall₂ (List.Forall₂ k.num) M N) :
    RequestsAlike k (.arr (.ofMat M)) (.arr (.ofMat N)) :=
  .arr (.list (by
    rw [List.forall₂_map_left_iff, List.forall₂_map_right_iff]
    exact h.imp fun x y hxy => .list hxy))

end

/-! ### Ints and floats -/

section
variable (trunc : PyNum fp → Py Int)

/-- **C110** for equal numbers: one fitted object, whose learned numbers are floats, gives the same answers to requests with equal
numbers, whether they are ints or floats. -/
theorem C110_equal_numbers (hs : fp.Sound) {o : SkObj (Attrs (PyNum fp)) (PVal (PyNum fp)) (PyNum fp)} (h : ObjectsAlike (equalNumbers fp) o o)
    {f : Methods (PyNum fp)} (hb : Behaves lib encode o f) :
    ∃ c, convert (singles trunc initXgb) o = .ok c ∧ MethodsAlike (equalNumbers fp) (c.methods lib encode) (c.methods lib encode) := by
  obtain ⟨c, c', h1, h2, h3⟩ := C110_alike (lib := lib) (encode := encode) trunc trunc (equalNumbers_sound hs) h hb
  rw [h1] at h2
  cases h2
  exact ⟨c, h1, h3⟩

/-- labels that are strings, bools or ints -/
def Spec.Exact : PVal (PyNum fp) → Prop
  | .float _ => False
  | .npFloat _ => False
  | _ => True

theorem Spec.LabelsAlike.exact {k : Likeness (PyNum fp) (PyNum fp)} {a b : PVal (PyNum fp)} (h : LabelsAlike k a b) (ha : Exact a) : a = b := by
  cases h with
  | float h => exact ha.elim
  | npFloat h => exact ha.elim
  | int h => rfl
  | bool => rfl
  | str => rfl
  | npStr => rfl

/-- **C110** spelled out for dense records: each label is the same (floats up to the sign of a zero), each probability is a float
of the same value, and an exception for one request is the exception for the other. -/
theorem C110_equal_answers (hs : fp.Sound) {o : SkObj (Attrs (PyNum fp)) (PVal (PyNum fp)) (PyNum fp)} (h : ObjectsAlike (equalNumbers fp) o o)
    {f : Methods (PyNum fp)} (hb : Behaves lib encode o f) :
    ∃ c, convert (singles trunc initXgb) o = .ok c ∧
      ∀ M N, List.Forall₂ (List.Forall₂ (equalNumbers fp).num) M N →
        (∀ p, (c.methods lib encode).predict = some p →
          (∀ e, p (.arr (.ofMat M)) = .error e ↔ p (.arr (.ofMat N)) = .error e) ∧
          (∀ a b, p (.arr (.ofMat M)) = .ok a → p (.arr (.ofMat N)) = .ok b → (∀ l ∈ a, Exact l) → a = b)) ∧
        ∀ q, (c.methods lib encode).predictProba = some q →
          (∀ e, q (.arr (.ofMat M)) = .error e ↔ q (.arr (.ofMat N)) = .error e) ∧
          (∀ a b, q (.arr (.ofMat M)) = .ok a → q (.arr (.ofMat N)) = .ok b →
            List.Forall₂ (List.Forall₂ fun x y => x.isInt = false ∧ y.isInt = false ∧ x.val = y.val) a b) := by
  obtain ⟨c, h1, -, h2, h3, -⟩ := C110_equal_numbers (lib := lib) (encode := encode) trunc hs h hb
  refine ⟨c, h1, fun M N hMN => ⟨fun p hp => ?_, fun q hq => ?_⟩⟩
  · rw [hp] at h2
    cases h2 with
    | some hX =>
      have hX := hX _ _ (requests_ofMat hMN)
      generalize p (.arr (.ofMat M)) = x at hX ⊢
      generalize p (.arr (.ofMat N)) = y at hX ⊢
      cases hX with
      | fail => exact ⟨fun e => Iff.rfl, fun a b ha => by cases ha⟩
      | done hX =>
        refine ⟨fun e => ⟨fun he => (nomatch he), fun he => (nomatch he)⟩, fun a b ha hb hl => ?_⟩
        cases ha
        cases hb
        clear * - hX hl
        induction hX with
        | nil => rfl
        | cons h _ ih => rw [h.exact (hl _ (by simp)), ih fun l hl' => hl l (by simp [hl'])]
  · rw [hq] at h3
    cases h3 with
    | some hX =>
      have hX := hX _ _ (requests_ofMat hMN)
      generalize q (.arr (.ofMat M)) = x at hX ⊢
      generalize q (.arr (.ofMat N)) = y at hX ⊢
      cases hX with
      | fail => exact ⟨fun e => Iff.rfl, fun a b ha => by cases ha⟩
      | done hX =>
        refine ⟨fun e => ⟨fun he => (nomatch he), fun he => (nomatch he)⟩, fun a b ha hb => ?_⟩
        cases ha
        cases hb
        exact hX

/-- **C110** for the signs of zeros: objects and requests that differ only there get answers that differ at most there. -/
theorem C110_zero_signs (hs : fp.Sound) {o o' : SkObj (Attrs (PyNum fp)) (PVal (PyNum fp)) (PyNum fp)} (h : ObjectsAlike (zeroSigns fp) o o')
    {f : Methods (PyNum fp)} (hb : Behaves lib encode o f) :
    ∃ c c', convert (singles trunc initXgb) o = .ok c ∧ convert (singles trunc initXgb) o' = .ok c' ∧
      MethodsAlike (zeroSigns fp) (c.methods lib encode) (c'.methods lib encode) :=
  C110_alike trunc trunc (zeroSigns_sound hs) h hb

/-- **C110** for the model: the object over the reals of `XR` answers as the one over Python's numbers. -/
theorem C110_model (hs : fp.Sound) (h2 : fp.rnd 2 = ((2 : ℝ) : EReal)) (trunc' : XR fp → Py Int) {o : SkObj (Attrs (PyNum fp)) (PVal (PyNum fp)) (PyNum fp)}
    {o' : SkObj (Attrs (XR fp)) (PVal (XR fp)) (XR fp)} (h : ObjectsAlike (asReals fp) o o') {f : Methods (PyNum fp)} (hb : Behaves lib encode o f) :
    ∃ c c', convert (singles trunc initXgb) o = .ok c ∧ convert (singles trunc' initXgb) o' = .ok c' ∧
      MethodsAlike (asReals fp) (c.methods lib encode) (c'.methods lib encode) :=
  C110_alike trunc trunc' (asReals_sound hs h2) h hb

end

/-! ### Examples -/

/-- an int and the float of the same value -/
theorem equal_int {fp : FP} {n : ℤ} {r : ℝ} (hr : r = n) (h : (XR.round r : XR fp) = .fin r) : (equalNumbers fp).num (.int n) (.flt (.fin r)) := by
  subst hr
  refine ⟨rfl, ?_⟩
  simp only [PyNum.toFloat?]
  rw [h]

/-- a scaler and a classifier -/
def demoPipe {F : Type} (a b c d e f g : F) : SkObj (Attrs F) (PVal F) F :=
  .pipeline (some "0.22".toList) [("scale", .leaf "StandardScaler" (some "0.22".toList) (demoScalerOf a b c d)),
    ("clf", .leaf "RidgeClassifier" (some "0.22".toList) (demoRidge e f g))]

theorem demoPipe_behaves {F : Type} [Arith F] (a b c d e f g : F) : ∃ m, Behaves lib encode (demoPipe a b c d e f g) m :=
  ⟨_, .pipeline (es := [_, _]) version_022 (.cons (.single version_022 (scalerOf_learned a b c d)) (.cons (.single version_022 (demoRidge_learned e f g)) .nil))⟩

theorem demoPipe_alike {F G : Type} [Arith F] [Arith G] {k : Likeness F G} {a b c d e f g : F} {a' b' c' d' e' f' g' : G} (ha : k.flt a a') (hb : k.flt b b')
    (hc : k.flt c c') (hd : k.flt d d') (he : k.flt e e') (hf : k.flt f f') (hg : k.flt g g') :
    ObjectsAlike k (demoPipe a b c d e f g) (demoPipe a' b' c' d' e' f' g') := by
  refine .pipeline (names := ["scale", "clf"])
    (os := [.leaf "StandardScaler" (some "0.22".toList) (demoScalerOf a b c d), .leaf "RidgeClassifier" (some "0.22".toList) (demoRidge e f g)])
    (ps := [.leaf "StandardScaler" (some "0.22".toList) (demoScalerOf a' b' c' d'), .leaf "RidgeClassifier" (some "0.22".toList) (demoRidge e' f' g')])
    rfl rfl fun p hp => ?_
  simp only [List.zip_cons_cons, List.zip_nil_left, List.mem_cons, List.not_mem_nil, or_false] at hp
  rcases hp with rfl | rfl
  · exact .single (scalerOf_learned a b c d) (scalerOf_learned a' b' c' d') (.standard rfl rfl (.some (.cons ha (.cons hb .nil))) (.some (.cons hc (.cons hd .nil))))
  · exact .single (demoRidge_learned e f g) (demoRidge_learned e' f' g') (.linear (.cons (.cons he (.cons hf .nil)) .nil)
      (.cons .str (.cons .str .nil)) (.some (.cons hg .nil)) rfl rfl rfl)

/-- `[[1, 2.5], [0, 3]]` and `[[1.0, 2.5], [-0.0, 3.0]]` get the same labels. -/
example (trunc : PyNum FP.binary64 → Py Int) : ∃ c, convert (singles trunc initXgb)
      (demoPipe (.flt (.fin 2)) (.flt (.fin 4)) (.flt (.fin 1)) (.flt (.fin 3)) (.flt (.fin 1)) (.flt (.fin (-1))) (.flt (.fin 0))) = .ok c ∧
    ∀ p, (c.methods lib encode).predict = some p → ∀ a b,
      p (.arr (.ofMat [[.int 1, .flt (.fin (5 / 2))], [.int 0, .int 3]])) = .ok a →
      p (.arr (.ofMat [[.flt (.fin 1), .flt (.fin (5 / 2))], [.negZero, .flt (.fin 3)]])) = .ok b → (∀ l ∈ a, Exact l) → a = b := by
  obtain ⟨m, hm⟩ := demoPipe_behaves (lib := lib) (encode := encode) (.flt (.fin 2) : PyNum FP.binary64) (.flt (.fin 4)) (.flt (.fin 1)) (.flt (.fin 3)) (.flt (.fin 1))
    (.flt (.fin (-1))) (.flt (.fin 0))
  have r : ∀ x : XR FP.binary64, (equalNumbers FP.binary64).flt (.flt x) (.flt x) := fun x => ⟨rfl, rfl, rfl⟩
  obtain ⟨c, h1, h2⟩ := C110_equal_answers (lib := lib) (encode := encode) trunc FP.binary64_sound (demoPipe_alike (r _) (r _) (r _) (r _) (r _) (r _) (r _)) hm
  refine ⟨c, h1, fun p hp a b => ((h2 _ _ ?_).1 p hp).2 a b⟩
  have n : ∀ (n : ℤ) (q : ℝ), q = n → |n| < 2 ^ 53 → (equalNumbers FP.binary64).num (.int n) (.flt (.fin q)) := fun n q hq hn => by
    subst hq
    exact equal_int rfl (FP.binary64_round (r := ((n : ℤ) : ℝ)) n rfl hn)
  have z := n 0 0 (by norm_num) (by norm_num)
  exact .cons (.cons (n 1 1 (by norm_num) (by norm_num)) (.cons ⟨rfl, rfl⟩ .nil)) (.cons (.cons ⟨z.1.trans rfl, z.2.trans rfl⟩ (.cons (n 3 3 (by norm_num) (by norm_num)) .nil)) .nil)

/-- The mean `0.0` and the mean `-0.0` of a scaler. -/
example (trunc : PyNum fp → Py Int) (hs : fp.Sound) (a b c d e f : XR fp) : ∃ p q,
    convert (singles trunc initXgb) (demoPipe (.flt a) (.flt b) (.flt (.fin 0)) (.flt c) (.flt d) (.flt e) (.flt f)) = .ok p ∧
    convert (singles trunc initXgb) (demoPipe (.flt a) (.flt b) .negZero (.flt c) (.flt d) (.flt e) (.flt f)) = .ok q ∧
    MethodsAlike (zeroSigns fp) (p.methods lib encode) (q.methods lib encode) := by
  obtain ⟨m, hm⟩ := demoPipe_behaves (lib := lib) (encode := encode) (.flt a : PyNum fp) (.flt b) (.flt (.fin 0)) (.flt c) (.flt d) (.flt e) (.flt f)
  have r : ∀ x : XR fp, (zeroSigns fp).flt (.flt x) (.flt x) := fun x => ⟨rfl, rfl, rfl⟩
  exact C110_zero_signs (lib := lib) (encode := encode) trunc hs (demoPipe_alike (r _) (r _) ⟨rfl, rfl, rfl⟩ (r _) (r _) (r _) (r _)) hm

/-- `Normalizer` too, as far as the signs of zeros are concerned. -/
example (trunc : PyNum fp → Py Int) (hs : fp.Sound) : ∃ p,
    convert (singles trunc initXgb) (.leaf "Normalizer" (some "0.22".toList) [("norm", .str "l1"), ("copy", .bool true)]) = .ok p ∧
    MethodsAlike (zeroSigns fp) (p.methods lib encode) (p.methods lib encode) := by
  have hl : Learned (F := PyNum fp) "Normalizer" [("norm", .str "l1"), ("copy", .bool true)] (.normalizer .l1) :=
    .normalizer ⟨_, rfl, .bool _⟩ rfl (by simp [norms])
  obtain ⟨p, q, h1, h2, h3⟩ := C110_zero_signs (lib := lib) (encode := encode) trunc hs (.single hl hl (.normalizer (zeroSigns_closed hs))) (.single version_022 hl)
  rw [h1] at h2
  cases h2
  exact ⟨p, h1, h3⟩

/-- The same pipeline over Python's floats and over the reals of the model. -/
example (trunc : PyNum FP.binary64 → Py Int) (trunc' : XR FP.binary64 → Py Int) (a b c d e f g : XR FP.binary64) : ∃ p q,
    convert (singles trunc initXgb) (demoPipe (.flt a) (.flt b) (.flt c) (.flt d) (.flt e) (.flt f) (.flt g)) = .ok p ∧
    convert (singles trunc' initXgb) (demoPipe a b c d e f g) = .ok q ∧
    MethodsAlike (asReals FP.binary64) (p.methods lib encode) (q.methods lib encode) := by
  obtain ⟨m, hm⟩ := demoPipe_behaves (lib := lib) (encode := encode) (.flt a : PyNum FP.binary64) (.flt b) (.flt c) (.flt d) (.flt e) (.flt f) (.flt g)
  have r : ∀ x : XR FP.binary64, (asReals FP.binary64).flt (.flt x) x := fun x => ⟨rfl, rfl⟩
  have h2 : FP.binary64.rnd 2 = ((2 : ℝ) : EReal) := by
    have := XR.toE_round (fp := FP.binary64) 2
    rw [FP.binary64_round (r := 2) 2 (by norm_num) (by norm_num)] at this
    rw [← this]
    simp [XR.toE]
  exact C110_model (lib := lib) (encode := encode) trunc FP.binary64_sound h2 trunc' (demoPipe_alike (r _) (r _) (r _) (r _) (r _) (r _) (r _)) hm

/-! ### Where ints and floats differ -/

theorem round_two_pow (k : ℕ) (hk : k < 1000) : (XR.round ((2 : ℝ) ^ k) : XR FP.binary64) = .fin (2 ^ k) := by
  have h : B64.rndFin ((2 : ℝ) ^ k) = 2 ^ k := B64.rndFin_of_representable ⟨1, k, by norm_num, by omega, by norm_num⟩
  show XR.ofEReal (B64.rnd _) = _
  rw [B64.rnd_of_fin, h]
  · unfold XR.ofEReal
    rw [if_neg (EReal.coe_ne_top _), if_neg (EReal.coe_ne_bot _), EReal.toReal_coe]
  · rw [h, abs_of_pos (by positivity)]
    exact_mod_cast pow_lt_pow_right₀ (by norm_num : (1 : ℝ) < 2) (by omega : k < 1024)

theorem round_1200 : (XR.round ((2 : ℝ) ^ 1200) : XR FP.binary64) = .pinf := by
  show XR.ofEReal (B64.rnd _) = _
  have h3 : B64.rnd ((2 : ℝ) ^ (1024 : ℤ)) = ⊤ := by
    have : B64.rndFin ((2 : ℝ) ^ (1024 : ℤ)) = 2 ^ (1024 : ℤ) := B64.rndFin_of_representable ⟨1, 1024, by norm_num, by norm_num, by norm_num⟩
    unfold B64.rnd
    rw [this, if_pos le_rfl]
  have h1 : (2 : ℝ) ^ (1024 : ℤ) ≤ 2 ^ 1200 := by
    exact_mod_cast pow_le_pow_right₀ (by norm_num : (1 : ℝ) ≤ 2) (by norm_num : 1024 ≤ 1200)
  have h4 := FP.binary64_sound.mono h1
  have h5 : B64.rnd ((2 : ℝ) ^ 1200) = ⊤ := top_le_iff.1 (h3 ▸ h4)
  rw [h5]; rfl

theorem toFloat_int_zero : (PyNum.int 0 : PyNum FP.binary64).toFloat = .fin 0 := by
  have : (XR.round ((0 : ℤ) : ℝ) : XR FP.binary64) = .fin 0 := by
    simpa using FP.binary64_round (r := 0) 0 (by norm_num) (by norm_num)
  show (PyNum.toFloat? (.int 0) : Option (XR FP.binary64)).getD .nan = _
  simp only [PyNum.toFloat?]
  rw [this]
  rfl

theorem zero_add_flt (x : XR FP.binary64) : (ofInt 0 : PyNum FP.binary64) +ₚ .flt x = .flt (XR.add (.fin 0) x) := by
  show PyNum.add (.int 0) (.flt x) = _
  have h : (PyNum.int 0 : PyNum FP.binary64).isNeg = false := by simp [PyNum.isNeg]
  simp only [PyNum.add, toFloat_int_zero, PyNum.toFloat_flt (a := .flt x) rfl, PyNum.val, h, Bool.false_and]
  simp [PyNum.signed]

theorem normalize_dense {F : Type} [Arith F] {n : Norm} (hn : n ≠ .bad) (x : List F) {v : F} (h : denseNorms n (.ofMat [x]) = .ok [v]) :
    normalizerTransform n (.ofMat [x]) = (x.mapM (fun a => a /ₚ (if v ==ₚ ofInt 0 then ofInt 1 else v)) >>= fun y => .ok (.ofMat [y])) := by
  have e : normalizeRows (.ofMat [x] : Arr F) n = (do
      let norms := handleZeros (← denseNorms n (.ofMat [x]))
      let rs' ← (List.zip (← (Arr.ofMat [x] : Arr F).rows) norms).mapM fun p => do
        (← p.1.iter).mapM fun a => a /ₚ p.2
      return (.ofMat rs', norms)) := rfl
  simp only [normalizerTransform, normalizePure, normalizePure', issparse_ofMat,
    Bool.and_false, Bool.false_eq_true, if_false, hn, checkArray_ofMat_cons, py_ok_bind,
    show ((1 : Int) == 0) = false from rfl, show ((1 : Int) == 1) = true from rfl, Bool.or_true,
    Bool.not_true, py_pure, Bool.false_and, e, bind_assoc, rows_ofMat, h]
  simp only [handleZeros, List.map_cons, List.map_nil, List.zip_cons_cons, List.zip_nil_left, mapM_cons', List.mapM_nil, Row.iter, py_ok_bind, py_pure]
  generalize (x.mapM fun a => a /ₚ (if v ==ₚ ofInt 0 then ofInt 1 else v) : Py (List F)) = q
  cases q <;> rfl

theorem normalize_dense_error {F : Type} [Arith F] {n : Norm} (hn : n ≠ .bad) (x : List F) {r : PyErr} (h : denseNorms n (.ofMat [x]) = .error r) :
    normalizerTransform n (.ofMat [x]) = .error r := by
  have e : normalizeRows (.ofMat [x] : Arr F) n = (do
      let norms := handleZeros (← denseNorms n (.ofMat [x]))
      let rs' ← (List.zip (← (Arr.ofMat [x] : Arr F).rows) norms).mapM fun p => do
        (← p.1.iter).mapM fun a => a /ₚ p.2
      return (.ofMat rs', norms)) := rfl
  simp only [normalizerTransform, normalizePure, normalizePure', issparse_ofMat,
    Bool.and_false, Bool.false_eq_true, if_false, hn, checkArray_ofMat_cons, py_ok_bind,
    show ((1 : Int) == 0) = false from rfl, show ((1 : Int) == 1) = true from rfl, Bool.or_true,
    Bool.not_true, py_pure, Bool.false_and, e, bind_assoc, h, py_error_bind]

theorem denseNorms_one_l2 {F : Type} [Arith F] (a : F) : denseNorms .l2 (.ofMat [[a]] : Arr F) = [pySum [a *ₚ a]].mapM Arith.sqrt := rfl

/-- **C110 is false of `Normalizer`** with the `l2` norm: for the int 2⁶⁰⁰ the sum of the squares is an int too large for a float, and
its square root raises; for the equal float the sum is infinite and the answer zero. -/
theorem C110_false_l2 (trunc : PyNum FP.binary64 → Py Int) : ∃ c t,
    convert (singles trunc initXgb) (.leaf "Normalizer" (some "0.22".toList) [("norm", .str "l2"), ("copy", .bool true)]) = .ok c ∧
    (c.methods lib encode).transform = some t ∧ (equalNumbers FP.binary64).num (.int (2 ^ 600)) (.flt (.fin (2 ^ 600))) ∧
    t (.arr (.ofMat [[.int (2 ^ 600)]])) = .error .overflowError ∧
    t (.arr (.ofMat [[.flt (.fin (2 ^ 600))]])) = .ok (.arr (.ofMat [[.flt (.fin 0)]])) := by
  have hl : Learned (F := PyNum FP.binary64) "Normalizer" [("norm", .str "l2"), ("copy", .bool true)] (.normalizer .l2) :=
    .normalizer ⟨_, rfl, .bool _⟩ rfl (by simp [norms])
  obtain ⟨c, hc, e⟩ := C89_converted_behaves trunc lib encode _ _ (.single version_022 hl)
  refine ⟨c, _, hc, by rw [e]; rfl, equal_int (by norm_num) (round_two_pow 600 (by norm_num)), ?_, ?_⟩
  · have h1 : (PyNum.int (2 ^ 600) : PyNum FP.binary64) *ₚ .int (2 ^ 600) = .int (2 ^ 1200) := by
      show PyNum.int (2 ^ 600 * 2 ^ 600) = _
      rw [← pow_add]
    have h2 : pySum [PyNum.int (fp := FP.binary64) (2 ^ 1200)] = .int (2 ^ 1200) := by
      show PyNum.int (0 + 2 ^ 1200) = _
      rw [zero_add]
    have h3 : Arith.sqrt (PyNum.int (fp := FP.binary64) (2 ^ 1200)) = .error .overflowError := by
      show PyNum.sqrt _ = _
      have : (PyNum.int (fp := FP.binary64) (2 ^ 1200)).toFloat? = none := by
        have := round_1200
        simp only [PyNum.toFloat?]
        push_cast
        rw [this]
      simp [PyNum.sqrt, PyNum.asFloat, this, py_error_bind]
    show (normalizerTransform _ _ >>= _ : Py _) = _
    have h4 : denseNorms .l2 (.ofMat [[.int (2 ^ 600)]] : Arr (PyNum FP.binary64)) = .error .overflowError := by
      rw [denseNorms_one_l2, h1, h2, mapM_cons', h3]; rfl
    rw [normalize_dense_error (by simp) _ h4]
    rfl
  · have h1 : (PyNum.flt (.fin (2 ^ 600)) : PyNum FP.binary64) *ₚ .flt (.fin (2 ^ 600)) = .flt .pinf := by
      show PyNum.signed _ (XR.round (2 ^ 600 * 2 ^ 600)) = _
      rw [← pow_add, round_1200]
      simp [PyNum.signed]
    have h2 : pySum [(.flt .pinf : PyNum FP.binary64)] = .flt .pinf := by
      show ofInt 0 +ₚ PyNum.flt .pinf = _
      rw [zero_add_flt]
      rfl
    have h3 : Arith.sqrt (.flt .pinf : PyNum FP.binary64) = .ok (.flt .pinf) := by
      show PyNum.sqrt _ = _
      simp [PyNum.sqrt, PyNum.asFloat, PyNum.toFloat?, XR.sqrt, PyNum.signed, py_ok_bind]
    have h4 : ((.flt .pinf : PyNum FP.binary64) ==ₚ ofInt 0) = false := rfl
    have h5 : (.flt (.fin (2 ^ 600)) : PyNum FP.binary64) /ₚ .flt .pinf = .ok (.flt (.fin 0)) := by
      show PyNum.div _ _ = _
      simp [PyNum.div, PyNum.asFloat, PyNum.toFloat?, XR.div, PyNum.signed, PyNum.isNeg, py_ok_bind]
    show (normalizerTransform _ _ >>= _ : Py _) = _
    have h6 : denseNorms .l2 (.ofMat [[.flt (.fin (2 ^ 600))]] : Arr (PyNum FP.binary64)) = .ok [.flt .pinf] := by
      rw [denseNorms_one_l2, h1, h2, mapM_cons', h3]; rfl
    rw [normalize_dense (by simp) _ h6, mapM_cons', h4]
    simp only [Bool.false_eq_true, if_false, h5, py_ok_bind]
    rfl

theorem B64.absorbs_nat (n : ℕ) (hn : n < 128) : B64.rndFin ((2 : ℝ) ^ 60 + n) = 2 ^ 60 := by
  have hn' : (n : ℝ) < 128 := by exact_mod_cast hn
  have h0 : (0 : ℝ) ≤ n := by positivity
  have hlog : Int.log 2 |(2 : ℝ) ^ 60 + n| = 60 := by
    rw [abs_of_pos (by positivity)]
    have : ((2 : ℝ) ^ 60 + n) = ((2 ^ 60 + n : ℕ) : ℝ) := by norm_num
    rw [this, Int.log_natCast]
    have : Nat.log 2 (2 ^ 60 + n) = 60 := by
      rw [Nat.log_eq_iff (by norm_num)]
      constructor
      · omega
      · norm_num
        omega
    rw [this]
    rfl
  have hl : B64.lsb ((2 : ℝ) ^ 60 + n) = 8 := by
    unfold B64.lsb
    rw [hlog]
    norm_num
  unfold B64.rndFin
  rw [hl]
  have ht : ((2 : ℝ) ^ 60 + n) * 2 ^ (-8 : ℤ) = ((2 ^ 52 : ℤ) : ℝ) + n / 256 := by norm_num; ring
  rw [ht]
  have hf : Int.fract (((2 ^ 52 : ℤ) : ℝ) + n / 256) = n / 256 := by
    rw [Int.fract_intCast_add, Int.fract_eq_self.2 ⟨by positivity, by linarith⟩]
  have hfl : ⌊((2 ^ 52 : ℤ) : ℝ) + n / 256⌋ = 2 ^ 52 := by
    rw [Int.floor_intCast_add, Int.floor_eq_zero_iff.2 ⟨by positivity, by linarith⟩]
    norm_num
  unfold B64.rne
  rw [hf, if_pos (by linarith), hfl]
  norm_num

theorem round_absorbs (n : ℕ) (hn : n < 128) : (XR.round ((2 : ℝ) ^ 60 + n) : XR FP.binary64) = .fin (2 ^ 60) :=
  round_small (B64.absorbs_nat n hn) (by rw [abs_of_pos (by positivity)])

/-- a number between 0 and 1 -/
theorem round_unit {q : ℝ} (h0 : 0 ≤ q) (h1 : q ≤ 1) : ∃ r, (XR.round q : XR FP.binary64) = .fin r ∧ (q ≤ 1 - (2 : ℝ) ^ (-53 : ℤ) → r < 1) := by
  have hs := FP.binary64_sound
  have e0 : FP.binary64.rnd 0 = ((0 : ℝ) : EReal) := hs.zero
  have e1 : FP.binary64.rnd 1 = ((1 : ℝ) : EReal) := hs.one
  have m0 := hs.mono h0
  have m1 := hs.mono h1
  rw [e0] at m0
  rw [e1] at m1
  have hx : ∃ r : ℝ, FP.binary64.rnd q = (r : EReal) := by
    refine ⟨(FP.binary64.rnd q).toReal, (EReal.coe_toReal ?_ ?_).symm⟩
    · intro h; rw [h] at m1; exact absurd (top_le_iff.1 m1) (EReal.coe_ne_top _)
    · intro h; rw [h] at m0; exact absurd (le_bot_iff.1 m0) (EReal.coe_ne_bot _)
  obtain ⟨r, hr⟩ := hx
  refine ⟨r, by show XR.ofEReal _ = _; rw [hr, XR.ofEReal_coe], fun hq => ?_⟩
  have hrep : B64.rndFin (1 - (2 : ℝ) ^ (-53 : ℤ)) = 1 - 2 ^ (-53 : ℤ) :=
    B64.rndFin_of_representable ⟨2 ^ 53 - 1, -53, by norm_num, by norm_num, by norm_num⟩
  have e2 : FP.binary64.rnd (1 - (2 : ℝ) ^ (-53 : ℤ)) = ((1 - (2 : ℝ) ^ (-53 : ℤ) : ℝ) : EReal) := by
    have := B64.rnd_of_fin (x := 1 - (2 : ℝ) ^ (-53 : ℤ)) (by
      rw [hrep, abs_of_pos (by norm_num)]
      refine lt_of_lt_of_le (b := 1) (by norm_num) ?_
      have := B64.pow_mono (a := 0) (b := 1024) (by norm_num)
      simpa using this)
    rw [hrep] at this
    exact this
  have m2 := hs.mono hq
  rw [e2, hr, EReal.coe_le_coe_iff] at m2
  have : (0 : ℝ) < 2 ^ (-53 : ℤ) := by positivity
  linarith

/-- **C110 is false of `Normalizer`** with the `l1` norm: the ints 2⁶⁰, 100, 100 and 56 have the exact sum 2⁶⁰ + 256, the equal floats
the rounded sum 2⁶⁰; the first entry becomes less than 1 and 1. -/
theorem C110_false_l1 (trunc : PyNum FP.binary64 → Py Int) : ∃ c t a b as bs,
    convert (singles trunc initXgb) (.leaf "Normalizer" (some "0.22".toList) [("norm", .str "l1"), ("copy", .bool true)]) = .ok c ∧
    (c.methods lib encode).transform = some t ∧
    List.Forall₂ (equalNumbers FP.binary64).num [.int (2 ^ 60), .int 100, .int 100, .int 56]
      [.flt (.fin (2 ^ 60)), .flt (.fin 100), .flt (.fin 100), .flt (.fin 56)] ∧
    t (.arr (.ofMat [[.int (2 ^ 60), .int 100, .int 100, .int 56]])) = .ok (.arr (.ofMat [a :: as])) ∧
    t (.arr (.ofMat [[.flt (.fin (2 ^ 60)), .flt (.fin 100), .flt (.fin 100), .flt (.fin 56)]])) = .ok (.arr (.ofMat [b :: bs])) ∧
    a.val ≠ b.val := by
  have hl : Learned (F := PyNum FP.binary64) "Normalizer" [("norm", .str "l1"), ("copy", .bool true)] (.normalizer .l1) :=
    .normalizer ⟨_, rfl, .bool _⟩ rfl (by simp [norms])
  obtain ⟨c, hc, e⟩ := C89_converted_behaves trunc lib encode _ _ (.single version_022 hl)
  have small : ∀ n : ℕ, n < 128 → (equalNumbers FP.binary64).num (.int n) (.flt (.fin n)) := by
    intro n hn
    refine equal_int (by norm_num) ((FP.binary64_round (r := (n : ℝ)) n (by norm_num) ?_).trans (by norm_num))
    have : (n : ℤ) < 128 := by exact_mod_cast hn
    rw [abs_of_nonneg (by positivity)]
    omega
  -- the ints
  have i1 : denseNorms .l1 (.ofMat [[.int (2 ^ 60), .int 100, .int 100, .int 56]] : Arr (PyNum FP.binary64)) = .ok [.int (2 ^ 60 + 256)] := rfl
  have i2 : ((.int (2 ^ 60 + 256) : PyNum FP.binary64) ==ₚ ofInt 0) = false := by
    show XR.eq (.fin _) (.fin _) = false
    norm_num [XR.eq]
  have i3 : ∀ n : ℕ, n ≤ 2 ^ 60 → ∃ r, (.int n : PyNum FP.binary64) /ₚ .int (2 ^ 60 + 256) = .ok (.flt (.fin r)) ∧ r < 1 := by
    intro n hn
    have hn' : (n : ℝ) ≤ 2 ^ 60 := by exact_mod_cast hn
    obtain ⟨r, h1, h2⟩ := round_unit (q := (n : ℝ) / (2 ^ 60 + 256)) (by positivity) (by rw [div_le_one (by positivity)]; linarith)
    have h3 := h2 (by
      rw [div_le_iff₀ (by positivity)]
      norm_num
      linarith)
    refine ⟨r, ?_, h3⟩
    show PyNum.div _ _ = _
    have h4 : (XR.round (((n : ℤ) : ℝ) / ((2 ^ 60 + 256 : ℤ) : ℝ)) : XR FP.binary64) = .fin r := by
      rw [← h1]; norm_num
    simp only [PyNum.div]
    rw [if_neg (by norm_num), h4]
    simp [PyNum.signed]
  obtain ⟨r1, j1, k1⟩ := i3 (2 ^ 60) le_rfl
  obtain ⟨r2, j2, -⟩ := i3 100 (by norm_num)
  obtain ⟨r3, j3, -⟩ := i3 56 (by norm_num)
  -- the floats
  have ab : ∀ n : ℕ, n < 128 → (.flt (.fin (2 ^ 60)) : PyNum FP.binary64) +ₚ .flt (.fin n) = .flt (.fin (2 ^ 60)) := by
    intro n hn
    show PyNum.signed _ (XR.round _) = _
    rw [round_absorbs n hn]
    simp [PyNum.signed]
  have a0 : (ofInt 0 : PyNum FP.binary64) +ₚ .flt (.fin (2 ^ 60)) = .flt (.fin (2 ^ 60)) := by
    rw [zero_add_flt]
    show PyNum.flt (XR.round _) = _
    rw [zero_add, round_two_pow 60 (by norm_num)]
  have f1 : denseNorms .l1 (.ofMat [[.flt (.fin (2 ^ 60)), .flt (.fin 100), .flt (.fin 100), .flt (.fin 56)]] : Arr (PyNum FP.binary64)) =
      .ok [.flt (.fin (2 ^ 60))] := by
    show (Except.ok [(((ofInt 0 +ₚ PyNum.flt (.fin |2 ^ 60|)) +ₚ .flt (.fin |100|)) +ₚ .flt (.fin |100|)) +ₚ .flt (.fin |56|)] : Py (List (PyNum FP.binary64))) = _
    have b1 := ab 100 (by norm_num)
    have b2 := ab 56 (by norm_num)
    norm_num at b1 b2 ⊢
    norm_num at a0
    rw [a0, b1, b1, b2]
  have f2 : ((.flt (.fin (2 ^ 60)) : PyNum FP.binary64) ==ₚ ofInt 0) = false := by
    show XR.eq (.fin _) (.fin _) = false
    norm_num [XR.eq]
  have f3 : ∀ x : ℝ, (.flt (.fin x) : PyNum FP.binary64) /ₚ .flt (.fin (2 ^ 60)) =
      .ok (.signed (PyNum.isNeg (.flt (.fin x) : PyNum FP.binary64) != PyNum.isNeg (.flt (.fin (2 ^ 60)) : PyNum FP.binary64)) (XR.round (x / 2 ^ 60))) := by
    intro x
    show PyNum.div _ _ = _
    simp only [PyNum.div, PyNum.asFloat, PyNum.toFloat?, py_ok_bind, XR.div]
    rw [if_neg (by norm_num)]
    rfl
  have f4 : (.flt (.fin (2 ^ 60)) : PyNum FP.binary64) /ₚ .flt (.fin (2 ^ 60)) = .ok (.flt (.fin 1)) := by
    have : (XR.round 1 : XR FP.binary64) = .fin 1 := FP.binary64_round (r := 1) 1 (by norm_num) (by norm_num)
    rw [f3, div_self (by norm_num), this]
    simp [PyNum.signed]
  obtain ⟨y1, g1⟩ : ∃ y, (.flt (.fin 100) : PyNum FP.binary64) /ₚ .flt (.fin (2 ^ 60)) = .ok y := ⟨_, f3 100⟩
  obtain ⟨y2, g2⟩ : ∃ y, (.flt (.fin 56) : PyNum FP.binary64) /ₚ .flt (.fin (2 ^ 60)) = .ok y := ⟨_, f3 56⟩
  refine ⟨c, _, .flt (.fin r1), .flt (.fin 1), [.flt (.fin r2), .flt (.fin r2), .flt (.fin r3)], [y1, y1, y2], hc, by rw [e]; rfl, ?_, ?_, ?_, ?_⟩
  · refine .cons (equal_int (by norm_num) (round_two_pow 60 (by norm_num))) (.cons (small 100 (by norm_num)) (.cons (small 100 (by norm_num)) (.cons (small 56 (by norm_num)) .nil)))
  · show (normalizerTransform _ _ >>= _ : Py _) = _
    rw [normalize_dense (by simp) _ i1, i2]
    simp only [Bool.false_eq_true, if_false]
    rw [show ((2 ^ 60 : ℕ) : ℤ) = 2 ^ 60 by norm_num] at j1
    rw [show ((100 : ℕ) : ℤ) = 100 from rfl] at j2
    rw [show ((56 : ℕ) : ℤ) = 56 from rfl] at j3
    rw [mapM_cons', mapM_cons', mapM_cons', mapM_cons', j1, j2, j3]
    rfl
  · show (normalizerTransform _ _ >>= _ : Py _) = _
    rw [normalize_dense (by simp) _ f1, f2]
    simp only [Bool.false_eq_true, if_false]
    rw [mapM_cons', mapM_cons', mapM_cons', mapM_cons', f4, g1, g2]
    rfl
  · simp only [PyNum.val]
    intro h
    cases h
    exact lt_irrefl _ k1

/-- a regression tree over Python numbers with one split -/
noncomputable def splitTree (thr a b : PyNum fp) : SkTree (PyNum fp) := .split [[a]] 0 thr (.leaf [[a]]) (.leaf [[b]])

noncomputable def treeAttrs {F : Type} [Arith F] (s : SkTree F) : Attrs F :=
  [("tree_", .obj "Tree" none ["children_left", "children_right", "feature", "threshold", "value"]
    [.ndarray (vints s.arrays.left), .ndarray (vints s.arrays.right), .ndarray (vints s.arrays.feature),
     .ndarray (vnums s.arrays.threshold), .ndarray (.list (s.arrays.value.map vmat))])]

/-- **Ints are compared exactly**: a tree that splits at 2⁶⁰ sends the int 2⁶⁰ + 1 to the right, and `float(2**60 + 1)`, which is 2⁶⁰, to
the left.  So a request is not the same after conversion to floats. -/
theorem C110_large_ints (trunc : PyNum FP.binary64 → Py Int) (a b : PyNum FP.binary64) : ∃ c p,
    convert (singles trunc initXgb) (.leaf "DecisionTreeRegressor" (some "0.22".toList) (treeAttrs (splitTree (.flt (.fin (2 ^ 60))) a b))) = .ok c ∧
    (c.methods lib encode).predict = some p ∧ (PyNum.int (2 ^ 60 + 1) : PyNum FP.binary64).toFloat? = some (.fin (2 ^ 60)) ∧
    p (.arr (.ofMat [[.int (2 ^ 60 + 1)]])) = .ok [.float b] ∧ p (.arr (.ofMat [[.flt (.fin (2 ^ 60))]])) = .ok [.float a] := by
  obtain ⟨t, h1, h2, h3⟩ := Tree.ofSklearn_encodes (splitTree (.flt (.fin (2 ^ 60))) a b) (by simp [splitTree, SkTree.values]) none
    [PVal.int (F := PyNum FP.binary64) 0, .int 1]
  have hl : Learned "DecisionTreeRegressor" (treeAttrs (splitTree (.flt (.fin (2 ^ 60))) a b)) (.treeRegressor t) :=
    .treeRegressor (cs := none) (.inl rfl) ⟨_, _, _, _, rfl, rfl, rfl, rfl, rfl, rfl⟩ (.inl rfl) h1
  obtain ⟨c, hc, e⟩ := C89_converted_behaves trunc lib encode _ _ (.single version_022 hl)
  refine ⟨c, _, hc, by rw [e]; rfl, ?_, ?_, ?_⟩
  · have : (XR.round ((2 ^ 60 + 1 : ℤ) : ℝ) : XR FP.binary64) = .fin (2 ^ 60) := by
      rw [← round_absorbs 1 (by norm_num)]
      norm_num
    simp only [PyNum.toFloat?]
    rw [this]
  · have hd : (splitTree (.flt (.fin (2 ^ 60))) a b).first.eval (Row.list [PyNum.int (fp := FP.binary64) (2 ^ 60 + 1)]).look = some [b] := by
      have : ((.int (2 ^ 60 + 1) : PyNum FP.binary64) ≤ₚ .flt (.fin (2 ^ 60))) = false := by
        show (XR.le (.fin _) (.fin _)) = false
        norm_num [XR.le, XR.lt, XR.eq]
      simp only [splitTree, SkTree.first, DTree.eval, Row.look, List.getElem?_cons_zero]
      rw [this]
      rfl
    have := C10_regressor_predict t _ h2 [[.int (2 ^ 60 + 1)]] (by simp) (fun _ => [b]) (by simpa using hd) (fun _ => b) (by simp)
    show (t.predictReg _ >>= _ : Py _) = _
    rw [this]
    rfl
  · have hd : (splitTree (.flt (.fin (2 ^ 60))) a b).first.eval (Row.list [PyNum.flt (fp := FP.binary64) (.fin (2 ^ 60))]).look = some [a] := by
      have : ((.flt (.fin (2 ^ 60)) : PyNum FP.binary64) ≤ₚ .flt (.fin (2 ^ 60))) = true := by
        show (XR.le (.fin _) (.fin _)) = true
        simp [XR.le, XR.eq]
      simp only [splitTree, SkTree.first, DTree.eval, Row.look, List.getElem?_cons_zero]
      rw [this]
      rfl
    have := C10_regressor_predict t _ h2 [[.flt (.fin (2 ^ 60))]] (by simp) (fun _ => [a]) (by simpa using hd) (fun _ => a) (by simp)
    show (t.predictReg _ >>= _ : Py _) = _
    rw [this]
    rfl

end PurePredict
