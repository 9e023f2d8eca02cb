import Verif.Lemmas.Idle
import Verif.Props.C113
import Verif.Props.C108
/-
C115: parts with nothing to do may be left out.
-/
namespace PurePredict
open Spec
variable {lib : String → TextLib} {encode : Str → List Nat} {F : Type} [Arith F]

/-- **C115**, with all rounding: a fitted object and the same object without parts that have nothing to do are both converted, have the same
methods, and on the requests in question both give the same answer, or both raise. -/
theorem C115_trimmed (trunc : F → Py Int) {P : Data F → Prop} {o o' : SkObj (Attrs F) (PVal F) F} (h : Trimmed lib encode P o o')
    {f : Methods F} (hb : Behaves lib encode o f) :
    ∃ c c', convert (singles trunc initXgb) o = .ok c ∧ convert (singles trunc initXgb) o' = .ok c' ∧
      AgreeFor P (c.methods lib encode) (c'.methods lib encode) := by
  obtain ⟨f', hb', hr⟩ := Trim.behaves_trimmed h hb
  obtain ⟨c, hc, rfl⟩ := C89_converted_behaves trunc lib encode o f hb
  obtain ⟨c', hc', rfl⟩ := C89_converted_behaves trunc lib encode o' f' hb'
  exact ⟨c, c', hc, hc', hr⟩

/-- A transformer with nothing to do for a request returns the request. -/
theorem C115_idle (trunc : F → Py Int) {c : String} {v : Option (List Char)} {a : Attrs F} {s : Single F} (hv : ReadableVersion v) (hl : Learned c a s)
    {X : Data F} (h : Idle s X) :
    ∃ k t, convert (singles trunc initXgb) (.leaf c v a) = .ok k ∧ (k.methods lib encode).transform = some t ∧ t X = .ok X := by
  obtain ⟨k, hk, e⟩ := C89_converted_behaves trunc lib encode _ _ (.single hv hl)
  obtain ⟨t, h1, h2⟩ := Trim.idle_id (lib := lib) (encode := encode) h
  exact ⟨k, t, hk, by rw [e]; exact h1, h2⟩

/-! ### Offsets 0 and factors 1 change nothing, with all rounding -/

section unit
variable {fp : FP}

/-- Subtracting 0, dividing by 1, and multiplying by 1 and adding 0 return every float (infinities and NaN included). -/
theorem C115_unit (hs : fp.Sound) {x : XR fp} (hx : XR.Rep x) :
    (x -ₚ ofInt 0) = x ∧ Arith.div x (ofInt 1) = .ok x ∧ ((x *ₚ ofInt 1) +ₚ ofInt 0) = x := by
  have h0 : (ofInt 0 : XR fp) = .fin 0 := by
    show XR.round ((0 : ℤ) : ℝ) = _
    rw [Int.cast_zero]
    exact XR.round_rep (by exact_mod_cast hs.zero)
  have h1 : (ofInt 1 : XR fp) = .fin 1 := by
    show XR.round ((1 : ℤ) : ℝ) = _
    rw [Int.cast_one]
    exact XR.round_rep (by exact_mod_cast hs.one)
  rw [h0, h1]
  show XR.sub x (.fin 0) = x ∧ XR.div x (.fin 1) = .ok x ∧ XR.add (XR.mul x (.fin 1)) (.fin 0) = x
  cases x with
  | fin r =>
    have hr : (XR.round r : XR fp) = .fin r := XR.round_rep hx
    refine ⟨?_, ?_, ?_⟩
    · simp [XR.sub, XR.neg, XR.add, hr]
    · simp [XR.div, hr]
    · simp [XR.mul, hr, XR.add]
  | pinf => refine ⟨?_, ?_, ?_⟩ <;> simp [XR.sub, XR.neg, XR.add, XR.div, XR.mul, XR.infMul]
  | ninf => refine ⟨?_, ?_, ?_⟩ <;> simp [XR.sub, XR.neg, XR.add, XR.div, XR.mul, XR.infMul]
  | nan => refine ⟨?_, ?_, ?_⟩ <;> simp [XR.sub, XR.neg, XR.add, XR.div, XR.mul]

theorem forall₂_replicate {α β : Type} {R : α → β → Prop} {r : List α} {c : β} (h : ∀ x ∈ r, R x c) : List.Forall₂ R r (List.replicate r.length c) := by
  induction r with
  | nil => exact .nil
  | cons x r ih => exact .cons (h x (by simp)) (ih fun y hy => h y (by simp [hy]))

/-- A scaler with means 0 and scales 1 has nothing to do for requests of as many columns. -/
theorem C115_unit_scaler (hs : fp.Sound) {w : Nat} (b b' : Bool) {M : List (List (XR fp))} (hM : M ≠ []) (hw : ∀ r ∈ M, r.length = w ∧ ∀ x ∈ r, XR.Rep x) :
    Idle (.standard ⟨b, b', some (List.replicate w (ofInt 1)), some (List.replicate w (ofInt 0))⟩) (.arr (.ofMat M)) := by
  refine .standard hM (fun _ => ⟨_, rfl, fun r hr => ?_⟩) fun _ => ⟨_, rfl, fun r hr => ?_⟩
  · rw [← (hw r hr).1]
    exact forall₂_replicate fun x hx => (C115_unit hs ((hw r hr).2 x hx)).1
  · rw [← (hw r hr).1]
    exact forall₂_replicate fun x hx => (C115_unit hs ((hw r hr).2 x hx)).2.1

end unit

/-! ### A concrete case: imputer, scaler, classifier -/

/-- a fitted imputer without indicator -/
def imputerOf (stats : List F) (missing : F) : Attrs F :=
  [("statistics_", .ndarray (vnums stats)), ("strategy", .str "mean"), ("add_indicator", .bool false), ("missing_values", .float missing), ("indicator_", .none)]

theorem imputerOf_learned (stats : List F) (missing : F) :
    Learned "SimpleImputer" (imputerOf stats missing) (.imputer (.ofFitted stats (decide ("mean" = "constant")) false missing none)) :=
  .imputer (strategy := "mean") rfl rfl (.inl rfl) (.inl rfl) (.inr rfl)

/-- dense requests of one column without missing values, in double precision -/
def Complete (X : Data (XR FP.binary64)) : Prop := ∃ M, X = .arr (.ofMat M) ∧ M ≠ [] ∧ ∀ r ∈ M, r.length = 1 ∧ ∀ x ∈ r, x ≠ .nan ∧ XR.Rep x

/-- Imputer and unit scaler before a logistic regression, in a pipeline in a pipeline; only the logistic regression remains. -/
theorem bareLogistic (stat : XR FP.binary64) (hst : stat ≠ .nan) : let v := some "0.22".toList
    let clf : SkObj (Attrs (XR FP.binary64)) (PVal (XR FP.binary64)) (XR FP.binary64) :=
      .leaf "LogisticRegression" v (linearOf [.fin 1, .fin 2, .fin 3] [.fin 4, .fin 5, .fin 6] [.str "a", .str "b", .str "c"])
    Trimmed lib encode Complete
      (.pipeline v ([] ++ ("prepare", .pipeline v [("impute", .leaf "SimpleImputer" v (imputerOf [stat] .nan)),
        ("scale", .leaf "StandardScaler" v [("with_mean", .bool true), ("with_std", .bool true), ("scale_", .ndarray (vnums [ofInt 1])), ("mean_", .ndarray (vnums [ofInt 0]))])]) ::
        [("clf", clf)])) clf := by
  intro v clf
  refine .trans (.fewer (.nested (by simp)) fun _ _ => trivial) ?_
  refine .trans (.fewer (.idle (pre := []) (imputerOf_learned _ _) (by simp)) ?_) ?_
  · rintro X ⟨M, rfl, hM, hw⟩ Y hY
    cases hY
    refine .imputer hM rfl (by simp [SimpleImputer.ofFitted]) (.inr ?_) fun r hr => ⟨(hw r hr).1, fun x hx => ⟨fun _ => ?_, fun h => ?_⟩⟩
    · intro t ht
      obtain rfl : t = stat := by simpa [SimpleImputer.ofFitted] using ht
      cases t <;> first | rfl | exact absurd rfl hst
    · have := ((hw r hr).2 x hx).1
      cases x <;> first | rfl | exact absurd rfl this
    · exact absurd h (by simp [SimpleImputer.ofFitted, Arith.isnan, XR.isnan])
  refine .trans (.fewer (.idle (pre := []) (.standard (s := ⟨true, true, some [ofInt 1], some [ofInt 0]⟩) rfl rfl rfl rfl) (by simp)) ?_) ?_
  · rintro X ⟨M, rfl, hM, hw⟩ Y hY
    cases hY
    exact C115_unit_scaler FP.binary64_sound (w := 1) true true hM fun r hr => ⟨(hw r hr).1, fun x hx => ((hw r hr).2 x hx).2⟩
  · exact .fewer .only fun _ _ => trivial

/-- The whole statement for it. -/
example (trunc : XR FP.binary64 → Py Int) :=
  C115_trimmed (lib := lib) (encode := encode) trunc (bareLogistic (.fin 3) (by simp))
    (.pipeline (es := [_, _]) version_022 (.cons (.pipeline (es := [_, _]) version_022 (.cons (.single version_022 (imputerOf_learned _ _))
      (.cons (.single version_022 (.standard (s := ⟨true, true, some [ofInt 1], some [ofInt 0]⟩) rfl rfl rfl rfl)) .nil)))
      (.cons (.single version_022 (linearOf_learned (k := .logistic) (by simp [linearClasses]) _ _ (strings_plain ["a", "b", "c"]))) .nil)))

/-- such requests -/
example : Complete (.arr (.ofMat [[.fin 0], [.pinf]])) := by
  refine ⟨_, rfl, by simp, fun r hr => ?_⟩
  simp only [List.mem_cons, List.not_mem_nil, or_false] at hr
  rcases hr with rfl | rfl
  · refine ⟨rfl, fun x hx => ?_⟩
    simp only [List.mem_cons, List.not_mem_nil, or_false] at hx
    subst hx
    exact ⟨by simp, FP.binary64_sound.zero⟩
  · refine ⟨rfl, fun x hx => ?_⟩
    simp only [List.mem_cons, List.not_mem_nil, or_false] at hx
    subst hx
    exact ⟨by simp, trivial⟩

/-- A bagging classifier whose members were given all columns, in order. -/
example (ms : List (SkObj (Attrs F) (PVal F) F)) (cs : List (PVal F)) : Trimmed lib encode (DenseOf 3)
    (.ensemble .bagging (some "0.22".toList) (some (List.replicate ms.length [0, 1, 2])) cs ms) (.ensemble .bagging (some "0.22".toList) none cs ms) :=
  .columns (by simp) fun cols hc => by rw [List.eq_of_mem_replicate hc]; rfl

/-- A union of one transformer: for what it leaves alone, it gives one row per record. -/
theorem C115_one_row_each {c : String} {v : Option (List Char)} {a : Attrs F} {s : Single F} (hl : Learned c a s) {M : List (List F)} (hM : M ≠ [])
    (h : Idle s (.arr (.ofMat M))) : OneRowEach lib encode (.leaf c v a) (.arr (.ofMat M)) := by
  refine ⟨M.length, ⟨by simp, by simpa using hM⟩, fun f t Z hf ht hZ => ?_⟩
  obtain ⟨rfl, _⟩ := leaf_behaves hl hf
  obtain ⟨t', h1, h2⟩ := Trim.idle_id (lib := lib) (encode := encode) h
  rw [h1] at ht
  cases ht
  rw [h2] at hZ
  cases hZ
  exact ⟨M, rfl, rfl⟩

/-! ### What is not idle -/

/-- A scaler with mean 0 and scale 1 for one column: of a record of two columns it keeps the first. -/
theorem C115_wide_record {fp : FP} (hs : fp.Sound) {x y : XR fp} (hx : XR.Rep x) :
    (⟨true, true, some [ofInt 1], some [ofInt 0]⟩ : StandardScaler (XR fp)).transform (.ofMat [[x, y]]) = .ok (.ofMat [[x]]) := by
  have h := C115_unit hs hx
  have e1 : columnwise [(ofInt 0 : XR fp)] (fun a b => .ok (a -ₚ b)) [.list [x, y]] = .ok [.list [x -ₚ ofInt 0]] := rfl
  have e2 : columnwise [(ofInt 1 : XR fp)] Arith.div [.list [x]] = (do return [.list [← Arith.div x (ofInt 1)]]) := by
    simp only [columnwise, mapM_cons', List.length_cons, List.length_nil, List.range_succ, List.range_zero, List.nil_append]
    show _ = _
    cases hd : Arith.div x (ofInt 1) <;> simp [Row.getItem, mapM_cons', hd]
  simp only [StandardScaler.transform, checkArray, Arr.ofMat, List.map_cons, List.map_nil, List.length_cons, List.length_nil]
  simp [Arr.rows, notNone, e1, h.1, e2, h.2.1]

/-- An imputer refuses every sparse request, also one with nothing to impute. -/
theorem C115_sparse_request (s : SimpleImputer F) (rs : List (Dict Int F)) (size : Option Nat) (dt : DType) :
    s.transform (.sparse rs size dt) = .error .valueError := rfl

end PurePredict
