import Verif.Props.C26
import Verif.Lemmas.DirectionText
import Verif.Props.C110
import Verif.Props.C113
/-
C119: only the direction of a record counts.
-/
namespace PurePredict
open Spec
variable {lib : String → TextLib} {encode : Str → List Nat}

/-- **C119**, records, in exact arithmetic: where a step normalises the records (or a linear classifier without intercept gives the labels), multiplying each
record by a positive number of its own changes no answer of any method. -/
theorem C119_direction (trunc : Ex → Py Int) {o : SkObj (Attrs Ex) (PVal Ex) Ex} (h : Directed o) {f : Methods Ex} (hb : Behaves lib encode o f) :
    ∃ k, convert (singles trunc initXgb) o = .ok k ∧ ∀ X X', Stretched X X' → AnswersBoth (k.methods lib encode) X X' := by
  obtain ⟨k, hk, rfl⟩ := C89_converted_behaves trunc lib encode o f hb
  exact ⟨k, hk, fun X X' hX => Dir.behaves_direct h hb X X' hX⟩

/-- **C119**, documents, in exact arithmetic: where word counts are normalised, repeating each document any number of times changes no answer of any method. -/
theorem C119_repeated (trunc : Ex → Py Int) {c : Char} {o : SkObj (Attrs Ex) (PVal Ex) Ex} (h : DirectedText lib c o) {f : Methods Ex} (hb : Behaves lib encode o f) :
    ∃ k, convert (singles trunc initXgb) o = .ok k ∧ ∀ X X', RepeatedDocs c X X' → AnswersBoth (k.methods lib encode) X X' := by
  obtain ⟨k, hk, rfl⟩ := C89_converted_behaves trunc lib encode o f hb
  exact ⟨k, hk, fun X X' hX => Dir.behaves_text h hb X X' hX⟩

/-! ### Where the length counts -/

theorem normalizer_learned {F : Type} [Arith F] {s : String} {n : Norm} (h : (s, n) ∈ norms) :
    Learned (F := F) "Normalizer" [("norm", .str s), ("copy", .bool true)] (.normalizer n) :=
  .normalizer ⟨_, rfl, .bool _⟩ rfl h

/-- **C119 is false of the norm `max`**: the code takes the greatest value, not the greatest absolute value, and where it is 0 the record is left as it is. -/
theorem C119_false_max (trunc : Ex → Py Int) : ∃ k t, convert (singles trunc initXgb) (.leaf "Normalizer" (some "0.22".toList) [("norm", .str "max"), ("copy", .bool true)]) = .ok k ∧
    (k.methods lib encode).transform = some t ∧
    t (.arr (.ofMat [[.fin (-1), .fin 0]])) = .ok (.arr (.ofMat [[.fin (-1), .fin 0]])) ∧
    t (.arr (.ofMat [[.fin (-2), .fin 0]])) = .ok (.arr (.ofMat [[.fin (-2), .fin 0]])) := by
  obtain ⟨k, hk, e⟩ := C89_converted_behaves (F := Ex) trunc lib encode _ _ (.single version_022 (normalizer_learned (s := "max") (n := .max) (by simp [norms])))
  have one : (ofInt 1 : Ex) = .fin 1 := by rw [Dir.ofInt_fin]; simp
  have main : ∀ x : ℝ, x < 0 → normalizerTransform .max (.ofMat [[.fin x, .fin 0]] : Arr Ex) = .ok (.ofMat [[.fin x, .fin 0]]) := by
    intro x hx
    have h : denseNorms .max (.ofMat [[.fin x, .fin 0]] : Arr Ex) = .ok [.fin 0] := by
      show (do let v ← pyMax ([.fin x, .fin 0] : List Ex); return [v] : Py (List Ex)) = _
      have : Arith.lt (.fin x : Ex) (.fin 0) = true := by
        show decide _ = true
        simpa using hx
      simp [pyMax, pyMaxPos, maxScan, this]
    have z : ((.fin 0 : Ex) ==ₚ ofInt 0) = true := by
      rw [Dir.ofInt_fin]
      show decide _ = true
      simp
    have d : ∀ y : ℝ, Arith.div (.fin y : Ex) (.fin 1) = .ok (.fin y) := by
      intro y
      show XR.div _ _ = _
      simp [XR.div, XR.round_exact]
    rw [normalize_dense (by simp) _ h, mapM_cons', mapM_cons', z]
    simp only [if_true, one, d, py_ok_bind, List.mapM_nil]
    rfl
  refine ⟨k, _, hk, by rw [e]; rfl, ?_, ?_⟩
  · show (normalizerTransform _ _ >>= _ : Py _) = _
    rw [main _ (by norm_num)]
    rfl
  · show (normalizerTransform _ _ >>= _ : Py _) = _
    rw [main _ (by norm_num)]
    rfl

/-- **C119 is false in double precision**: the square of 2⁶⁰⁰ is infinite, and the record becomes zero. -/
theorem C119_false_overflow (trunc : XR FP.binary64 → Py Int) : ∃ k t,
    convert (singles trunc initXgb) (.leaf "Normalizer" (some "0.22".toList) [("norm", .str "l2"), ("copy", .bool true)]) = .ok k ∧
    (k.methods lib encode).transform = some t ∧
    t (.arr (.ofMat [[.fin 1]])) = .ok (.arr (.ofMat [[.fin 1]])) ∧ t (.arr (.ofMat [[.fin (2 ^ 600)]])) = .ok (.arr (.ofMat [[.fin 0]])) := by
  obtain ⟨k, hk, e⟩ := C89_converted_behaves (F := XR FP.binary64) trunc lib encode _ _ (.single version_022 (normalizer_learned (s := "l2") (n := .l2) (by simp [norms])))
  have z : (XR.round 0 : XR FP.binary64) = .fin 0 := by simpa using FP.binary64_round (r := 0) 0 (by norm_num) (by norm_num)
  have zz : (ofInt 0 : XR FP.binary64) = .fin 0 := by
    show XR.round _ = _
    simpa using z
  have o : (XR.round 1 : XR FP.binary64) = .fin 1 := by simpa using round_two_pow 0 (by norm_num)
  refine ⟨k, _, hk, by rw [e]; rfl, ?_, ?_⟩
  · have h : denseNorms .l2 (.ofMat [[.fin 1]] : Arr (XR FP.binary64)) = .ok [.fin 1] := by
      have h1 : (.fin 1 : XR FP.binary64) *ₚ .fin 1 = .fin 1 := by
        show XR.round (1 * 1) = _
        rw [one_mul, o]
      have h2 : pySum [(.fin 1 : XR FP.binary64)] = .fin 1 := by
        show ofInt 0 +ₚ _ = _
        rw [zz]
        show XR.round (0 + 1) = _
        rw [zero_add, o]
      have h3 : Arith.sqrt (.fin 1 : XR FP.binary64) = .ok (.fin 1) := by
        show XR.sqrt _ = _
        simp [XR.sqrt, o]
      rw [denseNorms_one_l2, h1, h2, mapM_cons', h3]; rfl
    have h4 : ((.fin 1 : XR FP.binary64) ==ₚ ofInt 0) = false := by
      rw [zz]
      show decide _ = false
      simp
    have h5 : Arith.div (.fin 1 : XR FP.binary64) (.fin 1) = .ok (.fin 1) := by
      show XR.div _ _ = _
      simp [XR.div, o]
    show (normalizerTransform _ _ >>= _ : Py _) = _
    rw [normalize_dense (by simp) _ h, mapM_cons', h4]
    simp only [Bool.false_eq_true, if_false, h5, py_ok_bind]
    rfl
  · have h : denseNorms .l2 (.ofMat [[.fin (2 ^ 600)]] : Arr (XR FP.binary64)) = .ok [.pinf] := by
      have h1 : (.fin (2 ^ 600) : XR FP.binary64) *ₚ .fin (2 ^ 600) = .pinf := by
        show XR.round (2 ^ 600 * 2 ^ 600) = _
        rw [← pow_add, round_1200]
      have h2 : pySum [(.pinf : XR FP.binary64)] = .pinf := by
        show ofInt 0 +ₚ _ = _
        rw [zz]
        rfl
      rw [denseNorms_one_l2, h1, h2, mapM_cons']; rfl
    have h4 : ((.pinf : XR FP.binary64) ==ₚ ofInt 0) = false := by
      rw [zz]
      rfl
    have h5 : Arith.div (.fin (2 ^ 600) : XR FP.binary64) .pinf = .ok (.fin 0) := by
      show XR.div _ _ = _
      simp [XR.div]
    show (normalizerTransform _ _ >>= _ : Py _) = _
    rw [normalize_dense (by simp) _ h, mapM_cons', h4]
    simp only [Bool.false_eq_true, if_false, h5, py_ok_bind]
    rfl

/-! ### Cases -/

/-- A scaler, a normaliser, and then anything. -/
example {a : Attrs Ex} {s : MaxAbsScaler Ex} (ha : Learned "MaxAbsScaler" a (.maxAbs s)) (clf : SkObj (Attrs Ex) (PVal Ex) Ex) : let v := some "0.22".toList
    Directed (.pipeline v ([("scale", .leaf "MaxAbsScaler" v a)] ++ ("norm", .leaf "Normalizer" v [("norm", .str "l2"), ("copy", .bool true)]) :: [("clf", clf)])) := by
  intro v
  refine .pipeline (fun p hp => ?_) (.single (normalizer_learned (n := .l2) (by simp [norms])) (.normalizer (by simp)))
  simp only [List.mem_cons, List.not_mem_nil, or_false] at hp
  subst hp
  exact .single ha .maxAbs

/-- A ridge classifier without intercept, for the request [[1], [2], [0]] and [[3], [1], [0]]. -/
example (trunc : Ex → Py Int) : ∃ k t, convert (singles trunc initXgb)
      (.leaf "RidgeClassifier" (some "0.22".toList) (linearOf [.fin 1, .fin 2, .fin 3] [.fin 0, .fin 0, .fin 0] [.str "a", .str "b", .str "c"])) = .ok k ∧
    (k.methods lib encode).predict = some t ∧ Alongside Eq (t (.arr (.ofMat [[.fin 1], [.fin 2], [.fin 0]]))) (t (.arr (.ofMat [[.fin 3], [.fin 1], [.fin 0]]))) := by
  have hl := linearOf_learned (F := Ex) (c := "RidgeClassifier") (k := .plain) (by simp [linearClasses]) [.fin 1, .fin 2, .fin 3] [.fin 0, .fin 0, .fin 0] (strings_plain ["a", "b", "c"])
  have hd : Directed (.leaf "RidgeClassifier" (some "0.22".toList) (linearOf [.fin 1, .fin 2, .fin 3] [.fin 0, .fin 0, .fin 0] [.str "a", .str "b", .str "c"])) :=
    .single hl (.linear (.inl rfl) rfl (by simp))
  obtain ⟨k, hk, h⟩ := C119_direction (lib := lib) (encode := encode) trunc hd (.single version_022 hl)
  obtain ⟨k', hk', e⟩ := C89_converted_behaves trunc lib encode _ _ (.single version_022 hl)
  cases hk.symm.trans hk'
  refine ⟨k, _, hk, by rw [e]; rfl, ?_⟩
  refine (h _ _ (.arr (.dense (w := 1) (by simp) ?_))).2.1 _ (by rw [e]; rfl)
  refine .cons ⟨3, by norm_num, ?_⟩ (.cons ⟨1 / 2, by norm_num, ?_⟩ (.cons ⟨1, by norm_num, ?_⟩ .nil)) <;>
    simp [timesAll, ex_times]

/-- A TfidfVectorizer that normalises, and then anything; the documents are repeated with blanks between the copies. -/
example (clf : SkObj (Attrs Ex) (PVal Ex) Ex) : let v := some "0.22".toList
    DirectedText (fun _ => plainLib) ' ' (.pipeline v [("tfidf", .leaf "TfidfVectorizer" v demoText), ("clf", clf)]) := by
  intro v
  exact .pipeline (.single demoText_learned plain_separator (.words rfl rfl) rfl (n := .l2) rfl (by simp))

/-- "cat dog" and "cat dog cat dog cat dog". -/
example : RepeatedDocs ' ' (.docs ["cat dog".toList]) (.docs ["cat dog cat dog cat dog".toList]) :=
  .mk (.cons ⟨2, by decide⟩ .nil)

/-! ### Normalising once more -/

theorem longer_unitBy (n : Norm) (x : List ℝ) : Longer (fins x) (fins (unitBy (normOf n) x)) := by
  unfold unitBy
  split
  · exact ⟨1, one_pos, by simp [timesAll, fins]⟩
  · next h =>
    have hp : 0 < normOf n x := lt_of_le_of_ne (normOf_nonneg n x) (Ne.symm h)
    exact ⟨(normOf n x)⁻¹, inv_pos.2 hp, by simp [timesAll, fins, div_eq_mul_inv]⟩

/-- **C119**, in exact arithmetic: where only the direction of a record counts, normalising the records beforehand (once more, with either norm) changes no answer. -/
theorem C119_normalised (trunc : Ex → Py Int) {o : SkObj (Attrs Ex) (PVal Ex) Ex} (h : Directed o) {f : Methods Ex} (hb : Behaves lib encode o f)
    {s : String} (hs : s = "l1" ∨ s = "l2") {w : Nat} {R : List (List ℝ)} (hR : R ≠ []) (hw : ∀ r ∈ R, r.length = w) :
    ∃ k c t Y, convert (singles trunc initXgb) o = .ok k ∧
      convert (singles trunc initXgb) (.leaf "Normalizer" (some "0.22".toList) [("norm", .str s), ("copy", .bool true)]) = .ok c ∧
      (c.methods lib encode).transform = some t ∧ t (.arr (.ofMat (R.map fins))) = .ok Y ∧
      AnswersBoth (k.methods lib encode) (.arr (.ofMat (R.map fins))) Y := by
  obtain ⟨n, hn, hm⟩ : ∃ n : Norm, (n = .l1 ∨ n = .l2) ∧ (s, n) ∈ norms := by
    rcases hs with rfl | rfl
    · exact ⟨.l1, .inl rfl, by simp [norms]⟩
    · exact ⟨.l2, .inr rfl, by simp [norms]⟩
  obtain ⟨k, hk, ha⟩ := C119_direction trunc h hb
  obtain ⟨c, hc, e⟩ := C89_converted_behaves (F := Ex) trunc lib encode _ _ (.single version_022 (normalizer_learned hm))
  have ht := C26_dense n hn w R hR hw
  refine ⟨k, c, _, .arr (.ofMat ((R.map (unitBy (normOf n))).map fins)), hk, hc, by rw [e]; rfl, ?_, ha _ _ (.arr (.dense (w := w) ?_ ?_))⟩
  · show (do return Data.arr (← normalizerTransform n (.ofMat (R.map fins)))) = _
    rw [ht]
    rfl
  · simpa using hw
  · rw [List.map_map, List.forall₂_map_right_iff, List.forall₂_map_left_iff, List.forall₂_same]
    exact fun r _ => longer_unitBy n r

/-- The ridge classifier above, for the records (3) and (0) normalised with `l2` beforehand. -/
example (trunc : Ex → Py Int) : ∃ k c t Y, convert (singles trunc initXgb)
      (.leaf "RidgeClassifier" (some "0.22".toList) (linearOf [.fin 1, .fin 2, .fin 3] [.fin 0, .fin 0, .fin 0] [.str "a", .str "b", .str "c"])) = .ok k ∧
    convert (singles trunc initXgb) (.leaf "Normalizer" (some "0.22".toList) [("norm", .str "l2"), ("copy", .bool true)]) = .ok c ∧
    (c.methods lib encode).transform = some t ∧ t (.arr (.ofMat [[.fin 3], [.fin 0]])) = .ok Y ∧
    AnswersBoth (k.methods lib encode) (.arr (.ofMat [[.fin 3], [.fin 0]])) Y := by
  have hl := linearOf_learned (F := Ex) (c := "RidgeClassifier") (k := .plain) (by simp [linearClasses]) [.fin 1, .fin 2, .fin 3] [.fin 0, .fin 0, .fin 0] (strings_plain ["a", "b", "c"])
  exact C119_normalised (lib := lib) (encode := encode) trunc (.single hl (.linear (.inl rfl) rfl (by simp))) (.single version_022 hl) (.inr rfl)
    (R := [[3], [0]]) (w := 1) (by simp) (by simp)

end PurePredict
