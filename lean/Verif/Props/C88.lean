import Verif.Model.Shared
import Verif.Props.C36
import Verif.Props.C42
/-
C88: the request object in feature unions and pipelines.  Every member of a union should see the caller's
data, and a call should leave the caller's data as it was.
-/
namespace PurePredict
open Spec
variable {F : Type} [Arith F]

namespace Spec
/-- The member leaves the object it is given as it was. -/
def Quiet (t : UMember F) : Prop := ∀ X r, t X = .ok r → r.2 = X

/-- The union with its members taken for functions of the request's value. -/
def asFunctions (u : SharedUnion F) : FeatureUnion F :=
  ⟨u.transformers.map fun t => (t.1, t.2.value), u.weights⟩

/-- The claim: the result is that of the members on the caller's data, and the data is unchanged. -/
def UnionQuiet (u : SharedUnion F) (X : Arr F) : Prop :=
  u.transform X = ((asFunctions u).transform X).map fun Y => (Y, X)
end Spec

omit [Arith F] in
theorem sharedWeight (u : SharedUnion F) (name : String) :
    (u.weights.getD []).get? name = (asFunctions u).weightOf name := by
  unfold FeatureUnion.weightOf asFunctions
  cases u.weights <;> rfl

theorem sharedOne_quiet {t : UMember F} (ht : Quiet t) (X : Arr F) (w : Option F) :
    (∃ r, sharedOne t X w = .ok r ∧ r.2 = X ∧ transformOne t.value X w = .ok (r.1.getD X)) ∨
    ∃ e, sharedOne t X w = .error e ∧ transformOne t.value X w = .error e := by
  unfold sharedOne transformOne UMember.value
  cases h : t X with
  | error e => exact .inr ⟨e, rfl, rfl⟩
  | ok r =>
    have hr := ht X r h
    cases w with
    | none => exact .inl ⟨r, rfl, hr, by simp only [py_ok_bind, py_pure, hr]⟩
    | some w =>
      simp only [py_ok_bind, py_pure]
      cases apply2d (r.1.getD r.2) fun x => .ok (x *ₚ w) with
      | error e => exact .inr ⟨e, rfl, rfl⟩
      | ok M => exact .inl ⟨_, rfl, hr, rfl⟩

theorem sharedAll_quiet (wo : String → Option F) (ts : List (String × UMember F)) (ht : ∀ t ∈ ts, Quiet t.2)
    (X : Arr F) :
    (∃ os, sharedAll wo ts X = .ok (os, X) ∧
      ts.mapM (fun t => transformOne t.2.value X (wo t.1)) = .ok (os.map fun o => o.getD X)) ∨
    ∃ e, sharedAll wo ts X = .error e ∧
      ts.mapM (fun t => transformOne t.2.value X (wo t.1)) = .error e := by
  induction ts with
  | nil => exact .inl ⟨[], rfl, rfl⟩
  | cons t ts ih =>
    rw [sharedAll, mapM_cons']
    rcases sharedOne_quiet (ht t (by simp)) X (wo t.1) with ⟨r, h1, h2, h3⟩ | ⟨e, h1, h2⟩
    · rw [h1, h3]
      simp only [py_ok_bind, h2]
      rcases ih fun t ht' => ht t (List.mem_cons_of_mem _ ht') with ⟨os, g1, g2⟩ | ⟨e, g1, g2⟩
      · exact .inl ⟨r.1 :: os, by rw [g1]; rfl, by rw [g2]; rfl⟩
      · exact .inr ⟨e, by rw [g1]; rfl, by rw [g2]; rfl⟩
    · exact .inr ⟨e, by rw [h1]; rfl, by rw [h2]; rfl⟩

/-- **C88**: if no member modifies what it is given, the union's result is that of its members on the
caller's data (the same error where one fails), also when members return the request object itself, and
the caller's data is unchanged. -/
theorem C88_union_partial (u : SharedUnion F) (hq : ∀ t ∈ u.transformers, Quiet t.2) {X : Arr F}
    (hX : checkArray X .allow = .ok X) : UnionQuiet u X := by
  unfold UnionQuiet SharedUnion.transform FeatureUnion.transform
  rw [hX]
  simp only [py_ok_bind]
  have hm : (asFunctions u).transformers.mapM (fun t => transformOne t.2 X ((asFunctions u).weightOf t.1)) =
      u.transformers.mapM fun t => transformOne t.2.value X ((u.weights.getD []).get? t.1) := by
    simp only [sharedWeight]
    exact mapM_map' _ _ _
  rw [hm]
  rcases sharedAll_quiet (fun name => (u.weights.getD []).get? name) u.transformers hq X with
    ⟨os, h1, h2⟩ | ⟨e, h1, h2⟩
  · rw [h1, h2]
    simp only [py_ok_bind, py_pure]
    cases unionOf X.len X.shape (os.map fun o => o.getD X) <;> rfl
  · rw [h1, h2]
    rfl

/-! ### Which members are quiet -/

/-- **C88**: transformers that build their result are quiet. -/
theorem C88_quiet_pure (t : Arr F → Py (Arr F)) : Quiet (UMember.ofPure t) ∧
    ∀ X, (UMember.ofPure t).value X = t X := by
  constructor
  · intro X r h
    unfold UMember.ofPure at h
    obtain ⟨y, -, h⟩ := bind_ok_iff.1 h
    cases h
    rfl
  · intro X
    unfold UMember.value UMember.ofPure
    cases t X <;> rfl

/-- **C88**: transformers that return the object they are given are quiet. -/
theorem C88_quiet_same : Quiet (UMember.same : UMember F) := by
  intro X r h
  unfold UMember.same at h
  obtain ⟨y, -, h⟩ := bind_ok_iff.1 h
  cases y <;> · cases h; rfl

/-- StandardScalerPure without mean and scale is such a transformer. -/
theorem C88_scaler_same (s : StandardScaler F) (hm : s.withMean = false) (hs : s.withStd = false)
    (hsc : s.scale = none) (X : Arr F) : (UMember.same : UMember F).value X = s.transform X := by
  unfold UMember.value UMember.same StandardScaler.transform
  cases X with
  | list rs => cases rs <;> simp [checkArray, hm, hs, Arr.rows]
  | sparse rs n dt => simp [checkArray, hm, hsc]
  | errObj => rfl
  | other => rfl

/-- **C88**: a tf-idf transformer with `use_idf` multiplies its weights into the object it is given. -/
theorem C88_tfidf (t : Tfidf F) (z : F) (hs : t.sublinearTf = false) (hu : t.useIdf = true)
    (hn : t.idf.length = t.expectedNFeatures) {ds : List (Dict Int F)} (hds : ds ≠ [])
    (hd : ∀ d ∈ ds, ValidRow t.expectedNFeatures d) (dt : DType) {r : Option (Arr F) × Arr F}
    (h : UMember.tfidf t (.sparse ds (some t.expectedNFeatures) dt) = .ok r) :
    r.2 = .sparse (ds.map (weighted z t.idf)) (some t.expectedNFeatures) dt := by
  unfold UMember.tfidf at h
  obtain ⟨y, hy, h⟩ := bind_ok_iff.1 h
  have := C36_changed_partial t z hs hu hn hds hd dt (Y := y.1) (X' := y.2) hy
  cases hnorm : t.norm with
  | none => rw [hnorm] at h; cases h; exact this
  | some n => rw [hnorm] at h; cases h; exact this

/-- The returned value is that of the transformer (C36). -/
theorem C88_tfidf_value (t : Tfidf F) (X : Arr F) (hs : t.norm = none → ∀ r, t.transform X = .ok r → r.1 = r.2) :
    (UMember.tfidf t).value X = (t.transform X).map Prod.fst := by
  unfold UMember.value UMember.tfidf
  cases h : t.transform X with
  | error e => rfl
  | ok r =>
    cases hnorm : t.norm with
    | none =>
      have := hs hnorm r h
      simp only [py_ok_bind, py_pure, Option.getD_none, Except.map, this]
    | some n => rfl

/-- **C88**: what a union with a tf-idf transformer in front really computes: the other members work on
the weighted data, and the caller's data is weighted afterwards. -/
theorem C88_behind_tfidf (t : Tfidf F) (z : F) (hs : t.sublinearTf = false) (hu : t.useIdf = true)
    (hn : t.idf.length = t.expectedNFeatures) {ds : List (Dict Int F)} (hds : ds ≠ [])
    (hd : ∀ d ∈ ds, ValidRow t.expectedNFeatures d) (dt : DType) (name : String)
    (ts : List (String × UMember F)) (hq : ∀ q ∈ ts, Quiet q.2)
    {r : Option (Arr F) × Arr F} (h : UMember.tfidf t (.sparse ds (some t.expectedNFeatures) dt) = .ok r) :
    let X' : Arr F := .sparse (ds.map (weighted z t.idf)) (some t.expectedNFeatures) dt
    (⟨(name, UMember.tfidf t) :: ts, none⟩ : SharedUnion F).transform (.sparse ds (some t.expectedNFeatures) dt) = (do
      let Ys ← ts.mapM fun q => q.2.value X'
      return (← unionOf X'.len X'.shape (r.1.getD X' :: Ys), X')) := by
  intro X'
  have hr : r.2 = X' := C88_tfidf t z hs hu hn hds hd dt h
  have hone : sharedOne (UMember.tfidf t) (.sparse ds (some t.expectedNFeatures) dt) none = .ok r := by
    unfold sharedOne
    rw [h]
    rfl
  have hval : ts.mapM (fun q => q.2.value X') = ts.mapM fun q => transformOne q.2.value X' none := by
    apply mapM_congr
    intro q _
    unfold transformOne
    cases q.2.value X' <;> rfl
  unfold SharedUnion.transform
  simp only [checkArray, py_ok_bind, sharedAll, Option.getD_none]
  rw [show (Dict.get? ([] : Dict String F) name) = none from rfl, hone]
  simp only [py_ok_bind, hr, hval]
  rcases sharedAll_quiet (fun n => (Dict.get? ([] : Dict String F) n)) ts hq X' with ⟨os, h1, h2⟩ | ⟨e, h1, h2⟩
  · rw [h1]
    have h2' : ts.mapM (fun q => transformOne q.2.value X' none) = .ok (os.map fun o => o.getD X') := h2
    rw [h2']
    rfl
  · rw [h1]
    have h2' : ts.mapM (fun q => transformOne q.2.value X' none) = .error e := h2
    rw [h2']
    rfl

/-! ### Pipelines -/

/-- **C88**: the result of a pipeline's transform is that of its steps one after the other, whatever they
do to the objects they are given. -/
theorem C88_pipeline_value (ts : List (UMember F)) (X : Arr F) :
    (sharedPipeline ts X).map Prod.fst = ts.foldlM (fun Y t => t.value Y) X := by
  have key : ∀ (ts : List (UMember F)) (cur : Option (Arr F)) (X : Arr F),
      (sharedSteps ts cur X).map (fun r => r.1.getD r.2) = ts.foldlM (fun Y t => t.value Y) (cur.getD X) := by
    intro ts
    induction ts with
    | nil => intro cur X; rfl
    | cons t ts ih =>
      intro cur X
      cases cur with
      | none =>
        rw [sharedSteps, List.foldlM_cons, Option.getD_none]
        unfold UMember.value
        cases t X with
        | error e => rfl
        | ok r => exact ih r.1 r.2
      | some Y =>
        rw [sharedSteps, List.foldlM_cons, Option.getD_some]
        unfold UMember.value
        cases t Y with
        | error e => rfl
        | ok r => exact ih (some (r.1.getD r.2)) X
  have := key ts none X
  rw [Option.getD_none] at this
  rw [← this]
  unfold sharedPipeline
  cases sharedSteps ts none X <;> rfl

theorem sharedSteps_some (ts : List (UMember F)) (Y X : Arr F) {r : Option (Arr F) × Arr F}
    (h : sharedSteps ts (some Y) X = .ok r) : r.2 = X := by
  induction ts generalizing Y with
  | nil => cases h; rfl
  | cons t ts ih =>
    rw [sharedSteps] at h
    obtain ⟨y, -, h⟩ := bind_ok_iff.1 h
    exact ih _ h

/-- **C88**: a pipeline leaves the caller's data unchanged if none of its steps modifies what it is given,
or if the steps up to one that builds a new object do not. -/
theorem C88_pipeline_partial (pre : List (UMember F)) (t : UMember F) (post : List (UMember F))
    (hq : ∀ s ∈ pre ++ [t], Quiet s) (hnew : post = [] ∨ ∀ X r, t X = .ok r → r.1 ≠ none) {X Y X' : Arr F}
    (h : sharedPipeline (pre ++ t :: post) X = .ok (Y, X')) : X' = X := by
  unfold sharedPipeline at h
  obtain ⟨r, hr, h⟩ := bind_ok_iff.1 h
  cases h
  have key : ∀ (pre : List (UMember F)), (∀ s ∈ pre ++ [t], Quiet s) → ∀ X r,
      sharedSteps (pre ++ t :: post) none X = .ok r → r.2 = X := by
    intro pre
    induction pre with
    | nil =>
      intro hq X r hr
      rw [List.nil_append, sharedSteps] at hr
      obtain ⟨y, hy, hr⟩ := bind_ok_iff.1 hr
      have h2 := hq t (by simp) X y hy
      rcases hnew with rfl | hnew
      · cases hr
        exact h2
      · obtain ⟨Y, hY⟩ := Option.ne_none_iff_exists'.1 (hnew X y hy)
        rw [hY, h2] at hr
        exact sharedSteps_some post Y X hr
    | cons s pre ih =>
      intro hq X r hr
      rw [List.cons_append, sharedSteps] at hr
      obtain ⟨y, hy, hr⟩ := bind_ok_iff.1 hr
      have h2 := hq s (by simp) X y hy
      rw [h2] at hr
      cases h1 : y.1 with
      | none =>
        rw [h1] at hr
        exact ih (fun s' hs' => hq s' (by simp at hs' ⊢; tauto)) X r hr
      | some Y =>
        rw [h1] at hr
        exact sharedSteps_some _ Y X hr
  exact key pre hq X r hr

/-! ### The claim is false of tf-idf transformers -/

/-- **C88 is false** of unions with a tf-idf transformer: the same transformers in another order give
other columns, none of them the members' outputs on the caller's data, and the caller's data changes. -/
theorem C88_union_false :
    (⟨[("w", UMember.tfidf doubling), ("n", UMember.ofPure fun X => .ok X)], none⟩ : SharedUnion Ex).transform
        (.sparse [[(0, .fin 3)]] (some 1) .float) =
      .ok (.sparse [[(0, .fin (3 * 2)), (1, .fin (3 * 2))]] (some 2) .float,
        .sparse [[(0, .fin (3 * 2))]] (some 1) .float) ∧
    (asFunctions (⟨[("w", UMember.tfidf doubling), ("n", UMember.ofPure fun X => .ok X)], none⟩ :
      SharedUnion Ex)).transform (.sparse [[(0, .fin 3)]] (some 1) .float) =
      .ok (.sparse [[(0, .fin (3 * 2)), (1, .fin 3)]] (some 2) .float) := by
  have h1 : UMember.tfidf doubling (.sparse [[(0, .fin 3)]] (some 1) .float) =
      .ok (none, .sparse [[(0, .fin (3 * 2))]] (some 1) .float) := by
    unfold UMember.tfidf
    rw [doubling_step]
    rfl
  constructor
  · unfold SharedUnion.transform
    simp only [checkArray, py_ok_bind, sharedAll, sharedOne, h1, Option.getD_none]
    rfl
  · have h2 : UMember.value (UMember.tfidf doubling) (.sparse [[(0, .fin 3)]] (some 1) .float) =
        .ok (.sparse [[(0, .fin (3 * 2))]] (some 1) .float) := by
      unfold UMember.value
      rw [h1]
      rfl
    unfold FeatureUnion.transform
    simp only [checkArray, py_ok_bind, asFunctions, List.map_cons, List.map_nil, mapM_cons', transformOne, h2]
    rfl

/-- Two tf-idf transformers without norm return the same object: both columns carry both weights. -/
theorem C88_alias_false :
    (⟨[("a", UMember.tfidf doubling), ("b", UMember.tfidf doubling)], none⟩ : SharedUnion Ex).transform
        (.sparse [[(0, .fin 3)]] (some 1) .float) =
      .ok (.sparse [[(0, .fin (3 * 2 * 2)), (1, .fin (3 * 2 * 2))]] (some 2) .float,
        .sparse [[(0, .fin (3 * 2 * 2))]] (some 1) .float) := by
  have h1 : ∀ x : ℝ, UMember.tfidf doubling (.sparse [[(0, .fin x)]] (some 1) .float) =
      .ok (none, .sparse [[(0, .fin (x * 2))]] (some 1) .float) := by
    intro x
    unfold UMember.tfidf
    rw [doubling_step]
    rfl
  unfold SharedUnion.transform
  simp only [checkArray, py_ok_bind, sharedAll, sharedOne, h1, Option.getD_none]
  rfl

/-- **C88 is false** of pipelines: a scaler with neither mean nor scale hands the caller's object on, the
tf-idf transformer behind it changes the caller's data, and the next call returns something else. -/
theorem C88_pipeline_false (x : ℝ) :
    sharedPipeline [UMember.same, UMember.tfidf doubling] (.sparse [[(0, .fin x)]] (some 1) .float) =
      .ok (.sparse [[(0, .fin (x * 2))]] (some 1) .float, .sparse [[(0, .fin (x * 2))]] (some 1) .float) := by
  have h1 : UMember.tfidf doubling (.sparse [[(0, .fin x)]] (some 1) .float) =
      .ok (none, .sparse [[(0, .fin (x * 2))]] (some 1) .float) := by
    unfold UMember.tfidf
    rw [doubling_step]
    rfl
  unfold sharedPipeline
  simp only [sharedSteps, UMember.same, checkArray, py_ok_bind, py_pure, h1, Option.getD_none]

/-! ### Non-vacuity -/

/-- A doubling transformer that builds its result, and one that returns the request. -/
noncomputable def union88 : SharedUnion Ex :=
  ⟨[("a", UMember.ofPure fun X => do return .ofMat (← apply2d X fun x => .ok (x +ₚ x))), ("b", UMember.same)],
    some [("b", .fin 10)]⟩

example : union88.transform (.ofMat [[.fin 1], [.fin 2]]) =
    .ok (.ofMat [[.fin (1 + 1), .fin (1 * 10)], [.fin (2 + 2), .fin (2 * 10)]], .ofMat [[.fin 1], [.fin 2]]) := by
  rw [C88_union_partial union88 (by
    intro t ht
    simp only [union88, List.mem_cons, List.not_mem_nil, or_false] at ht
    rcases ht with rfl | rfl
    · exact (C88_quiet_pure _).1
    · exact C88_quiet_same) (X := .ofMat [[.fin 1], [.fin 2]]) rfl]
  simp only [FeatureUnion.transform, asFunctions, union88, List.map_cons, List.map_nil]
  rfl

/-- A step that builds a new matrix in front of the tf-idf transformer protects the caller's data. -/
example (ts : List (UMember Ex)) (f : Arr Ex → Py (Arr Ex)) {X Y X' : Arr Ex}
    (h : sharedPipeline (UMember.ofPure f :: UMember.tfidf doubling :: ts) X = .ok (Y, X')) : X' = X :=
  C88_pipeline_partial [] (UMember.ofPure f) (UMember.tfidf doubling :: ts) (by
    intro s hs
    rw [List.mem_singleton.1 hs]
    exact (C88_quiet_pure f).1) (.inr (by
    intro X r h
    unfold UMember.ofPure at h
    obtain ⟨y, -, h⟩ := bind_ok_iff.1 h
    cases h
    simp)) h

end PurePredict
