import Verif.Lemmas.Unladen
import Verif.Props.C112
/-
C118: trees that add nothing may be left out, and the learning rate may be put into the leaves; not a bit of any answer changes.
-/
namespace PurePredict
open Spec
variable {fp : FP} {lib : String → TextLib} {encode : Str → List Nat}

section
variable (trunc : XR fp → Py Int)

/-- **C118** with all rounding, infinities and NaN: a fitted object and the same object without stages or rounds of leaves of zero, or with the
learning rate put into the leaves, are both converted, and on every request both give the same answer, or both raise. -/
theorem C118_unladen (hs : fp.Sound) {o o' : SkObj (Attrs (XR fp)) (PVal (XR fp)) (XR fp)} (h : Unladen o o') {f : Methods (XR fp)} (hb : Behaves lib encode o f) :
    ∃ c c', convert (singles trunc initXgb) o = .ok c ∧ convert (singles trunc initXgb) o' = .ok c' ∧
      AllAgree (c.methods lib encode) (c'.methods lib encode) := by
  obtain ⟨f', hb', hr⟩ := Unl.behaves_unladen hs h hb
  obtain ⟨c, hc, rfl⟩ := C89_converted_behaves trunc lib encode o f hb
  obtain ⟨c', hc', rfl⟩ := C89_converted_behaves trunc lib encode o' f' hb'
  exact ⟨c, c', hc, hc', hr⟩

/-- **C118** for boosting that learned nothing after its first stages: the stages that follow may all be cut off. -/
theorem C118_cut {v cs pre post init loss} {rate : ℝ} {nf : Int} {n : Nat} (hne : pre ≠ []) (hn : ∀ s ∈ pre ++ post, s.length = n)
    (hreg : ∀ s ∈ pre, ∀ m ∈ s, IsRegression m) (hz : ∀ s ∈ post, ∀ m ∈ s, IsSilent m) :
    Unladen (fp := fp) (.boosting v cs (pre ++ post) init loss [.float (.fin rate), .int nf]) (.boosting v cs pre init loss [.float (.fin rate), .int nf]) := by
  induction post with
  | nil => rw [List.append_nil]; exact .same
  | cons s post ih =>
    refine .trans (.stage (n := n) ?_ hn hreg (hz s (by simp))) (ih (fun t ht => hn t ?_) fun t ht => hz t (by simp [ht]))
    · intro e
      exact hne (List.append_eq_nil_iff.1 e).1
    · simp only [List.mem_append, List.mem_cons] at ht ⊢
      tauto

/-- One stage has to stay: without stages every request raises, whatever the other parts are. -/
theorem C118_last_stage {v cs init loss args} {f : Methods (XR fp)} (hb : Behaves lib encode (.boosting v cs [] init loss args) f) :
    ∃ c p pp pl, convert (singles trunc initXgb) (.boosting v cs [] init loss args) = .ok c ∧ (c.methods lib encode).predict = some p ∧
      (c.methods lib encode).predictProba = some pp ∧ (c.methods lib encode).predictLogProba = some pl ∧
      ∀ X, (∃ e, p X = .error e) ∧ (∃ e, pp X = .error e) ∧ ∃ e, pl X = .error e := by
  obtain ⟨c, hc, hm⟩ := C89_converted_behaves trunc lib encode _ f hb
  cases hb with
  | @boosting _ _ _ _ _ lr nf l es e hv hpl he h0 hl =>
    cases he
    refine ⟨c, _, _, _, hc, by rw [hm]; rfl, by rw [hm]; rfl, by rw [hm]; rfl, fun X => ?_⟩
    simp only [List.map_nil]
    generalize hg : (⟨cs, [], Est.runProba e, lr, nf, l⟩ : GB (XR fp) (PVal (XR fp))) = g
    have hpp : ∀ Y, ∃ x, g.predictProba Y = .error x := by
      intro Y
      unfold GB.predictProba GB.rawPredict
      have : g.estimators = [] := by subst hg; rfl
      rw [this]
      cases g.rawPredictInit Y with
      | error x => exact ⟨x, rfl⟩
      | ok I => exact ⟨_, rfl⟩
    cases X with
    | arr Y =>
      obtain ⟨x, hx⟩ := hpp Y
      refine ⟨⟨x, ?_⟩, ⟨x, ?_⟩, x, ?_⟩
      · show g.predict Y = _
        unfold GB.predict
        rw [hx]
        rfl
      · exact hx
      · show g.predictLogProba Y = _
        unfold GB.predictLogProba
        rw [hx]
        rfl
    | docs _ => exact ⟨⟨_, rfl⟩, ⟨_, rfl⟩, _, rfl⟩
    | records _ => exact ⟨⟨_, rfl⟩, ⟨_, rfl⟩, _, rfl⟩
    | table _ => exact ⟨⟨_, rfl⟩, ⟨_, rfl⟩, _, rfl⟩

end

/-! ### Cases -/

theorem leafModel_silent (cs : List (PVal (XR fp))) : Silent (leafModel [(.fin 0 : XR fp)] cs) := ⟨[], .leaf rfl rfl rfl⟩

theorem regTree_silent (v) : IsSilent (fp := fp) (.leaf "DecisionTreeRegressor" v (regTree (.fin 0))) := .mk (regTree_learned _) (leafModel_silent _)

theorem regTree_rate (lr x : XR fp) (v) : WithRate lr (.leaf "DecisionTreeRegressor" v (regTree x)) (.leaf "DecisionTreeRegressor" v (regTree (x *ₚ lr))) :=
  .mk (regTree_learned x) (regTree_learned (x *ₚ lr))

/-- Three stages of which the second and third add nothing, after a scaler; then the learning rate is put into the leaf that is left. -/
example (x : XR FP.binary64) (rate : ℝ) (init : SkObj (Attrs (XR FP.binary64)) (PVal (XR FP.binary64)) (XR FP.binary64)) (s : Attrs (XR FP.binary64)) :
    let r : XR FP.binary64 → SkObj (Attrs (XR FP.binary64)) (PVal (XR FP.binary64)) (XR FP.binary64) := fun z => .leaf "DecisionTreeRegressor" (some "0.22".toList) (regTree z)
    Unladen (.pipeline (some "0.22".toList) [("scale", .leaf "StandardScaler" (some "0.22".toList) s),
        ("boost", .boosting (some "0.22".toList) [.int 0, .int 1] [[r x], [r (.fin 0)], [r (.fin 0)]] init "deviance" [.float (.fin rate), .int 1])])
      (.pipeline (some "0.22".toList) [("scale", .leaf "StandardScaler" (some "0.22".toList) s),
        ("boost", .boosting (some "0.22".toList) [.int 0, .int 1] [[r (x *ₚ .fin rate)]] init "deviance" [.float (ofInt 1), .int 1])]) := by
  refine .inPipeline (steps := [_]) (.trans (C118_cut (pre := [_]) (n := 1) (by simp) ?_ ?_ ?_) (.rate (.cons (.cons (regTree_rate _ _ _) .nil) .nil)))
  · intro st hst
    simp only [List.cons_append, List.nil_append, List.mem_cons, List.not_mem_nil, or_false] at hst
    rcases hst with rfl | rfl | rfl <;> rfl
  · intro st hst m hm
    simp only [List.mem_cons, List.not_mem_nil, or_false] at hst
    subst hst
    simp only [List.mem_cons, List.not_mem_nil, or_false] at hm
    subst hm
    exact .mk (regTree_learned _)
  · intro st hst m hm
    simp only [List.mem_cons, List.not_mem_nil, or_false] at hst
    rcases hst with rfl | rfl <;> (simp only [List.mem_cons, List.not_mem_nil, or_false] at hm; subst hm; exact regTree_silent _)

/-- the table of a booster of single leaves -/
noncomputable def leafRows (gs : List (XR fp)) : List (FrameRow (XR fp)) := gs.zipIdx.map fun p => ⟨p.2, "Leaf".toList, .nan, none, none, p.1⟩

/-- an XGBClassifier of single leaves -/
noncomputable def leafXgb (gs : List (XR fp)) : Attrs (XR fp) :=
  [("objective", .str "binary:logistic"), ("booster", .str "gbtree"), ("classes_", .ndarray (.list [.str "no", .str "yes"])),
   ("n_classes_", .int 2), ("n_estimators", .int gs.length),
   ("get_booster", .obj "Booster" none ["trees_to_dataframe"] [.obj "DataFrame" none ["Tree", "Feature", "Split", "Gain", "Yes", "No"]
    [.list ((leafRows gs).map fun r => .int r.tree), vstrs ((leafRows gs).map (·.feature)), vnums ((leafRows gs).map (·.split)),
      vnums ((leafRows gs).map (·.gain)), .list ((leafRows gs).map fun _ => .float .nan), .list ((leafRows gs).map fun _ => .float .nan)]])]

/-- the converted trees -/
noncomputable def leafXgbTree (g : XR fp) : Tree (XR fp) (PVal (XR fp)) := ⟨[-1], [-1], [-2], [ofInt (-2)], [[g]], []⟩

theorem leafXgb_table (gs : List (XR fp)) : HasBooster (leafXgb gs) (leafRows gs) := by
  have : List.Forall₂ (fun (v : PVal (XR fp)) (r : FrameRow (XR fp)) => IsChild v none) ((leafRows gs).map fun _ => .float .nan) (leafRows gs) := by
    generalize leafRows gs = l
    induction l with
    | nil => exact .nil
    | cons a l ih => exact .cons ⟨_, rfl⟩ ih
  have ch : ∀ g : FrameRow (XR fp) → Option Str, (∀ r ∈ leafRows gs, g r = none) →
      List.Forall₂ (fun (v : PVal (XR fp)) r => IsChild v (g r)) ((leafRows gs).map fun _ => .float .nan) (leafRows gs) := by
    intro g hg
    clear this
    generalize leafRows gs = l at hg
    induction l with
    | nil => exact .nil
    | cons a l ih => exact .cons (by rw [hg a (by simp)]; exact ⟨_, rfl⟩) (ih fun r hr => hg r (by simp [hr]))
  refine ⟨_, _, _, _, _, _, _, _, rfl, rfl, rfl, rfl, rfl, rfl, ⟨_, rfl, ch _ ?_⟩, _, rfl, ch _ ?_⟩ <;>
  · intro r hr
    unfold leafRows at hr
    obtain ⟨p, -, rfl⟩ := List.mem_map.1 hr
    rfl

theorem leafXgb_learned (x y z : XR fp) : Learned "XGBClassifier" (leafXgb [x, y, z])
    (.xgb ⟨.binaryLogistic, [.str "no", .str "yes"], 2, 3, .binary [leafXgbTree x, leafXgbTree y, leafXgbTree z]⟩) :=
  .xgb (ob := "binary:logistic") (K := 2) (n := 3) (rows := leafRows [x, y, z]) rfl rfl ⟨rfl, strings_plain ["no", "yes"]⟩ rfl rfl (leafXgb_table _) rfl

/-- An XGBClassifier of three leaves of which the second adds nothing. -/
example (x z : XR FP.binary64) : Unladen (.leaf "XGBClassifier" none (leafXgb [x, .fin 0, z])) (.leaf "XGBClassifier" none (leafXgb [x, z])) :=
  .round (leafXgb_learned x (.fin 0) z)
    (.xgb (ob := "binary:logistic") (K := 2) (n := 2) (rows := leafRows [x, z]) rfl rfl ⟨rfl, strings_plain ["no", "yes"]⟩ rfl rfl (leafXgb_table _) rfl)
    (.binary (pre := [leafXgbTree x]) (post := [leafXgbTree z]) rfl rfl ⟨[], .leaf rfl rfl rfl⟩)

end PurePredict
