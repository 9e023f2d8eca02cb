import Verif.Spec.Answered
import Verif.Lemmas.Tree
/-
Certificates for computed answers: an interval for every intermediate number of an evaluation, each wide enough for the
exact value and for the rounding error of the step that computes it.
-/
namespace PurePredict.Spec
variable {fp : FP}

/-! ### Intervals -/

/-- an interval of real numbers -/
structure Span where
  lo : ℝ
  hi : ℝ

def Span.Has (d : Span) (z : ℝ) : Prop := d.lo ≤ z ∧ z ≤ d.hi

/-- The float is a number in the interval. -/
def Span.Holds (d : Span) (x : XR fp) : Prop := ∃ z : ℝ, x = .fin z ∧ d.Has z

/-- a record whose numbers are in the intervals, one for every column -/
def InBox (B : List Span) (x : List (XR fp)) : Prop := List.Forall₂ Span.Holds B x

/-- A request of at least one record, every record in the box. -/
def Holding (B : List Span) (M : List (List (XR fp))) : Prop := M ≠ [] ∧ ∀ x ∈ M, InBox B x

/-! ### What is assumed about the arithmetic -/

/-- largest error of one rounding: half a unit in the last place, or half the smallest positive double -/
noncomputable def ulps (z : ℝ) : ℝ := 2 ^ (-53 : ℤ) * |z| + 2 ^ (-1075 : ℤ)

/-- largest error of the library functions: about one unit in the last place -/
noncomputable def ulpsLib (z : ℝ) : ℝ := 2 ^ (-52 : ℤ) * |z| + 2 ^ (-1074 : ℤ)

end PurePredict.Spec

namespace PurePredict
/-- Roundings and library functions are as close to the exact results as those of double precision. -/
structure FP.Close (fp : FP) : Prop where
  rnd : ∀ z : ℝ, |z| ≤ 2 ^ 1000 → ∃ v : ℝ, fp.rnd z = (v : EReal) ∧ |v - z| ≤ Spec.ulps z
  exp : ∀ z : ℝ, z ≤ 600 → ∃ v, fp.exp z = some v ∧ |v - Real.exp z| ≤ Spec.ulpsLib (Real.exp z)
  log : ∀ z : ℝ, 0 < z → |fp.log z - Real.log z| ≤ Spec.ulpsLib (Real.log z)
end PurePredict

namespace PurePredict.Spec
variable {fp : FP}

/-! ### Steps -/

/-- The interval contains the rounded value, wherever within its error that is. -/
def Rounded (z : ℝ) (d : Span) : Prop := |z| ≤ 2 ^ 1000 ∧ d.lo ≤ z - ulps z ∧ z + ulps z ≤ d.hi

def Added (a b d : Span) : Prop := ∀ x y, a.Has x → b.Has y → Rounded (x + y) d
def Subtracted (a b d : Span) : Prop := ∀ x y, a.Has x → b.Has y → Rounded (x - y) d
def Multiplied (a b d : Span) : Prop := ∀ x y, a.Has x → b.Has y → Rounded (x * y) d
def Divided (a b d : Span) : Prop := ∀ x y, a.Has x → b.Has y → y ≠ 0 ∧ Rounded (x / y) d
def Exponential (a d : Span) : Prop := ∀ x, a.Has x → x ≤ 600 ∧ d.lo ≤ Real.exp x - ulpsLib (Real.exp x) ∧ Real.exp x + ulpsLib (Real.exp x) ≤ d.hi
def Logarithm (a d : Span) : Prop := ∀ x, a.Has x → 0 < x ∧ d.lo ≤ Real.log x - ulpsLib (Real.log x) ∧ Real.log x + ulpsLib (Real.log x) ≤ d.hi

def nought : Span := ⟨0, 0⟩
def one : Span := ⟨1, 1⟩
def Span.negated (a : Span) : Span := ⟨-a.hi, -a.lo⟩

/-- three lists, element by element -/
inductive Columns {α β γ : Type} (T : α → β → γ → Prop) : List α → List β → List γ → Prop
  | nil : Columns T [] [] []
  | cons {a b c as bs cs} : T a b c → Columns T as bs cs → Columns T (a :: as) (b :: bs) (c :: cs)

/-- adding numbers one after the other -/
inductive Running : Span → List Span → Span → Prop
  | nil {a} : Running a [] a
  | cons {a b d l e} : Added a b d → Running d l e → Running a (b :: l) e

/-- Python's `sum`, which starts at 0 -/
def Summed (l : List Span) (e : Span) : Prop := Running nought l e

/-- 1 / (1 + exp(-x)) -/
def Logistic (a d : Span) : Prop := ∃ e s, Exponential a.negated e ∧ Added one e s ∧ Divided one s d

/-- exp of every score over the sum of all of them -/
def Softmax (ss P : List Span) : Prop := ∃ es t, List.Forall₂ Exponential ss es ∧ Summed es t ∧ List.Forall₂ (fun e p => Divided e t p) es P

/-- The number at position `k` is larger than those before it, and not smaller than those after it. -/
def Leads (ss : List Span) (k : Nat) : Prop := ∃ s, ss[k]? = some s ∧
  (∀ j t, ss[j]? = some t → j < k → t.hi < s.lo) ∧ ∀ j t, ss[j]? = some t → k < j → t.hi ≤ s.lo

/-! ### What is claimed of the answers -/

/-- Intervals for the columns of `transform`, for the columns of `predict_proba`, for the numbers of `predict`; or the label. -/
inductive Bound (fp : FP)
  | rows (C : List Span)
  | shares (P : List Span)
  | label (l : PVal (XR fp))
  | value (v : Span)

/-- Every request in the box is answered, every record within the bounds. -/
def Encloses (f : Methods (XR fp)) (B : List Span) : Bound fp → Prop
  | .rows C => ∃ t, f.transform = some t ∧ ∀ M, Holding B M → ∃ N, t (.arr (.ofMat M)) = .ok (.arr (.ofMat N)) ∧ N.length = M.length ∧ ∀ x ∈ N, InBox C x
  | .shares P => ∃ q, f.predictProba = some q ∧ ∀ M, Holding B M → ∃ N, q (.arr (.ofMat M)) = .ok N ∧ N.length = M.length ∧ ∀ x ∈ N, InBox P x
  | .label l => ∃ p, f.predict = some p ∧ ∀ M, Holding B M → p (.arr (.ofMat M)) = .ok (List.replicate M.length l)
  | .value v => ∃ p, f.predict = some p ∧ ∀ M, Holding B M → ∃ xs : List (XR fp), p (.arr (.ofMat M)) = .ok (xs.map .float) ∧ xs.length = M.length ∧ ∀ x ∈ xs, v.Holds x

/-! ### Single estimators -/

/-- a step done with the parameters of the columns -/
def ByColumn (T : Span → Span → Span → Prop) (B : List Span) (p : List (XR fp)) (C : List Span) : Prop :=
  ∃ ps, InBox ps p ∧ Columns T B ps C

/-- score of one class: the sum of the products, plus the intercept -/
def Score (B : List Span) (c : List (XR fp)) (b : XR fp) (s : Span) : Prop :=
  ∃ ps t i, ByColumn Multiplied B c ps ∧ Summed ps t ∧ i.Holds b ∧ Added t i s

def ScoresIn (m : Linear (XR fp) (PVal (XR fp))) (B ss : List Span) : Prop :=
  m.coef ≠ [] ∧ ∃ bs, m.intercept = some bs ∧ Columns (Score B) m.coef bs ss

/-- Every record in the box reaches this leaf. -/
inductive Lands (B : List Span) : DTree (XR fp) → List (XR fp) → Prop
  | leaf {v} : Lands B (.leaf v) v
  | left {f h l r v b} {θ : ℝ} : h = .fin θ → B[f]? = some b → b.hi ≤ θ → Lands B l v → Lands B (.node f h l r) v
  | right {f h l r v b} {θ : ℝ} : h = .fin θ → B[f]? = some b → θ < b.lo → Lands B r v → Lands B (.node f h l r) v

/-- the numbers of a leaf, and the interval of the first of them -/
def LeafValue (t : Tree (XR fp) (PVal (XR fp))) (B : List Span) (d : Span) : Prop :=
  ∃ dt v x, t.Encodes 0 dt ∧ Lands B dt v ∧ v[0]? = some x ∧ d.Holds x

inductive Bounded : Single (XR fp) → List Span → Bound fp → Prop
  | standard {s B C D} : (s.withMean = true → ∃ m, s.mean = some m ∧ ByColumn Subtracted B m C) → (s.withMean = false → C = B) →
      (s.withStd = true → ∃ d, s.scale = some d ∧ ByColumn Divided C d D) → (s.withStd = false → D = C) → Bounded (.standard s) B (.rows D)
  | minMax {s a b B C D} : s.scale = some a → s.min = some b → ByColumn Multiplied B a C → ByColumn Added C b D → Bounded (.minMax s) B (.rows D)
  | maxAbs {s a B D} : s.scale = some a → ByColumn Divided B a D → Bounded (.maxAbs s) B (.rows D)
  -- linear classifiers
  | negative {kd m B s c0 c1} : ScoresIn m B [s] → m.classes = [c0, c1] → s.hi ≤ 0 → Bounded (.linear kd m) B (.label c0)
  | positive {kd m B s c0 c1} : ScoresIn m B [s] → m.classes = [c0, c1] → 0 < s.lo → Bounded (.linear kd m) B (.label c1)
  | leader {kd m B ss k l} : ScoresIn m B ss → ss.length ≠ 1 → Leads ss k → m.classes[k]? = some l → Bounded (.linear kd m) B (.label l)
  | logistic {kd m B s p q} : ScoresIn m B [s] → kd = .logistic ∧ m.isOvr = .ok true ∨ kd = .sgd ∧ m.loss = some "log" →
      Logistic s p → Subtracted one p q → Bounded (.linear kd m) B (.shares [q, p])
  | oneVsRest {kd m B ss ps t P} : ScoresIn m B ss → ss.length ≠ 1 → kd = .logistic ∧ m.isOvr = .ok true ∨ kd = .sgd ∧ m.loss = some "log" →
      List.Forall₂ Logistic ss ps → Summed ps t → List.Forall₂ (fun p q => Divided p t q) ps P → Bounded (.linear kd m) B (.shares P)
  | twoWay {m B s P} : ScoresIn m B [s] → m.isOvr = .ok false → Softmax [s.negated, s] P → Bounded (.linear .logistic m) B (.shares P)
  | softmax {m B ss P} : ScoresIn m B ss → ss.length ≠ 1 → m.isOvr = .ok false → Softmax ss P → Bounded (.linear .logistic m) B (.shares P)
  -- trees
  | treeLabel {t dt B v ns k l} : t.Encodes 0 dt → Lands B dt v → InBox ns v → Leads ns k → t.classes[k]? = some l →
      Bounded (.treeClassifier t) B (.label l)
  | treeShares {t dt B v ns s P} : t.Encodes 0 dt → Lands B dt v → InBox ns v → Summed ns s → List.Forall₂ (fun n p => Divided n s p) ns P →
      Bounded (.treeClassifier t) B (.shares P)
  | treeValue {t B d} : LeafValue t B d → Bounded (.treeRegressor t) B (.value d)
  -- boosted trees of XGBoost
  | xgbShares {m ts B vs s p q} : m.objective = .binaryLogistic → m.trees = .binary ts → List.Forall₂ (fun t v => LeafValue t B v) ts vs →
      Summed vs s → Logistic s p → Subtracted one p q → Bounded (.xgb m) B (.shares [q, p])
  | xgbLabel {m B P k l} : Bounded (.xgb m) B (.shares P) → Leads P k → m.classes[k]? = some l → Bounded (.xgb m) B (.label l)
  | dummyShares {d : Dummy (XR fp)} {B P} : InBox P d.classPrior → Bounded (.dummy d) B (.shares P)

/-! ### Compound objects -/

/-- the intervals of the columns with these numbers -/
def picked (B : List Span) (f : List Int) : List Span := f.map fun i => B.getD i.toNat nought

/-- adding rows one after the other -/
inductive Pooled : List Span → List (List Span) → List Span → Prop
  | nil {A} : Pooled A [] A
  | cons {A P D l E} : Columns Added A P D → Pooled D l E → Pooled A (P :: l) E

/-- the mean of the rows -/
def Averaged (ps : List (List Span)) (P : List Span) : Prop :=
  ∃ p l t n, ps = p :: l ∧ Pooled p l t ∧ Rounded ps.length n ∧ List.Forall₂ (fun a b => Divided a n b) t P

/-- adding the values of the stages, each times the learning rate -/
inductive Staged (lr : Span) : Span → List Span → Span → Prop
  | nil {a} : Staged lr a [] a
  | cons {a v p d l e} : Multiplied v lr p → Added a p d → Staged lr d l e → Staged lr a (v :: l) e

/-- a probability well inside the bounds 1.1920929e-07 and 1 - 1.1920929e-07 -/
def Inner (a : Span) : Prop := ∃ e h, Rounded (11920929 / 100000000000000) e ∧ Subtracted one e h ∧ e.hi ≤ a.lo ∧ a.hi ≤ h.lo

/-- raw scores that a boosting model starts from, given the class frequencies -/
inductive Starts : Loss → List Span → List Span → Prop
  | binomial {a p c o s} {l : List Span} : Inner p → Subtracted one p c → Divided p c o → Logarithm o s → Starts .binomial (a :: p :: l) [s]
  | exponential {a p c o s h r} {l : List Span} : Inner p → Subtracted one p c → Divided p c o → Logarithm o s → Rounded (1 / 2) h →
      Multiplied h s r → Starts .exponential (a :: p :: l) [r]
  | multinomial {n ps ss} : (∀ p ∈ ps, Inner p) → List.Forall₂ Logarithm ps ss → Starts (.multinomial n) ps ss

/-- probabilities from raw scores -/
inductive Links : Loss → List Span → List Span → Prop
  | binomial {s p q} : Logistic s p → Subtracted one p q → Links .binomial [s] [q, p]
  | exponential {s u w p q} : Logistic s u → Rounded 2 w → Multiplied u w p → Subtracted one p q → Links .exponential [s] [q, p]
  | multinomial {ss es t z ds P} : List.Forall₂ Exponential ss es → Summed es t → Logarithm t z →
      List.Forall₂ (fun s d => Subtracted s z d) ss ds → List.Forall₂ Exponential ds P → Links (.multinomial ss.length) ss P

/-- `Enclosed o B b`: a certificate that the fitted object answers requests in the box `B` within the bounds `b`. -/
inductive Enclosed : SkObj (Attrs (XR fp)) (PVal (XR fp)) (XR fp) → List Span → Bound fp → Prop
  | single {c v a s B b} : Learned c a s → Bounded s B b → Enclosed (.leaf c v a) B b
  | lastStep {v n o B b} : Enclosed o B b → Enclosed (.pipeline v [(n, o)]) B b
  | firstStep {v n o s ss B C b} : Enclosed o B (.rows C) → Enclosed (.pipeline v (s :: ss)) C b → Enclosed (.pipeline v ((n, o) :: s :: ss)) B b
  | union {v wts B} {steps : List (String × SkObj (Attrs (XR fp)) (PVal (XR fp)) (XR fp) × List Span × List Span)} : steps ≠ [] →
      (∀ s ∈ steps, Enclosed s.2.1 B (.rows s.2.2.1)) →
      (∀ s ∈ steps, weightOf wts s.1 = none → s.2.2.2 = s.2.2.1) →
      (∀ s ∈ steps, ∀ c, weightOf wts s.1 = some c → ∃ w : Span, w.Holds c ∧ List.Forall₂ (fun a b => Multiplied a w b) s.2.2.1 s.2.2.2) →
      Enclosed (.union v (steps.map fun s => (s.1, s.2.1)) wts) B (.rows (steps.map fun s => s.2.2.2).flatten)
  | ensemble {kd v cs B P} {ms : List (SkObj (Attrs (XR fp)) (PVal (XR fp)) (XR fp) × List Span)} :
      (∀ m ∈ ms, Enclosed m.1 B (.shares m.2)) → Averaged (ms.map Prod.snd) P → Enclosed (.ensemble kd v none cs (ms.map Prod.fst)) B (.shares P)
  | subspaces {kd v cs B P} {ms : List (SkObj (Attrs (XR fp)) (PVal (XR fp)) (XR fp) × List Int × List Span)} :
      (∀ m ∈ ms, ∀ i ∈ m.2.1, 0 ≤ i ∧ i < (B.length : Int)) → (∀ m ∈ ms, Enclosed m.1 (picked B m.2.1) (.shares m.2.2)) →
      Averaged (ms.map fun m => m.2.2) P → Enclosed (.ensemble kd v (some (ms.map fun m => m.2.1)) cs (ms.map Prod.fst)) B (.shares P)
  | ensembleLabel {kd v fs cs ms B P k l} : Enclosed (.ensemble kd v fs cs ms) B (.shares P) → Leads P k → cs[k]? = some l →
      Enclosed (.ensemble kd v fs cs ms) B (.label l)
  | boosting {v cs i loss l lr B I R P} {stages : List (List (SkObj (Attrs (XR fp)) (PVal (XR fp)) (XR fp) × Span))} {rate : XR fp} :
      lossOf loss cs.length = some l → stages ≠ [] → lr.Holds rate →
      Enclosed i B (.shares I) → (∀ st ∈ stages, ∀ m ∈ st, Enclosed m.1 B (.value m.2)) →
      (∃ S T, Starts l I S ∧ (∀ st ∈ stages, st.length = S.length) ∧ T.length = S.length ∧
        (∀ (k : Nat) (d : Span), T[k]? = some d → ∃ vs, List.Forall₂ (fun st v => ∃ o, st[k]? = some (o, v)) stages vs ∧ Staged lr nought vs d) ∧
        Columns Added S T R) → Links l R P →
      Enclosed (.boosting v cs (stages.map fun st => st.map Prod.fst) i loss [.float rate, .int B.length]) B (.shares P)
  | boostingLabel {v cs stages i loss ps B P k l} : Enclosed (.boosting v cs stages i loss ps) B (.shares P) → Leads P k → cs[k]? = some l →
      Enclosed (.boosting v cs stages i loss ps) B (.label l)

end PurePredict.Spec
