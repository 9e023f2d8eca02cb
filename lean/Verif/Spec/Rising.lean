import Verif.Spec.Answered
import Verif.Lemmas.Tree
/-
Which fitted objects of two classes are monotone: moving some columns of a record up and others down never lowers the
share of the second class.
-/
namespace PurePredict.Spec
variable {fp : FP}

/-- How a column may change from one request to another: grow, shrink, or not at all. -/
inductive Way | up | down | still
  deriving DecidableEq, Repr

/-- The numbers are in this order (so neither is NaN), or the same. -/
def Way.Rel : Way → XR fp → XR fp → Prop
  | up, x, y => (x ≤ₚ y) = true
  | down, x, y => (y ≤ₚ x) = true
  | still, x, y => x = y

/-- The second record comes from the first by changing every column as it may. -/
inductive Below : List Way → List (XR fp) → List (XR fp) → Prop
  | nil : Below [] [] []
  | cons {w a b ws x y} : w.Rel a b → Below ws x y → Below (w :: ws) (a :: x) (b :: y)

/-- Two requests with the same number of records, at least one, each record of the second coming from that of the first. -/
def Moved (ws : List Way) (M N : List (List (XR fp))) : Prop := M ≠ [] ∧ List.Forall₂ (Below ws) M N

/-- `x` is not larger than `y` (or one of them is NaN). -/
def NotAbove (x y : XR fp) : Prop := (y <ₚ x) = false

/-- two rows of probabilities: the share of the second class has not become smaller, nor that of the first larger -/
inductive Shifted : List (XR fp) → List (XR fp) → Prop
  | mk {a b c d} : NotAbove c a → NotAbove b d → Shifted [a, b] [c, d]

/-- What the answers of an object do: rows change in these ways; the share of the second of two classes grows; a number grows. -/
inductive Effect (fp : FP)
  | rows (ws : List Way)
  | share (c0 c1 : PVal (XR fp))
  | number

/-- The methods have the effect when the columns of requests change in these ways: on the rows of `transform`; on the
rows of `predict_proba`, and a second label of `predict` stays when the probabilities are numbers; on the numbers of `predict`. -/
def Rises (f : Methods (XR fp)) (ws : List Way) : Effect fp → Prop
  | .rows vs => ∃ t, f.transform = some t ∧ ∀ M N, Moved ws M N → ∀ A B, t (.arr (.ofMat M)) = .ok A → t (.arr (.ofMat N)) = .ok B →
      ∃ M' N', A = .arr (.ofMat M') ∧ B = .arr (.ofMat N') ∧ Moved vs M' N'
  | .share _ c1 => ∃ p q, f.predict = some p ∧ f.predictProba = some q ∧ ∀ M N, Moved ws M N →
      ∀ P Q, q (.arr (.ofMat M)) = .ok P → q (.arr (.ofMat N)) = .ok Q → List.Forall₂ Shifted P Q ∧
        ∀ ls ms, p (.arr (.ofMat M)) = .ok ls → p (.arr (.ofMat N)) = .ok ms →
          ∀ (i : Nat) (r : List (XR fp)), Q[i]? = some r → XR.nan ∉ r → ls[i]? = some c1 → ms[i]? = some c1
  | .number => ∃ p, f.predict = some p ∧ ∀ M N, Moved ws M N → ∀ ls ms, p (.arr (.ofMat M)) = .ok ls → p (.arr (.ofMat N)) = .ok ms →
      ∃ xs ys : List (XR fp), ls = xs.map .float ∧ ms = ys.map .float ∧ List.Forall₂ NotAbove xs ys

/-! ### Transformers -/

/-- so many finite numbers -/
def Reals (l : List (XR fp)) (n : Nat) : Prop := l.length = n ∧ ∀ x ∈ l, ∃ r : ℝ, x = .fin r
/-- so many positive numbers -/
def Positives (l : List (XR fp)) (n : Nat) : Prop := l.length = n ∧ ∀ x ∈ l, ∃ r : ℝ, 0 < r ∧ x = .fin r

/-- Scalers with finite means and positive finite scales keep the order of every column. -/
inductive KeepsOrder : Single (XR fp) → Nat → Prop
  | standard {s n} : (s.withMean = true → ∃ m, s.mean = some m ∧ Reals m n) → (s.withStd = true → ∃ d, s.scale = some d ∧ Positives d n) →
      KeepsOrder (.standard s) n
  | minMax {s n a b} : s.scale = some a → Positives a n → s.min = some b → Reals b n → KeepsOrder (.minMax s) n
  | maxAbs {s n a} : s.scale = some a → Positives a n → KeepsOrder (.maxAbs s) n

/-! ### Predictors -/

/-- The coefficients have the signs the changes ask for. -/
inductive Signed : List Way → List (XR fp) → Prop
  | nil : Signed [] []
  | up {ws c r} : 0 ≤ r → Signed ws c → Signed (.up :: ws) (.fin r :: c)
  | down {ws c r} : r ≤ 0 → Signed ws c → Signed (.down :: ws) (.fin r :: c)
  | still {ws c x} : Signed ws c → Signed (.still :: ws) (x :: c)

/-- One row of signed coefficients, one intercept, two different labels. -/
def SignedLinear (m : Linear (XR fp) (PVal (XR fp))) (ws : List Way) (c0 c1 : PVal (XR fp)) : Prop :=
  (∃ c, m.coef = [c] ∧ Signed ws c) ∧ (∃ b, m.intercept = some [b]) ∧ m.classes = [c0, c1] ∧ c0 ≠ c1

/-- Every split on a column that may grow has the smaller leaves on its left, every split on one that may shrink on its
right; other columns are not constrained. -/
def Steady (ws : List Way) (R : List (XR fp) → List (XR fp) → Prop) : DTree (XR fp) → Prop
  | .leaf v => R v v
  | .node f _ l r => Steady ws R l ∧ Steady ws R r ∧
      (ws[f]? = some .up → ∀ u ∈ l.leaves, ∀ v ∈ r.leaves, R u v) ∧ (ws[f]? = some .down → ∀ u ∈ r.leaves, ∀ v ∈ l.leaves, R u v)

/-- Leaves of a regression tree, by their value. -/
def Lower (u v : List (XR fp)) : Prop := ∃ a b, u[0]? = some a ∧ v[0]? = some b ∧ NotAbove a b

/-- Leaves of a classification tree with two classes: not a larger share of the second class, as computed, and if
the second class has the larger count in the first leaf, also in the second leaf. -/
def LowerShare (u v : List (XR fp)) : Prop := ∃ a b c d, u = [a, b] ∧ v = [c, d] ∧ ((a <ₚ b) = true → (c <ₚ d) = true) ∧
  (∀ p q, a /ₚ pySum [a, b] = .ok p → c /ₚ pySum [c, d] = .ok q → NotAbove q p) ∧
  ∀ p q, b /ₚ pySum [a, b] = .ok p → d /ₚ pySum [c, d] = .ok q → NotAbove p q

/-- Single estimators with the effect. -/
inductive Monotonic : Single (XR fp) → List Way → Effect fp → Prop
  | scaler {s ws} : KeepsOrder s ws.length → Monotonic s ws (.rows ws)
  | logistic {m ws c0 c1 mc} : SignedLinear m ws c0 c1 → m.multiClass = some mc → mc = "ovr" ∨ mc = "warn" ∨ mc = "auto" →
      Monotonic (.linear .logistic m) ws (.share c0 c1)
  | sgd {m ws c0 c1} : SignedLinear m ws c0 c1 → m.loss = some "log" → Monotonic (.linear .sgd m) ws (.share c0 c1)
  | treeClassifier {t dt ws c0 c1} : t.Encodes 0 dt → Steady ws LowerShare dt → t.classes = [c0, c1] → c0 ≠ c1 →
      Monotonic (.treeClassifier t) ws (.share c0 c1)
  | treeRegressor {t dt ws} : t.Encodes 0 dt → Steady ws Lower dt → Monotonic (.treeRegressor t) ws .number
  | xgb {m ts ws c0 c1} : m.objective = .binaryLogistic → m.trees = .binary ts →
      (∀ t ∈ ts, ∃ dt, t.Encodes 0 dt ∧ Steady ws Lower dt) → m.classes = [c0, c1] → c0 ≠ c1 →
      Monotonic (.xgb m) ws (.share c0 c1)

/-- the ways of the columns with these numbers -/
def pick (ws : List Way) (f : List Int) : List Way := f.map fun i => ws.getD i.toNat .still

/-- `Isotonic o ws e`: changing the columns of requests in the ways `ws` has the effect `e` on the answers of the fitted object. -/
inductive Isotonic : SkObj (Attrs (XR fp)) (PVal (XR fp)) (XR fp) → List Way → Effect fp → Prop
  | single {c v a s ws e} : Learned c a s → Monotonic s ws e → Isotonic (.leaf c v a) ws e
  | lastStep {v n o ws e} : Isotonic o ws e → Isotonic (.pipeline v [(n, o)]) ws e
  | firstStep {v n o s ss ws vs e} : Isotonic o ws (.rows vs) → Isotonic (.pipeline v (s :: ss)) vs e →
      Isotonic (.pipeline v ((n, o) :: s :: ss)) ws e
  | union {v wts ws} {steps : List (String × SkObj (Attrs (XR fp)) (PVal (XR fp)) (XR fp) × List Way)} : steps ≠ [] →
      (∀ s ∈ steps, ∀ c, weightOf wts s.1 = some c → ∃ r : ℝ, 0 < r ∧ c = .fin r) →
      (∀ s ∈ steps, Isotonic s.2.1 ws (.rows s.2.2)) →
      Isotonic (.union v (steps.map fun s => (s.1, s.2.1)) wts) ws (.rows (steps.map fun s => s.2.2).flatten)
  | ensemble {kd v c0 c1 ms ws} {ls ls' : SkObj (Attrs (XR fp)) (PVal (XR fp)) (XR fp) → PVal (XR fp)} : c0 ≠ c1 →
      (∀ m ∈ ms, Isotonic m ws (.share (ls m) (ls' m))) → Isotonic (.ensemble kd v none [c0, c1] ms) ws (.share c0 c1)
  | subspaces {kd v fs c0 c1 ms ws} {ls ls' : SkObj (Attrs (XR fp)) (PVal (XR fp)) (XR fp) → PVal (XR fp)} : c0 ≠ c1 →
      fs.length = ms.length → (∀ f ∈ fs, ∀ i ∈ f, 0 ≤ i ∧ i < (ws.length : Int)) →
      (∀ p ∈ ms.zip fs, Isotonic p.1 (pick ws p.2) (.share (ls p.1) (ls' p.1))) →
      Isotonic (.ensemble kd v (some fs) [c0, c1] ms) ws (.share c0 c1)
  | boosting {v c0 c1 stages ci vi ei d loss l ws} {lr : ℝ} {nf : Nat} : c0 ≠ c1 → lossOf loss 2 = some l →
      Learned ci ei (.dummy d) → 0 ≤ lr → (∀ st ∈ stages, ∀ m ∈ st, Isotonic m ws .number) →
      Isotonic (.boosting v [c0, c1] stages (.leaf ci vi ei) loss [.float (.fin lr), .int nf]) ws (.share c0 c1)

end PurePredict.Spec
