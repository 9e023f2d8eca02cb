import Verif.Spec.Matrix
import Verif.Spec.EndToEnd
import Verif.Spec.Requests
import Verif.Py.XR
/-
One matrix, written as a dense list of rows or as a `sparse_list`, and the fitted objects that are the same up to
that.
-/
namespace PurePredict.Spec
variable {fp : FP}

/-- Two ways of computing.  `exact`: real arithmetic, finite numbers, the entries of a sparse row stored in any order.
`rounded`: every result is rounded (double precision is an instance), any numbers, the entries of a sparse row stored
in column order. -/
inductive Regime | exact | rounded

/-- The arithmetic the regime is about. -/
def Regime.Holds : Regime → FP → Prop
  | .exact, fp => fp = FP.exact
  | .rounded, fp => fp.Sound

/-- The numbers the regime allows. -/
def Regime.Entry : Regime → XR fp → Prop
  | .exact, x => ∃ r, x = .fin r
  | .rounded, _ => True

/-- The order of the stored entries the regime asks for. -/
def Regime.Order : Regime → Dict Int (XR fp) → Prop
  | .exact, _ => True
  | .rounded, d => (d.map Prod.fst).Pairwise (· < ·)

/-- `Shows g A w M`: the request or result `A` is the matrix `M` of width `w`, dense or sparse. -/
inductive Shows (g : Regime) : Arr (XR fp) → Nat → List (List (XR fp)) → Prop
  | dense {M : List (List (XR fp))} {w : Nat} : M ≠ [] → (∀ r ∈ M, r.length = w ∧ ∀ x ∈ r, g.Entry x) → Shows g (.ofMat M) w M
  | sparse {ds : List (Dict Int (XR fp))} {w : Nat} {dt : DType} : ds ≠ [] →
      (∀ d ∈ ds, ValidRow w d ∧ g.Order d ∧ ∀ kv ∈ d, g.Entry kv.2) →
      Shows g (.sparse ds (some w) dt) w (ds.map (Spec.dense (.fin 0) w))

/-- Requests to compare: matrices of a width, mappings, rows of strings. -/
inductive Asked
  | matrix (w : Nat)
  | records
  | table (w : Nat)

/-- Two requests that say the same: one matrix in two ways, or the same mappings or strings. -/
inductive Alike (g : Regime) : Asked → Data (XR fp) → Data (XR fp) → Prop
  | matrix {A B : Arr (XR fp)} {w : Nat} {M : List (List (XR fp))} : Shows g A w M → Shows g B w M → Alike g (.matrix w) (.arr A) (.arr B)
  | records {xs : List (Dict Str (FeatVal (XR fp)))} : xs ≠ [] →
      (∀ x ∈ xs, ∀ kv ∈ x, ∀ v, kv.2 = .num v → g.Entry v) → Alike g .records (.records (.many xs)) (.records (.many xs))
  | table {xs : List (List Str)} {w : Nat} : xs ≠ [] → (∀ x ∈ xs, x.length = w) →
      Alike g (.table w) (.table (.ofMat xs)) (.table (.ofMat xs))

/-- Finite scales, none of them zero, one for each column. -/
def GoodScale (sc : Option (List (XR fp))) (w : Nat) : Prop :=
  ∃ S : List ℝ, sc = some (S.map XR.fin) ∧ S.length = w ∧ ∀ x ∈ S, x ≠ 0

/-- The transformer takes dense and sparse matrices of the first width to matrices of the second. -/
inductive EvenStep (g : Regime) : Single (XR fp) → Nat → Nat → Prop
  | standard {s w} : s.withMean = false → s.withStd = true → GoodScale s.scale w → EvenStep g (.standard s) w w
  | unscaled {s w} : s.withMean = false → s.withStd = false → s.scale = none → EvenStep g (.standard s) w w
  | maxAbs {s w} : GoodScale s.scale w → EvenStep g (.maxAbs s) w w
  | normalizer {n w} : g = .exact → n = .l1 ∨ n = .l2 → EvenStep g (.normalizer n) w w

/-- The columns a tree tests are among the first `w`. -/
def TestsBelow {C : Type} (t : Tree (XR fp) C) (w : Nat) : Prop :=
  ∀ (n l r f : Int), pyGet t.childrenLeft n = .ok l → pyGet t.childrenRight n = .ok r → l ≠ r →
    pyGet t.feature n = .ok f → 0 ≤ f ∧ f < w

/-- The predictor is fitted for matrices of this width and takes sparse ones. -/
inductive EvenFit : Single (XR fp) → Nat → Prop
  | linear {kind m w} : (∀ b ∈ m.coef, b.length = w ∧ ∀ x ∈ b, ∃ r, x = .fin r) → EvenFit (.linear kind m) w
  | treeClassifier {t w} : TestsBelow t w → EvenFit (.treeClassifier t) w
  | treeRegressor {t w} : TestsBelow t w → EvenFit (.treeRegressor t) w
  | dummy {d w} : EvenFit (.dummy d) w

/-- terms and columns of a fitted vocabulary -/
def GoodVocabulary (v : Dict Str Int) : Prop := ∀ p ∈ v, 0 ≤ p.2 ∧ p.2 < (v.length : Int)

/-- `Even g o o' A (some w)`: the fitted objects `o` and `o'` are the same, but for the options `sparse` of their
dict vectorizers and one-hot encoders, and transform requests of the kind `A`, however written, into matrices of
width `w`.  `Even g o o' A none`: the same for objects that predict. -/
inductive Even (g : Regime) : SkObj (Attrs (XR fp)) (PVal (XR fp)) (XR fp) → SkObj (Attrs (XR fp)) (PVal (XR fp)) (XR fp) →
    Asked → Option Nat → Prop
  | step {c v e s w w'} : Learned c e s → EvenStep g s w w' → Even g (.leaf c v e) (.leaf c v e) (.matrix w) (some w')
  | final {c v e s w} : Learned c e s → EvenFit s w → Even g (.leaf c v e) (.leaf c v e) (.matrix w) none
  | names {c v v' e e' d b} : g = .exact → Learned c e (.dictVec d) → Learned c e' (.dictVec { d with sparse := b }) →
      GoodVocabulary d.vocabulary → Even g (.leaf c v e) (.leaf c v' e') .records (some d.vocabulary.length)
  | oneHot {c v v' e e' d b w} : g = .exact → Learned c e (.oneHot d) → Learned c e' (.oneHot { d with sparse := b }) →
      FittedCategories d w → Even g (.leaf c v e) (.leaf c v' e') (.table w) (some (d.categories.map List.length).sum)
  | ordinal {c v e d w} : Learned c e (.ordinal d) → FittedCategories d w →
      Even g (.leaf c v e) (.leaf c v e) (.table w) (some w)
  | lastStep {v v' n o o' A r} : Even g o o' A r → Even g (.pipeline v [(n, o)]) (.pipeline v' [(n, o')]) A r
  | firstStep {v v' n o o' s ss s' ss' A w r} : Even g o o' A (some w) →
      Even g (.pipeline v (s :: ss)) (.pipeline v' (s' :: ss')) (.matrix w) r →
      Even g (.pipeline v ((n, o) :: s :: ss)) (.pipeline v' ((n, o') :: s' :: ss')) A r
  | union {v v' ws A} {steps : List (String × SkObj (Attrs (XR fp)) (PVal (XR fp)) (XR fp) ×
      SkObj (Attrs (XR fp)) (PVal (XR fp)) (XR fp) × Nat)} : steps ≠ [] → (∀ s ∈ steps, weightOf ws s.1 = none ∧ 0 < s.2.2.2) →
      (∀ s ∈ steps, Even g s.2.1 s.2.2.1 A (some s.2.2.2)) →
      Even g (.union v (steps.map fun s => (s.1, s.2.1)) ws) (.union v' (steps.map fun s => (s.1, s.2.2.1)) ws) A
        (some (steps.map fun s => s.2.2.2).sum)
  | ensemble {kd v v' cs w} {ms : List (SkObj (Attrs (XR fp)) (PVal (XR fp)) (XR fp) × SkObj (Attrs (XR fp)) (PVal (XR fp)) (XR fp))} :
      (∀ m ∈ ms, Even g m.1 m.2 (.matrix w) none) →
      Even g (.ensemble kd v none cs (ms.map Prod.fst)) (.ensemble kd v' none cs (ms.map Prod.snd)) (.matrix w) none

/-- Both calls return, related values, or both raise the same exception. -/
def Meet {α β : Type} (R : α → β → Prop) : Py α → Py β → Prop
  | .ok x, .ok y => R x y
  | .error e, .error e' => e = e'
  | _, _ => False

/-- Two methods, present together, that answer requests saying the same with the same value or the same exception. -/
def SameAnswers {R : Type} (g : Regime) (A : Asked) : Option (Data (XR fp) → Py R) → Option (Data (XR fp) → Py R) → Prop
  | some p, some p' => ∀ X Y, Alike g A X Y → p X = p' Y
  | none, none => True
  | _, _ => False

/-- Two transformations of requests saying the same: one matrix with a row for each record, dense or sparse, or the same
exception. -/
def SameTransform (g : Regime) (A : Asked) (w : Nat) (t t' : Option (Data (XR fp) → Py (Data (XR fp)))) : Prop :=
  ∃ u u', t = some u ∧ t' = some u' ∧ ∀ X Y, Alike g A X Y →
    Meet (fun a b => ∃ P Q M, a = .arr P ∧ b = .arr Q ∧ Shows g P w M ∧ Shows g Q w M ∧ X.len = .ok M.length) (u X) (u' Y)

end PurePredict.Spec
