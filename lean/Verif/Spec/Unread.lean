import Verif.Spec.Answered
import Verif.Lemmas.Tree
/-
Which parts of a request a fitted object does not look at: columns no tree tests, columns with coefficient zero, words
outside a vocabulary, unknown keys of mappings.
-/
namespace PurePredict.Spec
variable {fp : FP}

/-- What may differ between two requests in a column: nothing; finite numbers; everything (NaN and infinities, too). -/
inductive Col | read | idle | free
  deriving DecidableEq, Repr

/-- Two values of such a column. -/
def Col.Rel : Col → XR fp → XR fp → Prop
  | read, x, y => x = y
  | idle, x, y => (∃ r : ℝ, x = .fin r) ∧ ∃ r : ℝ, y = .fin r
  | free, _, _ => True

/-- Two records that differ where they may. -/
inductive AgreeOn : List Col → List (XR fp) → List (XR fp) → Prop
  | nil : AgreeOn [] [] []
  | cons {w a b ws x y} : w.Rel a b → AgreeOn ws x y → AgreeOn (w :: ws) (a :: x) (b :: y)

/-- Two matrices with the same number of rows, at least one, that differ where they may. -/
def Matching (ws : List Col) (M N : List (List (XR fp))) : Prop := M ≠ [] ∧ List.Forall₂ (AgreeOn ws) M N

/-! ### Pairs of requests -/

/-- Dense rows that differ where they may. -/
inductive SameColumns (ws : List Col) : Data (XR fp) → Data (XR fp) → Prop
  | mk {M N} : Matching ws M N → SameColumns ws (.arr (.ofMat M)) (.arr (.ofMat N))

/-- Documents with the same words, in the same order, among those that count. -/
inductive SameWords (words : Str → List Str) (counts : Str → Bool) : Data (XR fp) → Data (XR fp) → Prop
  | mk {ds es} : ds ≠ [] → List.Forall₂ (fun d e => (words d).filter counts = (words e).filter counts) ds es →
      SameWords words counts (.docs ds) (.docs es)

/-- The name a feature of a mapping goes by: its key, joined to its value when that is a string. -/
def entryName (separator : Str) (kv : Str × FeatVal (XR fp)) : Str :=
  match kv.2 with
  | .str s => kv.1 ++ separator ++ s
  | .num _ => kv.1

/-- Mappings with the same entries, in the same order, among those with known names. -/
inductive SameEntries (separator : Str) (known : Str → Bool) : Data (XR fp) → Data (XR fp) → Prop
  | mk {xs ys} : xs ≠ [] → List.Forall₂ (fun x y => x.filter (fun kv => known (entryName separator kv)) =
        y.filter (fun kv => known (entryName separator kv))) xs ys →
      SameEntries separator known (.records (.many xs)) (.records (.many ys))

/-- A request with so many records, at least one. -/
inductive HasRecords : Data (XR fp) → Nat → Prop
  | rows {M} : M ≠ [] → HasRecords (.arr (.ofMat M)) M.length
  | docs {ds} : ds ≠ [] → HasRecords (.docs ds) ds.length
  | mappings {xs} : xs ≠ [] → HasRecords (.records (.many xs)) xs.length

/-! ### Pairs of answers -/

/-- The same exception, or results in this relation. -/
inductive Par {α β : Type} (R : α → β → Prop) : Py α → Py β → Prop
  | fail {e} : Par R (.error e) (.error e)
  | done {a b} : R a b → Par R (.ok a) (.ok b)

/-- What two such requests have in common after an object has seen them: dense rows that differ where they may; or
everything. -/
inductive Kept
  | columns (ws : List Col)
  | all

/-- The two requests get answers with that much in common: from `transform`, or from every method. -/
def Blind (f : Methods (XR fp)) (R : Data (XR fp) → Data (XR fp) → Prop) : Kept → Prop
  | .columns vs => ∃ t, f.transform = some t ∧ ∀ X Y, R X Y → Par (SameColumns vs) (t X) (t Y)
  | .all => ∀ X Y, R X Y → (∀ t, f.transform = some t → t X = t Y) ∧ (∀ p, f.predict = some p → p X = p Y) ∧
      (∀ q, f.predictProba = some q → q X = q Y) ∧ ∀ q, f.predictLogProba = some q → q X = q Y

/-! ### Transformers -/

/-- One parameter per column; finite numbers stay finite if any column is to stay so. -/
def PerColumn (ws : List Col) (ps : List (XR fp)) : Prop := ps.length = ws.length ∧
  (.idle ∈ ws → (∀ r : ℝ, ∃ q : ℝ, (XR.round r : XR fp) = .fin q) ∧ ∀ c ∈ ps, ∃ r : ℝ, c = .fin r)

/-- the columns an imputer keeps: those with a statistic, or all if it fills in a constant -/
noncomputable def imputedCols (s : SimpleImputer (XR fp)) (ws : List Col) : List Col :=
  ((ws.zip s.statistics).filter fun p => s.constant || !Arith.isnan p.2).map (·.1)

/-- An indicator for columns that are read, fitted on its number of features, that accepts new missing values. -/
def Flags (i : MissingIndicator (XR fp)) (ws : List Col) : Prop := FittedFlags i ∧ i.missingOnly = true ∧ i.errorOnNew = false ∧
  i.nFeatures = ws.length ∧ ∀ f ∈ i.features, ws[f]? = some .read

/-- Transformers that work column by column. -/
inductive ColumnStep : Single (XR fp) → List Col → List Col → Prop
  | standard {s ws} : (s.withMean = true → ∃ m, s.mean = some m ∧ PerColumn ws m) → (s.withStd = true → ∃ d, s.scale = some d ∧ PerColumn ws d) →
      ColumnStep (.standard s) ws ws
  | minMax {s ws a b} : s.scale = some a → PerColumn ws a → s.min = some b → PerColumn ws b → ColumnStep (.minMax s) ws ws
  | maxAbs {s ws a} : s.scale = some a → PerColumn ws a → ColumnStep (.maxAbs s) ws ws
  | imputer {s ws} : s.statistics ≠ [] → s.addIndicator = false → s.statistics.length = ws.length →
      (∀ p ∈ ws.zip s.statistics, p.1 = .idle → ∃ r : ℝ, p.2 = .fin r) → ColumnStep (.imputer s) ws (imputedCols s ws)
  | imputerFlags {s ws i} : s.statistics ≠ [] → s.addIndicator = true → s.indicator = some i → Flags i ws → s.statistics.length = ws.length →
      (∀ p ∈ ws.zip s.statistics, p.1 = .idle → ∃ r : ℝ, p.2 = .fin r) →
      ColumnStep (.imputer s) ws (imputedCols s ws ++ List.replicate i.features.length .read)

/-! ### Predictors -/

/-- Coefficients that are zero for idle columns; no column is free. -/
inductive Weighs : List Col → List (XR fp) → Prop
  | nil : Weighs [] []
  | read {ws c x} : Weighs ws c → Weighs (.read :: ws) (x :: c)
  | idle {ws c} : Weighs ws c → Weighs (.idle :: ws) (.fin 0 :: c)

/-- Every test of the tree is on a column that is read. -/
def Tests {C : Type} (ws : List Col) (t : Tree (XR fp) C) : Prop := ∃ dt, t.Encodes 0 dt ∧ ∀ f ∈ dt.features, ws[f]? = some .read

/-- the trees of a booster -/
def boosterTrees {C : Type} : XgbTrees (XR fp) C → List (Tree (XR fp) C)
  | .binary ts => ts
  | .multi rounds => rounds.flatten

/-- Single estimators that look at no other columns than those read. -/
inductive Skips : Single (XR fp) → List Col → Prop
  | linear {k m ws} : (∀ c ∈ m.coef, Weighs ws c) → Skips (.linear k m) ws
  | treeClassifier {t ws} : Tests ws t → Skips (.treeClassifier t) ws
  | treeRegressor {t ws} : Tests ws t → Skips (.treeRegressor t) ws
  | xgb {m ws} : (∀ t ∈ boosterTrees m.trees, Tests ws t) → Skips (.xgb m) ws
  | dummy {d ws} : Skips (.dummy d) ws
  | indicator {m ws} : Flags m ws → Skips (.indicator m) ws

/-- what may differ in the columns with these numbers -/
def pickCols (ws : List Col) (f : List Int) : List Col := f.map fun i => ws.getD i.toNat .free

/-- `Unread lib o R k`: two requests in the relation `R` have `k` in common after the fitted object has seen them. -/
inductive Unread (lib : String → TextLib) : SkObj (Attrs (XR fp)) (PVal (XR fp)) (XR fp) →
    (Data (XR fp) → Data (XR fp) → Prop) → Kept → Prop
  | equal {o R} : (∀ X Y, R X Y → X = Y) → Unread lib o R .all
  | weaken {o R R' k} : (∀ X Y, R' X Y → R X Y) → Unread lib o R k → Unread lib o R' k
  | columns {c v a s ws vs} : Learned c a s → ColumnStep s ws vs → Unread lib (.leaf c v a) (SameColumns ws) (.columns vs)
  | columnsAll {c v a s ws} : Learned c a s → Skips s ws → Unread lib (.leaf c v a) (SameColumns ws) .all
  | count {c v a p s words} : Learned c a (.count p s) → buildAnalyzer (lib p) s.opts = .ok words →
      Unread lib (.leaf c v a) (SameWords words fun w => (s.vocabulary.get? w).isSome) .all
  | tfidfVec {c v a p s t words} : Learned c a (.tfidfVec p s t) → buildAnalyzer (lib p) s.opts = .ok words →
      Unread lib (.leaf c v a) (SameWords words fun w => (s.vocabulary.get? w).isSome) .all
  | hashing {c v a p s words} : Learned c a (.hashing p s) → buildAnalyzer (lib p) s.opts = .ok words →
      Unread lib (.leaf c v a) (SameWords words fun _ => true) .all
  | dictVec {c v a s} : Learned c a (.dictVec s) →
      Unread lib (.leaf c v a) (SameEntries s.separator fun n => (s.vocabulary.get? n).isSome) .all
  | lastStep {v n o R k} : Unread lib o R k → Unread lib (.pipeline v [(n, o)]) R k
  | firstStep {v n o s ss R vs k} : Unread lib o R (.columns vs) → Unread lib (.pipeline v (s :: ss)) (SameColumns vs) k →
      Unread lib (.pipeline v ((n, o) :: s :: ss)) R k
  | firstAll {v n o s ss R} : Unread lib o R .all → Unread lib (.pipeline v ((n, o) :: s :: ss)) R .all
  | unionAll {v wts R steps} : steps ≠ [] → (∀ X Y, R X Y → ∃ n, HasRecords X n ∧ HasRecords Y n) →
      (∀ s ∈ steps, Unread lib s.2 R .all) → Unread lib (.union v steps wts) R .all
  | union {v wts ws} {steps : List (String × SkObj (Attrs (XR fp)) (PVal (XR fp)) (XR fp) × List Col)} : steps ≠ [] →
      (∀ s ∈ steps, ∀ c, weightOf wts s.1 = some c → .idle ∉ s.2.2) →
      (∀ s ∈ steps, Unread lib s.2.1 (SameColumns ws) (.columns s.2.2)) →
      Unread lib (.union v (steps.map fun s => (s.1, s.2.1)) wts) (SameColumns ws) (.columns (steps.map fun s => s.2.2).flatten)
  | ensemble {kd v cs ms ws} : (∀ m ∈ ms, Unread lib m (SameColumns ws) .all) → Unread lib (.ensemble kd v none cs ms) (SameColumns ws) .all
  | subspaces {kd v fs cs ms ws} : (∀ f ∈ fs, ∀ i ∈ f, 0 ≤ i ∧ i < (ws.length : Int)) →
      (∀ p ∈ ms.zip fs, Unread lib p.1 (SameColumns (pickCols ws p.2)) .all) →
      Unread lib (.ensemble kd v (some fs) cs ms) (SameColumns ws) .all
  | boosting {v cs stages init loss lr nf ws} : (∀ st ∈ stages, ∀ m ∈ st, Unread lib m (SameColumns ws) .all) →
      Unread lib init (SameColumns ws) .all →
      Unread lib (.boosting v cs stages init loss [.float lr, .int nf]) (SameColumns ws) .all

end PurePredict.Spec
