import Verif.Spec.SameMatrix
import Verif.Spec.Linear
import Verif.Spec.Encode
import Verif.Py.XR
/-
Which requests a fitted object answers, and with what, in exact arithmetic: from the classes and the parameters of
its parts.
-/
namespace PurePredict.Spec

/-- finite numbers, `n` of them -/
def FiniteVec (v : List Ex) (n : Nat) : Prop := ∃ xs : List ℝ, v = xs.map .fin ∧ xs.length = n

/-- a finite matrix of `n` rows and `w` columns -/
def FiniteMat (M : List (List Ex)) (n w : Nat) : Prop := M.length = n ∧ ∀ r ∈ M, FiniteVec r w

/-- How a matrix is written. -/
inductive Layout | dense | sparse | any
  deriving DecidableEq

/-- The presentation is of the layout. -/
def Layout.Fits : Layout → Bool → Prop
  | .dense, b => b = false
  | .sparse, b => b = true
  | .any, _ => True

/-- The layout of the union of blocks: sparse if one of them is, dense if all are. -/
def Layout.join (ls : List Layout) : Layout :=
  if Layout.sparse ∈ ls then .sparse else if Layout.any ∈ ls then .any else .dense

/-- Kinds of well-formed requests: finite matrices of a width, dense matrices in which entries may be missing,
documents, mappings with finite numbers, rows of known categories. -/
inductive Ask
  | matrix (l : Layout) (w : Nat)
  | gaps (w : Nat)
  | docs
  | records
  | table (cats : List (List Str))

/-- The request `X` is of the kind and has `n` records, at least one. -/
inductive Ask.Holds : Ask → Data Ex → Nat → Prop
  | matrix {A l w M n} : Shows .exact A w M → l.Fits A.issparse → M.length = n → Holds (.matrix l w) (.arr A) n
  | gaps {M : List (List Ex)} {w n : Nat} : M ≠ [] → (∀ r ∈ M, r.length = w ∧ ∀ x ∈ r, x = .nan ∨ ∃ a, x = .fin a) →
      M.length = n → Holds (.gaps w) (.arr (.ofMat M)) n
  | docs {ds n} : ds ≠ [] → ds.length = n → Holds .docs (.docs ds) n
  | records {xs : List (Dict Str (FeatVal Ex))} {n} : xs ≠ [] → (∀ x ∈ xs, ∀ kv ∈ x, ∀ v, kv.2 = .num v → ∃ r, v = .fin r) →
      xs.length = n → Holds .records (.records (.many xs)) n
  | table {xs cats n} : xs ≠ [] → (∀ x ∈ xs, x.length = cats.length ∧ Known cats x) → xs.length = n →
      Holds (.table cats) (.table (.ofMat xs)) n

/-- Kinds of answers: a transformed request; labels among these, with probabilities over so many classes or
without probabilities; finite numbers. -/
inductive Reply
  | form (a : Ask)
  | labels (cs : List (PVal Ex)) (proba : Option Nat)
  | values

/-- The methods answer every request of the kind with a reply of the kind, one entry for each record. -/
def Delivered (f : Methods Ex) (a : Ask) : Reply → Prop
  | .form a' => ∃ t, f.transform = some t ∧ ∀ X n, a.Holds X n → ∃ Y, t X = .ok Y ∧ a'.Holds Y n
  | .labels cs d =>
    (∃ p, f.predict = some p ∧ ∀ X n, a.Holds X n → ∃ ls, p X = .ok ls ∧ ls.length = n ∧ ∀ l ∈ ls, l ∈ cs) ∧
    ∀ k, d = some k →
      (∃ q, f.predictProba = some q ∧ ∀ X n, a.Holds X n → ∃ P : List (List ℝ), q X = .ok (P.map fun p => p.map .fin) ∧ P.length = n ∧
        ∀ p ∈ P, IsDist k p) ∧
      ∀ g, f.predictLogProba = some g → ∀ X n, a.Holds X n → ∃ L, g X = .ok L ∧ L.length = n
  | .values => ∃ p, f.predict = some p ∧ ∀ X n, a.Holds X n → ∃ ys : List ℝ,
      p X = .ok (ys.map fun y => .float (.fin y)) ∧ ys.length = n

/-- the options of a vectorizer for which an analyzer can be built -/
def GoodOpts (o : VectorizerOpts) : Prop :=
  o.analyzer ≠ .bad ∧ o.stripAccents ≠ .bad ∧ (o.analyzer = .word → ∀ s, o.stopWords ≠ .str s)

/-- a norm that `normalize` divides by, other than max -/
def SumNorm (n : Option Norm) : Prop := n = none ∨ n = some .l1 ∨ n = some .l2

/-- idf weights for `w` terms; without sublinear counts -/
def GoodTfidf (t : Tfidf Ex) (w : Nat) : Prop :=
  t.sublinearTf = false ∧ FiniteVec t.idf w ∧ t.expectedNFeatures = w ∧ SumNorm t.norm

/-- a dense matrix with or without missing entries -/
def MayMiss (A : Ask) (w : Nat) : Prop := A = .gaps w ∨ A = .matrix .dense w

/-- statistics to fill with: finite, or NaN for columns that are dropped; requests with NaN entries are for imputers of
NaN -/
def GoodFill (s : SimpleImputer Ex) (A : Ask) : Prop :=
  s.statistics ≠ [] ∧ MayMiss A s.statistics.length ∧
  (∀ x ∈ s.statistics, (∃ a, x = .fin a) ∨ x = .nan ∧ s.constant = false) ∧
  (A = .gaps s.statistics.length → s.missing = .nan)

/-- The transformer takes requests of the one kind to requests of the other, its parameters being fitted for that. -/
inductive Sure : Single Ex → Ask → Ask → Prop
  | standard {s l w} : (s.withMean = true → l = .dense ∧ ∃ m, s.mean = some m ∧ FiniteVec m w) →
      (s.withStd = true → GoodScale s.scale w) → (s.withStd = false → s.scale = none) →
      Sure (.standard s) (.matrix l w) (.matrix l w)
  | minMax {s w a b} : s.scale = some a → FiniteVec a w → s.min = some b → FiniteVec b w →
      Sure (.minMax s) (.matrix .dense w) (.matrix .dense w)
  | maxAbs {s l w} : GoodScale s.scale w → Sure (.maxAbs s) (.matrix l w) (.matrix l w)
  | normalizer {n l w} : n = .l1 ∨ n = .l2 → Sure (.normalizer n) (.matrix l w) (.matrix l w)
  | tfidf {t w} : GoodTfidf t w → Sure (.tfidf t) (.matrix .sparse w) (.matrix .sparse w)
  | imputer {s A} : GoodFill s A → s.addIndicator = false → Sure (.imputer s) A (.matrix .dense (keptColumns s))
  | imputerFlags {s A i} : GoodFill s A → s.addIndicator = true → s.indicator = some i → i.errorOnNew = false →
      i.nFeatures = s.statistics.length → FittedFlags i →
      Sure (.imputer s) A (.matrix .dense (keptColumns s + flagColumns i))
  | indicator {m A} : MayMiss A m.nFeatures → FittedFlags m → m.errorOnNew = false ∨ m.missingOnly = false →
      Sure (.indicator m) A (.matrix .dense (flagColumns m))
  | count {p v} : v.binary = false → GoodOpts v.opts → GoodVocabulary v.vocabulary →
      Sure (.count p v) .docs (.matrix .sparse v.vocabulary.length)
  | tfidfVec {p v t} : v.binary = false → GoodOpts v.opts → GoodVocabulary v.vocabulary → GoodTfidf t v.vocabulary.length →
      Sure (.tfidfVec p v t) .docs (.matrix .sparse v.vocabulary.length)
  | hashing {p v} : v.binary = false → GoodOpts v.opts → 1 ≤ v.nFeatures → v.nFeatures ≤ 2147483647 → SumNorm v.norm →
      Sure (.hashing p v) .docs (.matrix .sparse v.nFeatures.toNat)
  | dictVec {v} : GoodVocabulary v.vocabulary →
      Sure (.dictVec v) .records (.matrix (if v.sparse then .sparse else .dense) v.vocabulary.length)
  | ordinal {e} : FittedCategories e e.categories.length →
      Sure (.ordinal e) (.table e.categories) (.matrix .dense e.categories.length)
  | oneHot {e} : FittedCategories e e.categories.length →
      Sure (.oneHot e) (.table e.categories)
        (.matrix (if e.sparse then .sparse else .dense) (e.categories.map List.length).sum)

/-- A fitted tree over `w` columns: every node is a leaf with a good value or tests one of the columns and has two
different children that come after it. -/
structure FittedTree {F C : Type} (t : Tree F C) (w : Nat) (Good : List F → Prop) : Prop where
  pos : 0 < t.childrenLeft.length
  right : t.childrenRight.length = t.childrenLeft.length
  feat : t.feature.length = t.childrenLeft.length
  node : ∀ i < t.childrenLeft.length,
    (∃ a v, t.childrenLeft[i]? = some a ∧ t.childrenRight[i]? = some a ∧ t.value[i]? = some v ∧ Good v) ∨
    ∃ (l r f : Nat) (th : F), t.childrenLeft[i]? = some (l : Int) ∧ t.childrenRight[i]? = some (r : Int) ∧
      t.feature[i]? = some (f : Int) ∧ t.threshold[i]? = some th ∧ l ≠ r ∧ i < l ∧ i < r ∧
      l < t.childrenLeft.length ∧ r < t.childrenLeft.length ∧ f < w

/-- class counts (or weights) of a leaf: not negative and not all zero -/
def Counts (k : Nat) (v : List Ex) : Prop := ∃ c : List ℝ, v = c.map .fin ∧ c.length = k ∧ (∀ a ∈ c, 0 ≤ a) ∧ 0 < c.sum

/-- the value of a regression leaf -/
def OneValue (v : List Ex) : Prop := ∃ a, v[0]? = some (.fin a)

/-- coefficients and intercepts of `k` scores over `w` columns, with the number of classes that goes with them -/
def GoodLinear {C : Type} (m : Linear Ex C) (w k : Nat) : Prop :=
  0 < k ∧ FiniteMat m.coef k w ∧ (∃ b, m.intercept = some b ∧ FiniteVec b k) ∧ m.classes.length = if k = 1 then 2 else k

/-- The predictor answers requests of the kind, its parameters being fitted for that. -/
inductive Replies : Single Ex → Ask → Reply → Prop
  | linear {kind m l w k} : GoodLinear m w k → Replies (.linear kind m) (.matrix l w) (.labels m.classes none)
  | logistic {m l w k mc so} : GoodLinear m w k → m.multiClass = some mc → m.solver = some so →
      Replies (.linear .logistic m) (.matrix l w) (.labels m.classes (some m.classes.length))
  | sgdLog {m l w k} : GoodLinear m w k → m.loss = some "log" →
      Replies (.linear .sgd m) (.matrix l w) (.labels m.classes (some m.classes.length))
  | treeClassifier {t l w} : FittedTree t w (Counts t.classes.length) →
      Replies (.treeClassifier t) (.matrix l w) (.labels t.classes (some t.classes.length))
  | treeRegressor {t l w} : FittedTree t w OneValue → Replies (.treeRegressor t) (.matrix l w) .values
  | gaussianNB {m w θ σ} {p : List ℝ} : m.classes ≠ [] → p.length = m.classes.length → m.classPrior = p.map .fin → (∀ x ∈ p, 0 < x) →
      FiniteMat θ m.classes.length w → m.theta = θ → FiniteMat σ m.classes.length w → m.sigma = σ →
      (∀ r ∈ σ, ∀ x ∈ r, ∀ a, x = .fin a → 0 < a) →
      Replies (.gaussianNB m) (.matrix .dense w) (.labels m.classes (some m.classes.length))
  | multinomialNB {m w} : m.classes ≠ [] → FiniteVec m.classLogPrior m.classes.length →
      FiniteMat m.featureLogProb m.classes.length w →
      Replies (.multinomialNB m) (.matrix .dense w) (.labels m.classes (some m.classes.length))
  | complementNB {m w} : m.classes ≠ [] → FiniteVec m.classLogPrior m.classes.length →
      FiniteMat m.featureLogProb m.classes.length w →
      Replies (.complementNB m) (.matrix .dense w) (.labels m.classes (some m.classes.length))
  | dummy {d l w k} {p : List ℝ} : d.classPrior = p.map .fin → IsDist k p →
      Replies (.dummy d) (.matrix l w) (.labels ((List.range k).map fun (i : Nat) => .int i) (some k))
  | xgbBinary {m w ts} : m.objective = .binaryLogistic → m.trees = .binary ts → (∀ t ∈ ts, FittedTree t w OneValue) →
      m.classes.length = 2 → Replies (.xgb m) (.matrix .dense w) (.labels m.classes (some 2))
  | xgbMulti {m w rounds} : m.objective = .multiSoftprob → m.trees = .multi rounds → m.nEstimators = rounds.length →
      0 < m.nClasses → (∀ r ∈ rounds, r.length = m.nClasses ∧ ∀ t ∈ r, FittedTree t w OneValue) →
      m.classes.length = m.nClasses → Replies (.xgb m) (.matrix .dense w) (.labels m.classes (some m.nClasses))

/-- `Ready o A r`: the fitted object answers requests of kind `A` with replies of kind `r`.  The steps of a
pipeline pass on what the next one takes; the blocks of a union are not empty and only dense ones are weighted; the members
of an ensemble give probabilities over its classes, from the request or from columns chosen for them; the first model of a
boosting model gives probabilities over its classes, the others numbers. -/
inductive Ready : SkObj (Attrs Ex) (PVal Ex) Ex → Ask → Reply → Prop
  | step {c v e s A B} : Learned c e s → Sure s A B → Ready (.leaf c v e) A (.form B)
  | final {c v e s A r} : Learned c e s → Replies s A r → Ready (.leaf c v e) A r
  | lastStep {v n o A r} : Ready o A r → Ready (.pipeline v [(n, o)]) A r
  | firstStep {v n o s ss A B r} : Ready o A (.form B) → Ready (.pipeline v (s :: ss)) B r →
      Ready (.pipeline v ((n, o) :: s :: ss)) A r
  | union {v ws A} {steps : List (String × SkObj (Attrs Ex) (PVal Ex) Ex × Layout × Nat)} : steps ≠ [] →
      (∀ s ∈ steps, 0 < s.2.2.2 ∧ (weightOf ws s.1 = none ∨ s.2.2.1 = .dense ∧ ∃ c, weightOf ws s.1 = some (.fin c))) →
      (∀ s ∈ steps, Ready s.2.1 A (.form (.matrix s.2.2.1 s.2.2.2))) →
      Ready (.union v (steps.map fun s => (s.1, s.2.1)) ws) A
        (.form (.matrix (Layout.join (steps.map fun s => s.2.2.1)) (steps.map fun s => s.2.2.2).sum))
  | ensemble {kd v cs ms l w} {ls : SkObj (Attrs Ex) (PVal Ex) Ex → List (PVal Ex)} : ms ≠ [] →
      (∀ m ∈ ms, Ready m (.matrix l w) (.labels (ls m) (some cs.length))) →
      Ready (.ensemble kd v none cs ms) (.matrix l w) (.labels cs (some cs.length))
  | subspaces {kd v fs cs ms} {w : Nat} {ls : SkObj (Attrs Ex) (PVal Ex) Ex → List (PVal Ex)} : ms ≠ [] → fs.length = ms.length →
      (∀ f ∈ fs, ∀ i ∈ f, 0 ≤ i ∧ i < (w : Int)) →
      (∀ p ∈ ms.zip fs, Ready p.1 (.matrix .dense p.2.length) (.labels (ls p.1) (some cs.length))) →
      Ready (.ensemble kd v (some fs) cs ms) (.matrix .dense w) (.labels cs (some cs.length))
  | boosting {v cs stages init loss l ls} {lr : ℝ} {nf : Nat} : lossOf loss cs.length = some l → cs ≠ [] →
      Ready init (.matrix .dense nf) (.labels ls (some cs.length)) → stages ≠ [] → (∀ st ∈ stages, st.length = stageSize l) →
      (∀ st ∈ stages, ∀ m ∈ st, Ready m (.matrix .dense nf) .values) →
      Ready (.boosting v cs stages init loss [.float (.fin lr), .int nf]) (.matrix .dense nf)
        (.labels cs (if l = .exponential then none else some cs.length))

end PurePredict.Spec
