import Verif.Spec.Answered
/-
Which requests a fitted object answers in floating point, whatever numbers they contain: NaN and infinities included.
-/
namespace PurePredict.Spec
variable {fp : FP}

/-- Kinds of requests, by their form alone: matrices of a width, documents, mappings, rows of known categories. -/
inductive Posed
  | matrix (l : Layout) (w : Nat)
  | docs
  | records
  | table (cats : List (List Str))

/-- The request `X` is of the kind and has `n` records, at least one.  Nothing is asked of the numbers in it. -/
inductive Posed.Holds : Posed → Data (XR fp) → Nat → Prop
  | dense {l w n} {M : List (List (XR fp))} : l.Fits false → M ≠ [] → (∀ r ∈ M, r.length = w) → M.length = n →
      Holds (.matrix l w) (.arr (.ofMat M)) n
  | sparse {l w n dt} {ds : List (Dict Int (XR fp))} : l.Fits true → ds ≠ [] → (∀ d ∈ ds, ValidRow w d) → ds.length = n →
      Holds (.matrix l w) (.arr (.sparse ds (some w) dt)) n
  | docs {ds n} : ds ≠ [] → ds.length = n → Holds .docs (.docs ds) n
  | records {xs n} : xs ≠ [] → xs.length = n → Holds .records (.records (.many xs)) n
  | table {xs cats n} : xs ≠ [] → (∀ x ∈ xs, x.length = cats.length ∧ Known cats x) → xs.length = n →
      Holds (.table cats) (.table (.ofMat xs)) n

/-- Kinds of answers: a transformed request; labels among these, with rows of so many numbers as probabilities or
without probabilities; numbers. -/
inductive Outcome (fp : FP)
  | form (a : Posed)
  | labels (cs : List (PVal (XR fp))) (proba : Option Nat)
  | values

/-- The methods answer every request of the kind, with an entry of the right size for each record. -/
def Unfailing (f : Methods (XR fp)) (a : Posed) : Outcome fp → Prop
  | .form a' => ∃ t, f.transform = some t ∧ ∀ X n, a.Holds X n → ∃ Y, t X = .ok Y ∧ a'.Holds Y n
  | .labels cs d =>
    (∃ p, f.predict = some p ∧ ∀ X n, a.Holds X n → ∃ ls, p X = .ok ls ∧ ls.length = n ∧ ∀ l ∈ ls, l ∈ cs) ∧
    ∀ k, d = some k →
      (∃ q, f.predictProba = some q ∧ ∀ X n, a.Holds X n → ∃ P, q X = .ok P ∧ P.length = n ∧ ∀ p ∈ P, p.length = k) ∧
      ∀ g, f.predictLogProba = some g → ∀ X n, a.Holds X n → ∃ L, g X = .ok L ∧ L.length = n ∧ ∀ p ∈ L, p.length = k
  | .values => ∃ p, f.predict = some p ∧ ∀ X n, a.Holds X n → ∃ ys : List (XR fp), p X = .ok (ys.map .float) ∧ ys.length = n

/-- numbers to divide columns by: as many as columns, none zero -/
def Divisors (s : Option (List (XR fp))) (w : Nat) : Prop := ∃ S, s = some S ∧ S.length = w ∧ ∀ x ∈ S, x ≠ .fin 0

/-- idf weights for `w` terms; without sublinear counts -/
def FormedTfidf (t : Tfidf (XR fp)) (w : Nat) : Prop :=
  t.sublinearTf = false ∧ t.idf.length = w ∧ t.expectedNFeatures = w ∧ t.norm ≠ some .bad

/-- The transformer takes requests of the one kind to requests of the other: its parameters have the right sizes and no
divisor is zero. -/
inductive CalmStep : Single (XR fp) → Posed → Posed → Prop
  | standard {s l w} : (s.withMean = true → l = .dense ∧ ∃ m, s.mean = some m ∧ m.length = w) →
      (s.withStd = true → Divisors s.scale w) → (s.withStd = false → s.scale = none) →
      CalmStep (.standard s) (.matrix l w) (.matrix l w)
  | minMax {s w a b} : s.scale = some a → a.length = w → s.min = some b → b.length = w →
      CalmStep (.minMax s) (.matrix .dense w) (.matrix .dense w)
  | maxAbs {s l w} : Divisors s.scale w → CalmStep (.maxAbs s) (.matrix l w) (.matrix l w)
  | normalizer {n l w} : n ≠ .bad → (n = .max → 0 < w) → CalmStep (.normalizer n) (.matrix l w) (.matrix l w)
  | tfidf {t w} : FormedTfidf t w → CalmStep (.tfidf t) (.matrix .sparse w) (.matrix .sparse w)
  | imputer {s} : s.statistics ≠ [] → s.addIndicator = false →
      CalmStep (.imputer s) (.matrix .dense s.statistics.length) (.matrix .dense (keptColumns s))
  | imputerFlags {s i} : s.statistics ≠ [] → s.addIndicator = true → s.indicator = some i → i.errorOnNew = false →
      i.nFeatures = s.statistics.length → FittedFlags i →
      CalmStep (.imputer s) (.matrix .dense s.statistics.length) (.matrix .dense (keptColumns s + flagColumns i))
  | indicator {m} : FittedFlags m → m.errorOnNew = false ∨ m.missingOnly = false →
      CalmStep (.indicator m) (.matrix .dense m.nFeatures) (.matrix .dense (flagColumns m))
  | count {p v} : v.binary = false → GoodOpts v.opts → GoodVocabulary v.vocabulary →
      CalmStep (.count p v) .docs (.matrix .sparse v.vocabulary.length)
  | tfidfVec {p v t} : v.binary = false → GoodOpts v.opts → GoodVocabulary v.vocabulary → FormedTfidf t v.vocabulary.length →
      CalmStep (.tfidfVec p v t) .docs (.matrix .sparse v.vocabulary.length)
  | hashing {p v} : v.binary = false → GoodOpts v.opts → 1 ≤ v.nFeatures → v.nFeatures ≤ 2147483647 → v.norm ≠ some .bad →
      CalmStep (.hashing p v) .docs (.matrix .sparse v.nFeatures.toNat)
  | dictVec {v} : GoodVocabulary v.vocabulary → v.dtype ≠ .int →
      CalmStep (.dictVec v) .records (.matrix (if v.sparse then .sparse else .dense) v.vocabulary.length)
  | ordinal {e} : FittedCategories e e.categories.length → e.dtype ≠ .int →
      CalmStep (.ordinal e) (.table e.categories) (.matrix .dense e.categories.length)
  | oneHot {e} : FittedCategories e e.categories.length → e.dtype ≠ .int →
      CalmStep (.oneHot e) (.table e.categories)
        (.matrix (if e.sparse then .sparse else .dense) (e.categories.map List.length).sum)

/-- class counts (or weights) of a leaf: floats that are not negative and not all zero -/
def Weights (k : Nat) (v : List (XR fp)) : Prop :=
  ∃ c : List ℝ, v = c.map .fin ∧ c.length = k ∧ (∀ a ∈ c, 0 ≤ a ∧ fp.rnd a = (a : EReal)) ∧ ∃ a ∈ c, 0 < a

/-- coefficients and intercepts of `k` scores over `w` columns, with the number of classes that goes with them -/
def FormedLinear {C : Type} (m : Linear (XR fp) C) (w k : Nat) : Prop :=
  0 < k ∧ m.coef.length = k ∧ (∀ r ∈ m.coef, r.length = w) ∧ (∃ b, m.intercept = some b ∧ b.length = k) ∧
    m.classes.length = if k = 1 then 2 else k

/-- The predictor answers requests of the kind: its parameters have the right sizes.  Left out are the models whose code
can divide by zero or overflow: softmax over three or more scores, and Gaussian naive Bayes. -/
inductive CalmFit : Single (XR fp) → Posed → Outcome fp → Prop
  | linear {kind m l w k} : FormedLinear m w k → CalmFit (.linear kind m) (.matrix l w) (.labels m.classes none)
  | logistic {m l w k mc so} : FormedLinear m w k → m.multiClass = some mc → m.solver = some so →
      k = 1 ∨ mc = "ovr" ∨ mc = "warn" ∨ mc = "auto" ∧ so = "liblinear" →
      CalmFit (.linear .logistic m) (.matrix l w) (.labels m.classes (some m.classes.length))
  | sgdLog {m l w k} : FormedLinear m w k → m.loss = some "log" →
      CalmFit (.linear .sgd m) (.matrix l w) (.labels m.classes (some m.classes.length))
  | treeClassifier {t l w} : FittedTree t w (Weights t.classes.length) →
      CalmFit (.treeClassifier t) (.matrix l w) (.labels t.classes (some t.classes.length))
  | treeRegressor {t l w} : FittedTree t w (· ≠ []) → CalmFit (.treeRegressor t) (.matrix l w) .values
  | multinomialNB {m w} : m.classes ≠ [] → m.classLogPrior.length = m.classes.length → m.featureLogProb.length = m.classes.length →
      CalmFit (.multinomialNB m) (.matrix .dense w) (.labels m.classes (some m.classes.length))
  | complementNB {m w} : m.classes ≠ [] → m.classLogPrior.length = m.classes.length → m.featureLogProb.length = m.classes.length →
      CalmFit (.complementNB m) (.matrix .dense w) (.labels m.classes (some m.classes.length))
  | dummy {d l w} : d.classPrior ≠ [] → CalmFit (.dummy d) (.matrix l w)
      (.labels ((List.range d.classPrior.length).map fun (i : Nat) => .int i) (some d.classPrior.length))
  | xgbBinary {m w ts} : m.objective = .binaryLogistic → m.trees = .binary ts → (∀ t ∈ ts, FittedTree t w (· ≠ [])) →
      m.classes.length = 2 → CalmFit (.xgb m) (.matrix .dense w) (.labels m.classes (some 2))

/-- `Robust o A r`: the fitted object answers all requests of kind `A`, with replies of kind `r`. -/
inductive Robust : SkObj (Attrs (XR fp)) (PVal (XR fp)) (XR fp) → Posed → Outcome fp → Prop
  | step {c v e s A B} : Learned c e s → CalmStep s A B → Robust (.leaf c v e) A (.form B)
  | final {c v e s A r} : Learned c e s → CalmFit s A r → Robust (.leaf c v e) A r
  | lastStep {v n o A r} : Robust o A r → Robust (.pipeline v [(n, o)]) A r
  | firstStep {v n o s ss A B r} : Robust o A (.form B) → Robust (.pipeline v (s :: ss)) B r →
      Robust (.pipeline v ((n, o) :: s :: ss)) A r
  | union {v ws A} {steps : List (String × SkObj (Attrs (XR fp)) (PVal (XR fp)) (XR fp) × Layout × Nat)} : steps ≠ [] →
      (∀ s ∈ steps, 0 < s.2.2.2 ∧ (weightOf ws s.1 = none ∨ s.2.2.1 = .dense)) →
      (∀ s ∈ steps, Robust s.2.1 A (.form (.matrix s.2.2.1 s.2.2.2))) →
      Robust (.union v (steps.map fun s => (s.1, s.2.1)) ws) A
        (.form (.matrix (Layout.join (steps.map fun s => s.2.2.1)) (steps.map fun s => s.2.2.2).sum))
  | ensemble {kd v cs ms l w} {ls : SkObj (Attrs (XR fp)) (PVal (XR fp)) (XR fp) → List (PVal (XR fp))} : ms ≠ [] → cs ≠ [] →
      (∀ m ∈ ms, Robust m (.matrix l w) (.labels (ls m) (some cs.length))) →
      Robust (.ensemble kd v none cs ms) (.matrix l w) (.labels cs (some cs.length))
  | subspaces {kd v fs cs ms} {w : Nat} {ls : SkObj (Attrs (XR fp)) (PVal (XR fp)) (XR fp) → List (PVal (XR fp))} : ms ≠ [] → cs ≠ [] →
      fs.length = ms.length → (∀ f ∈ fs, ∀ i ∈ f, 0 ≤ i ∧ i < (w : Int)) →
      (∀ p ∈ ms.zip fs, Robust p.1 (.matrix .dense p.2.length) (.labels (ls p.1) (some cs.length))) →
      Robust (.ensemble kd v (some fs) cs ms) (.matrix .dense w) (.labels cs (some cs.length))
  | boosting {v cs stages init loss l ls} {lr : XR fp} {nf : Nat} : lossOf loss cs.length = some l →
      Robust init (.matrix .dense nf) (.labels ls (some cs.length)) → stages ≠ [] → (∀ st ∈ stages, st.length = stageSize l) →
      (∀ st ∈ stages, ∀ m ∈ st, Robust m (.matrix .dense nf) .values) →
      Robust (.boosting v cs stages init loss [.float lr, .int nf]) (.matrix .dense nf) (.labels cs (some cs.length))

end PurePredict.Spec
