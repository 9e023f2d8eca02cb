import Verif.Spec.Presentations
import Verif.Spec.Columns
import Verif.Spec.Matrix
/-
Which requests a fitted object takes, and what it makes of them: from the classes and the parameters of its
parts.
-/
namespace PurePredict.Spec
variable {F : Type} [Arith F]

/-- Kinds of requests: numeric matrices, documents, mappings from names to values, rows of strings. -/
inductive Req
  | matrix (k : Kind)
  | docs
  | records
  | table (w : Nat)

/-- The records of a request and how they are passed. -/
def Req.form (F : Type) : Req → Form (Data F)
  | .matrix k => ⟨(k.form F).Rec, (k.form F).Ok, fun xs => .arr ((k.form F).emb xs)⟩
  | .docs => ⟨Str, fun _ => True, .docs⟩
  | .records => ⟨Dict Str (FeatVal F), fun _ => True, fun xs => .records (.many xs)⟩
  | .table w => ⟨List Str, fun r => r.length = w, fun xs => .table (.ofMat xs)⟩

/-- number of columns an imputer keeps: all for a constant fill value, those with a statistic otherwise -/
def keptColumns (s : SimpleImputer F) : Nat :=
  if s.constant then s.statistics.length else (s.statistics.filter fun x => !Arith.isnan x).length

/-- number of columns of a missing indicator -/
def flagColumns (m : MissingIndicator F) : Nat := if m.missingOnly then m.features.length else m.nFeatures

/-- a missing indicator fitted on its number of features -/
def FittedFlags (m : MissingIndicator F) : Prop := m.features.Nodup ∧ ∀ j ∈ m.features, j < m.nFeatures

/-- an encoder fitted on `w` columns -/
def FittedCategories (e : Encoder Str) (w : Nat) : Prop :=
  e.categories.length = w ∧ ∀ c ∈ e.categories, c.Nodup ∧ c ≠ []

/-- The transformer takes requests of the one kind to results of the other, its parameters being fitted for
that.  Not included: text vectorizers with `binary=True` (their result is a plain list of dicts, C35, C57) and
indicators with `error_on_new=True` on the missing features (not batch independent, C57). -/
inductive Step : Single F → Req → Kind → Prop
  | standardDense {s w} : (s.withMean = true → ∀ m, s.mean = some m → m.length = w) →
      (s.withStd = true → ∀ m, s.scale = some m → m.length = w) → Step (.standard s) (.matrix (.dense w)) (.dense w)
  | standardSparse {s w dt} : Step (.standard s) (.matrix (.sparse w dt)) (.sparse w dt)
  | minMax {s w w'} : (∀ m, s.scale = some m → m.length = w) → Step (.minMax s) (.matrix (.dense w')) (.dense w)
  | maxAbsDense {s w w'} : (∀ m, s.scale = some m → m.length = w) → Step (.maxAbs s) (.matrix (.dense w')) (.dense w)
  | maxAbsSparse {s w dt} : Step (.maxAbs s) (.matrix (.sparse w dt)) (.sparse w dt)
  | normalizer {n k} : Step (.normalizer n) (.matrix k) k
  | tfidf {t w dt} : Step (.tfidf t) (.matrix (.sparse w dt)) (.sparse w dt)
  | imputer {s} : s.statistics ≠ [] → s.addIndicator = false →
      Step (.imputer s) (.matrix (.dense s.statistics.length)) (.dense (keptColumns s))
  | imputerFlags {s i} : s.statistics ≠ [] → s.addIndicator = true → s.indicator = some i → i.errorOnNew = false →
      i.nFeatures = s.statistics.length → FittedFlags i →
      Step (.imputer s) (.matrix (.dense s.statistics.length)) (.dense (keptColumns s + flagColumns i))
  | indicator {m} : FittedFlags m → m.errorOnNew = false ∨ m.missingOnly = false →
      Step (.indicator m) (.matrix (.dense m.nFeatures)) (.dense (flagColumns m))
  | count {p v} : v.binary = false → Step (.count p v) .docs (.sparse v.vocabulary.length v.dtype)
  | tfidfVec {p v t} : v.binary = false → Step (.tfidfVec p v t) .docs (.sparse v.vocabulary.length v.dtype)
  | hashing {p v} : v.binary = false → Step (.hashing p v) .docs (.sparse v.nFeatures.toNat v.dtype)
  | dictSparse {v} : v.sparse = true → Step (.dictVec v) .records (.sparse v.vocabulary.length v.dtype)
  | dictDense {v} : v.sparse = false → Step (.dictVec v) .records (.dense v.vocabulary.length)
  | ordinal {e w} : FittedCategories e w → Step (.ordinal e) (.table w) (.dense w)
  | oneHotSparse {e w} : FittedCategories e w → e.sparse = true →
      Step (.oneHot e) (.table w) (.sparse (e.categories.map List.length).sum e.dtype)
  | oneHotDense {e w} : FittedCategories e w → e.sparse = false →
      Step (.oneHot e) (.table w) (.dense (e.categories.map List.length).sum)

/-- The predictor takes matrices of this kind, its parameters being fitted for that (naive Bayes models and
boosters refuse the sparse ones). -/
inductive Fits : Single F → Kind → Prop
  | linear {kind m k} : m.coef ≠ [] → (∀ r ∈ m.coef, r.length = k.width) → Fits (.linear kind m) k
  | treeClassifier {t k} : Fits (.treeClassifier t) k
  | treeRegressor {t k} : Fits (.treeRegressor t) k
  | gaussianNB {m k} : m.classes ≠ [] → Fits (.gaussianNB m) k
  | multinomialNB {m k} : Fits (.multinomialNB m) k
  | complementNB {m k} : Fits (.complementNB m) k
  | dummy {d k} : Fits (.dummy d) k
  | xgb {m k} : Fits (.xgb m) k

/-- number of trees in every stage of a boosting model with this loss -/
def stageSize : Loss → Nat
  | .multinomial n => n
  | _ => 1

/-- `Serves o A (some k)`: the fitted object transforms requests of kind `A` into matrices of kind `k`.
`Serves o A none`: it predicts from requests of kind `A`.  The steps of a pipeline pass matrices on from one to the
next, those of a feature union all take the request; the members of an ensemble take the request or the columns
chosen for them, and are for the same number of classes; the parts of a boosting model take the request. -/
inductive Serves : SkObj (Attrs F) (PVal F) F → Req → Option Kind → Prop
  | step {c v e s A k} : Learned c e s → Step s A k → Serves (.leaf c v e) A (some k)
  | final {c v e s k} : Learned c e s → Fits s k → Serves (.leaf c v e) (.matrix k) none
  | lastStep {v n o A r} : Serves o A r → Serves (.pipeline v [(n, o)]) A r
  | firstStep {v n o s ss A k r} : Serves o A (some k) → Serves (.pipeline v (s :: ss)) (.matrix k) r →
      Serves (.pipeline v ((n, o) :: s :: ss)) A r
  | unionDense {v steps ws A} {ks : List Nat} : steps ≠ [] → steps.length = ks.length →
      (∀ p ∈ steps.zip ks, Serves p.1.2 A (some (.dense p.2))) → Serves (.union v steps ws) A (some (.dense ks.sum))
  | unionSparse {v steps ws A} {ks : List Kind} : steps.length = ks.length → (∃ k ∈ ks, k.isSparse = true) →
      (∀ w, Kind.dense w ∈ ks → 0 < w) → (∀ p ∈ steps.zip ks, Serves p.1.2 A (some p.2)) →
      Serves (.union v steps ws) A (some (.sparse (ks.map Kind.width).sum .float))
  | ensemble {kd v cs ms k c} : (∀ m ∈ ms, Classifies m c) → (∀ m ∈ ms, Serves m (.matrix k) none) →
      Serves (.ensemble kd v none cs ms) (.matrix k) none
  | subspaces {kd v fs cs ms w c} : (∀ m ∈ ms, Classifies m c) →
      (∀ p ∈ ms.zip fs, Serves p.1 (.matrix (.dense p.2.length)) none) →
      Serves (.ensemble kd v (some fs) cs ms) (.matrix (.dense w)) none
  | boosting {v cs stages init loss l} {lr : F} {nf : Nat} : lossOf loss cs.length = some l → cs ≠ [] →
      Classifies init cs.length → Serves init (.matrix (.dense nf)) none → stages ≠ [] →
      (∀ st ∈ stages, st.length = stageSize l) → (∀ st ∈ stages, ∀ m ∈ st, Serves m (.matrix (.dense nf)) none) →
      Serves (.boosting v cs stages init loss [.float lr, .int nf]) (.matrix (.dense nf)) none

end PurePredict.Spec
