import Verif.Spec.Gauge
import Verif.Spec.Joined
/-
Specification: requests whose records differ by positive factors only, and fitted objects that only look at the direction of a record.
-/
namespace PurePredict.Spec

/-- the record times a positive number -/
def Longer (r r' : List Ex) : Prop := ∃ k : ℝ, 0 < k ∧ r' = timesAll k r
/-- the stored values times a positive number -/
def LongerDict (d d' : Dict Int Ex) : Prop := ∃ k : ℝ, 0 < k ∧ d' = d.map fun p => (p.1, p.2 *ₚ .fin k)

/-- Each record times a positive number of its own: records of equal length, or dicts without repeated columns. -/
inductive StretchedArr : Arr Ex → Arr Ex → Prop
  | same (X) : StretchedArr X X
  | dense {w : Nat} {M M'} : (∀ r ∈ M, r.length = w) → List.Forall₂ Longer M M' → StretchedArr (.ofMat M) (.ofMat M')
  | sparse {A A' size dt} : (∀ d ∈ A, (d.map Prod.fst).Nodup) → List.Forall₂ LongerDict A A' → StretchedArr (.sparse A size dt) (.sparse A' size dt)

/-- The same for a request. -/
inductive Stretched : Data Ex → Data Ex → Prop
  | same (X) : Stretched X X
  | arr {X X'} : StretchedArr X X' → Stretched (.arr X) (.arr X')

/-- Transformers that keep the factors of the records: scalers that only divide columns, and tf-idf weighting without a norm. -/
inductive Keeps : Single Ex → Prop
  | maxAbs {s} : Keeps (.maxAbs s)
  | standard {s} : s.withMean = false → Keeps (.standard s)
  | tfidf {t} : t.norm = none → Keeps (.tfidf t)

/-- Estimators for which only the direction of a record counts: normalising with `l1` or `l2`, tf-idf weighting with such a norm, linear
classifiers that give labels and have no intercept (or the intercept 0), and the classifier that ignores the record. -/
inductive Directional : Single Ex → Prop
  | normalizer {n} : n ≠ .max → Directional (.normalizer n)
  | tfidf {t n} : t.norm = some n → n ≠ .max → Directional (.tfidf t)
  | dummy {d} : Directional (.dummy d)
  | linear {kind m b} : LabelsOnly kind m → m.intercept = some b → (∀ x ∈ b, x = .fin 0) → Directional (.linear kind m)

/-- Fitted objects that keep the factors of the records. -/
inductive KeepsAll : SkObj (Attrs Ex) (PVal Ex) Ex → Prop
  | single {c v a s} : Learned c a s → Keeps s → KeepsAll (.leaf c v a)
  | pipeline {v steps} : (∀ p ∈ steps, KeepsAll p.2) → KeepsAll (.pipeline v steps)

/-- Fitted objects for which only the direction of a record counts. -/
inductive Directed : SkObj (Attrs Ex) (PVal Ex) Ex → Prop
  | single {c v a s} : Learned c a s → Directional s → Directed (.leaf c v a)
  /-- one step of a pipeline makes the records comparable, those before it keep the factors, those after it are arbitrary -/
  | pipeline {v pre n o post} : (∀ p ∈ pre, KeepsAll p.2) → Directed o → Directed (.pipeline v (pre ++ (n, o) :: post))
  | union {v steps ws} : (∀ p ∈ steps, Directed p.2) → Directed (.union v steps ws)
  | ensemble {k v fs cs ms} : (∀ o ∈ ms, Directed o) → Directed (.ensemble k v fs cs ms)

/-- The same documents, each repeated any number of times (with the character between the copies). -/
inductive RepeatedDocs (c : Char) : Data Ex → Data Ex → Prop
  | mk {ds ds'} : List.Forall₂ (fun d d' => ∃ n, d' = repeated c d n) ds ds' → RepeatedDocs c (.docs ds) (.docs ds')

/-- Counting vectorizers whose features do not reach over the character: CountVectorizer, or TfidfVectorizer without a norm. -/
inductive CountsWords (lib : String → TextLib) (c : Char) : Single Ex → Prop
  | count {p v} : Separator (lib p) c → WithinWords (lib p) v.opts c → v.binary = false → CountsWords lib c (.count p v)
  | tfidfVec {p v t} : Separator (lib p) c → WithinWords (lib p) v.opts c → v.binary = false → t.norm = none → CountsWords lib c (.tfidfVec p v t)

/-- Fitted objects that do not notice that a document is repeated. -/
inductive DirectedText (lib : String → TextLib) (c : Char) : SkObj (Attrs Ex) (PVal Ex) Ex → Prop
  | single {cl v a p w t n} : Learned cl a (.tfidfVec p w t) → Separator (lib p) c → WithinWords (lib p) w.opts c → w.binary = false →
      t.norm = some n → n ≠ .max → DirectedText lib c (.leaf cl v a)
  /-- counts, and then only their direction counts -/
  | counted {cl v v' n a s rest} : Learned cl a s → CountsWords lib c s → rest ≠ [] → Directed (.pipeline v rest) → DirectedText lib c (.pipeline v ((n, .leaf cl v' a) :: rest))
  | pipeline {v n o post} : DirectedText lib c o → DirectedText lib c (.pipeline v ((n, o) :: post))
  | union {v steps ws} : (∀ p ∈ steps, DirectedText lib c p.2) → DirectedText lib c (.union v steps ws)

/-- Both requests get the same answer or both an exception, from every method there is. -/
def AnswersBoth (f : Methods Ex) (X X' : Data Ex) : Prop :=
  (∀ t, f.transform = some t → Alongside Eq (t X) (t X')) ∧ (∀ t, f.predict = some t → Alongside Eq (t X) (t X')) ∧
  (∀ t, f.predictProba = some t → Alongside Eq (t X) (t X')) ∧ ∀ t, f.predictLogProba = some t → Alongside Eq (t X) (t X')

end PurePredict.Spec
