import Verif.Spec.Gauge
/-
Specification: parts of fitted objects that have nothing to do, and fitted objects without them.
-/
namespace PurePredict.Spec
variable {F : Type} [Arith F]

/-- The value does not count as missing. -/
def Present (missing x : F) : Prop := (Arith.isnan missing = true → Arith.isnan x = false) ∧ (Arith.isnan missing = false → (x ==ₚ missing) = false)

/-- Division by the column's entry changes no stored value. -/
def KeptBy (scale : List F) (d : Dict Int F) : Prop := ∀ kv ∈ d, ∃ (i : Nat) (c : F), kv.1 = (i : Int) ∧ scale[i]? = some c ∧ Arith.div kv.2 c = .ok kv.2

/-- This transformer has nothing to do for this request. -/
inductive Idle : Single F → Data F → Prop
  /-- a scaler whose subtractions and divisions, if any, change no number of the request (means 0 and scales 1, or switched off) -/
  | standard {s M} : M ≠ [] → (s.withMean = true → ∃ m, s.mean = some m ∧ ∀ r ∈ M, List.Forall₂ (fun x c => (x -ₚ c) = x) r m) →
      (s.withStd = true → ∃ d, s.scale = some d ∧ ∀ r ∈ M, List.Forall₂ (fun x c => Arith.div x c = .ok x) r d) → Idle (.standard s) (.arr (.ofMat M))
  | standardOff {s rs size dt} : s.withMean = false → s.scale = none → Idle (.standard s) (.arr (.sparse rs size dt))
  | standardSparse {s rs size dt d} : s.withMean = false → s.scale = some d → rs ≠ [] → (∀ r ∈ rs, KeptBy d r) → Idle (.standard s) (.arr (.sparse rs size dt))
  | minMax {s M sc mn} : M ≠ [] → s.scale = some sc → s.min = some mn → mn.length = sc.length →
      (∀ r ∈ M, List.Forall₂ (fun x (p : F × F) => ((x *ₚ p.1) +ₚ p.2) = x) r (sc.zip mn)) → Idle (.minMax s) (.arr (.ofMat M))
  | maxAbs {s M d} : M ≠ [] → s.scale = some d → (∀ r ∈ M, List.Forall₂ (fun x c => Arith.div x c = .ok x) r d) → Idle (.maxAbs s) (.arr (.ofMat M))
  | maxAbsSparse {s rs size dt d} : s.scale = some d → rs ≠ [] → (∀ r ∈ rs, KeptBy d r) → Idle (.maxAbs s) (.arr (.sparse rs size dt))
  /-- an imputer that marks nothing, removes no column and finds nothing missing -/
  | imputer {s M} : M ≠ [] → s.addIndicator = false → s.statistics ≠ [] → (s.constant = true ∨ ∀ t ∈ s.statistics, Arith.isnan t = false) →
      (∀ r ∈ M, r.length = s.statistics.length ∧ ∀ x ∈ r, Present s.missing x) → Idle (.imputer s) (.arr (.ofMat M))
  /-- tf-idf weighting with everything switched off -/
  | tfidf {t M} : M ≠ [] → t.norm = none → t.useIdf = false → t.sublinearTf = false → Idle (.tfidf t) (.arr (.ofMat M))
  | tfidfSparse {t rs size dt} : rs ≠ [] → t.norm = none → t.useIdf = false → t.sublinearTf = false → Idle (.tfidf t) (.arr (.sparse rs size dt))

/-- The request has `n` records, at least one. -/
def CountsRecords (n : Nat) : Data F → Prop
  | .arr (.list rs) => rs.length = n ∧ n ≠ 0
  | .arr (.sparse rs _ _) => rs.length = n
  | .docs ds => ds.length = n ∧ n ≠ 0
  | .records (.many xs) => xs.length = n ∧ n ≠ 0
  | .table (.list rs) => rs.length = n ∧ n ≠ 0
  | .table (.sparse rs _ _) => rs.length = n
  | _ => False

/-- A dense request, every record with exactly `w` columns. -/
def DenseOf (w : Nat) (X : Data F) : Prop := ∃ M, X = .arr (.ofMat M) ∧ ∀ r ∈ M, r.length = w

variable (lib : String → TextLib) (encode : Str → List Nat)

/-- For this request the object, if it has an answer, gives one dense row per record. -/
def OneRowEach (o : SkObj (Attrs F) (PVal F) F) (Y : Data F) : Prop :=
  ∃ n, CountsRecords n Y ∧ ∀ f t Z, Behaves lib encode o f → f.transform = some t → t Y = .ok Z → ∃ M, Z = .arr (.ofMat M) ∧ M.length = n

/-- `Trimmed P o o'`: the second object is the first without parts that have nothing to do for the requests in `P`. -/
inductive Trimmed : (Data F → Prop) → SkObj (Attrs F) (PVal F) F → SkObj (Attrs F) (PVal F) F → Prop
  | same {P o} : Trimmed P o o
  | trans {P a b c} : Trimmed P a b → Trimmed P b c → Trimmed P a c
  | fewer {P Q o o'} : Trimmed P o o' → (∀ X, Q X → P X) → Trimmed Q o o'
  /-- a step that does nothing for the requests that reach it is left out -/
  | idle {v pre n c v' a s post} : Learned c a s → post ≠ [] →
      Trimmed (fun X => ∀ Y, Reaches lib encode pre X Y → Idle s Y) (.pipeline v (pre ++ (n, .leaf c v' a) :: post)) (.pipeline v (pre ++ post))
  /-- a pipeline of a single step is replaced by the step -/
  | only {v n o} : Trimmed (fun _ => True) (.pipeline v [(n, o)]) o
  /-- the steps of a pipeline within a pipeline are moved to the outer one -/
  | nested {v w pre n ss post} : ss ≠ [] → Trimmed (fun _ => True) (.pipeline v (pre ++ (n, .pipeline w ss) :: post)) (.pipeline v (pre ++ ss ++ post))
  /-- a step that is a union of a single transformer is replaced by the transformer -/
  | alone {v w pre n m o post} : post ≠ [] →
      Trimmed (fun X => ∀ Y, Reaches lib encode pre X Y → OneRowEach lib encode o Y) (.pipeline v (pre ++ (n, .union w [(m, o)] none) :: post)) (.pipeline v (pre ++ (n, o) :: post))
  /-- feature subsets that consist of all columns in order are left out -/
  | columns {k v l cs ms w} : ms.length ≤ l.length → (∀ cols ∈ l, cols = (List.range w).map fun (i : Nat) => (i : Int)) →
      Trimmed (DenseOf w) (.ensemble k v (some l) cs ms) (.ensemble k v none cs ms)
  | inStep {P v pre n o o' post} : Trimmed P o o' →
      Trimmed (fun X => ∀ Y, Reaches lib encode pre X Y → P Y) (.pipeline v (pre ++ (n, o) :: post)) (.pipeline v (pre ++ (n, o') :: post))
  | inUnion {P v} {names : List String} {os os' : List (SkObj (Attrs F) (PVal F) F)} {ws} : os.length = os'.length → names.length = os.length → (∀ p ∈ os.zip os', Trimmed P p.1 p.2) →
      Trimmed P (.union v (names.zip os) ws) (.union v (names.zip os') ws)
  | inEnsemble {P Q k v fs cs ms ms'} : (fs = none → ∀ X, Q (.arr X) → P (.arr X)) →
      (∀ l, fs = some l → ∀ cols ∈ l, ∀ X Y, Q (.arr X) → TakesColumns cols X Y → P (.arr Y)) → ms.length = ms'.length →
      (∀ p ∈ ms.zip ms', Trimmed P p.1 p.2) → Trimmed Q (.ensemble k v fs cs ms) (.ensemble k v fs cs ms')
  | inStart {P v cs stages init init' loss args} : Trimmed P init init' →
      Trimmed P (.boosting v cs stages init loss args) (.boosting v cs stages init' loss args)

end PurePredict.Spec
