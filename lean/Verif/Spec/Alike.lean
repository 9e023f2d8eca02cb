import Verif.Spec.Unread
/-
Numbers of two kinds that mean the same: Python ints and floats, zeros of both signs, Python numbers and the reals of the model.
Requests, fitted objects and answers made of such numbers.
-/
namespace PurePredict.Spec
variable {F G : Type} [Arith F] [Arith G]

/-- Three ways to be alike.  `value`: the same as the operand of a float operation; `num`: also in comparisons; `flt`: two
floats. -/
structure Likeness (F G : Type) where
  value : F → G → Prop
  num : F → G → Prop
  flt : F → G → Prop

/-- An operation with a float among its operands gives a float. -/
structure Likeness.Sound (k : Likeness F G) : Prop where
  num_of_flt : ∀ {a b}, k.flt a b → k.num a b
  value_of_num : ∀ {a b}, k.num a b → k.value a b
  zero : k.num (ofInt 0) (ofInt 0)
  one : k.num (ofInt 1) (ofInt 1)
  two : k.value (ofInt 2) (ofInt 2)
  rat : ∀ n d, k.flt (ofRat n d) (ofRat n d)
  pi : k.flt Arith.pi Arith.pi
  nan : k.flt Arith.nan Arith.nan
  pinf : k.flt Arith.pinf Arith.pinf
  ninf : k.flt Arith.ninf Arith.ninf
  add_left : ∀ {a b c d}, k.flt a b → k.value c d → k.flt (a +ₚ c) (b +ₚ d)
  add_right : ∀ {a b c d}, k.value a b → k.flt c d → k.flt (a +ₚ c) (b +ₚ d)
  sub_left : ∀ {a b c d}, k.flt a b → k.value c d → k.flt (a -ₚ c) (b -ₚ d)
  sub_right : ∀ {a b c d}, k.value a b → k.flt c d → k.flt (a -ₚ c) (b -ₚ d)
  mul_left : ∀ {a b c d}, k.flt a b → k.value c d → k.flt (a *ₚ c) (b *ₚ d)
  mul_right : ∀ {a b c d}, k.value a b → k.flt c d → k.flt (a *ₚ c) (b *ₚ d)
  div_left : ∀ {a b c d}, k.flt a b → k.value c d → Par k.flt (a /ₚ c) (b /ₚ d)
  div_right : ∀ {a b c d}, k.value a b → k.flt c d → Par k.flt (a /ₚ c) (b /ₚ d)
  neg_num : ∀ {a b}, k.num a b → k.num (Arith.neg a) (Arith.neg b)
  neg : ∀ {a b}, k.flt a b → k.flt (Arith.neg a) (Arith.neg b)
  sq : ∀ {a b}, k.flt a b → Par k.flt (Arith.sq a) (Arith.sq b)
  exp : ∀ {a b}, k.num a b → Par k.flt (Arith.exp a) (Arith.exp b)
  log : ∀ {a b}, k.num a b → Par k.flt (Arith.log a) (Arith.log b)
  sqrt : ∀ {a b}, k.num a b → Par k.flt (Arith.sqrt a) (Arith.sqrt b)
  lt : ∀ {a b c d}, k.num a b → k.num c d → (a <ₚ c) = (b <ₚ d)
  le : ∀ {a b c d}, k.num a b → k.num c d → (a ≤ₚ c) = (b ≤ₚ d)
  eq : ∀ {a b c d}, k.num a b → k.num c d → (a ==ₚ c) = (b ==ₚ d)
  isnan : ∀ {a b}, k.num a b → Arith.isnan a = Arith.isnan b
  cast : ∀ d e, Par k.num (castTo d (ofInt 0)) (castTo e (ofInt 0))

/-- Operations among alike numbers of any kind give alike numbers. -/
structure Likeness.Closed (k : Likeness F G) : Prop where
  add : ∀ {a b c d}, k.num a b → k.num c d → k.num (a +ₚ c) (b +ₚ d)
  mul : ∀ {a b c d}, k.num a b → k.num c d → k.num (a *ₚ c) (b *ₚ d)
  abs : ∀ {a b}, k.num a b → k.num (Arith.abs a) (Arith.abs b)
  div : ∀ {a b c d}, k.num a b → k.num c d → Par k.num (a /ₚ c) (b /ₚ d)

/-! ### Requests and answers -/

/-- Entries of dicts: the same key. -/
def EntryAlike (V : F → G → Prop) (p : Int × F) (q : Int × G) : Prop := p.1 = q.1 ∧ V p.2 q.2

/-- Rows of requests.  The keys of a dict are numbers too, when it is iterated over. -/
inductive RowsAlike (k : Likeness F G) : Row F → Row G → Prop
  | list {x y} : List.Forall₂ k.num x y → RowsAlike k (.list x) (.list y)
  | dict {x y} : List.Forall₂ (fun p q => EntryAlike k.num p q ∧ k.num (ofInt p.1) (ofInt p.1)) x y → RowsAlike k (.dict x) (.dict y)
  | scalar {a b} : k.num a b → RowsAlike k (.scalar a) (.scalar b)

/-- Arrays of the same form, dense or sparse, with alike entries.  The `dtype` of a sparse list may differ. -/
inductive ArraysAlike (k : Likeness F G) : Arr F → Arr G → Prop
  | list {rs ss} : List.Forall₂ (RowsAlike k) rs ss → ArraysAlike k (.list rs) (.list ss)
  | sparse {rs ss n d e} : List.Forall₂ (List.Forall₂ (EntryAlike k.num)) rs ss → ArraysAlike k (.sparse rs n d) (.sparse ss n e)
  | errObj : ArraysAlike k .errObj .errObj
  | other : ArraysAlike k .other .other

/-- Requests: arrays, or the same documents or strings. -/
inductive RequestsAlike (k : Likeness F G) : Data F → Data G → Prop
  | arr {X Y} : ArraysAlike k X Y → RequestsAlike k (.arr X) (.arr Y)
  | docs {ds} : RequestsAlike k (.docs ds) (.docs ds)
  | table {X} : RequestsAlike k (.table X) (.table X)

/-- Labels: the same string, bool or int, or alike floats. -/
inductive LabelsAlike (k : Likeness F G) : PVal F → PVal G → Prop
  | float {a b} : k.flt a b → LabelsAlike k (.float a) (.float b)
  | npFloat {a b} : k.flt a b → LabelsAlike k (.npFloat a) (.npFloat b)
  | int {i} : k.value (ofInt i) (ofInt i) → LabelsAlike k (.int i) (.int i)
  | bool {b} : LabelsAlike k (.bool b) (.bool b)
  | str {s} : LabelsAlike k (.str s) (.str s)
  | npStr {s} : LabelsAlike k (.npStr s) (.npStr s)

/-- Both have the method, and give alike answers (or the same exception) to alike requests; or neither has it. -/
def MethodAlike (k : Likeness F G) {β γ : Type} (A : β → γ → Prop) (p : Option (Data F → Py β)) (q : Option (Data G → Py γ)) : Prop :=
  Option.Rel (fun t u => ∀ X Y, RequestsAlike k X Y → Par A (t X) (u Y)) p q

/-- Two objects with alike answers to alike requests.  Probabilities are floats. -/
structure MethodsAlike (k : Likeness F G) (f : Methods F) (g : Methods G) : Prop where
  transform : MethodAlike k (RequestsAlike k) f.transform g.transform
  predict : MethodAlike k (List.Forall₂ (LabelsAlike k)) f.predict g.predict
  proba : MethodAlike k (List.Forall₂ (List.Forall₂ k.flt)) f.predictProba g.predictProba
  logProba : MethodAlike k (List.Forall₂ (List.Forall₂ k.flt)) f.predictLogProba g.predictLogProba

/-! ### Fitted objects -/

/-- lists of alike floats -/
abbrev VecAlike (k : Likeness F G) : List F → List G → Prop := List.Forall₂ k.flt
abbrev MatAlike (k : Likeness F G) : List (List F) → List (List G) → Prop := List.Forall₂ (List.Forall₂ k.flt)

/-- The same tree with alike thresholds and leaves. -/
structure TreesAlike (k : Likeness F G) (t : Tree F (PVal F)) (u : Tree G (PVal G)) : Prop where
  left : u.childrenLeft = t.childrenLeft
  right : u.childrenRight = t.childrenRight
  feature : u.feature = t.feature
  threshold : VecAlike k t.threshold u.threshold
  value : MatAlike k t.value u.value
  classes : List.Forall₂ (LabelsAlike k) t.classes u.classes

inductive BoostersAlike (k : Likeness F G) : XgbTrees F (PVal F) → XgbTrees G (PVal G) → Prop
  | binary {ts us} : List.Forall₂ (TreesAlike k) ts us → BoostersAlike k (.binary ts) (.binary us)
  | multi {ts us} : List.Forall₂ (List.Forall₂ (TreesAlike k)) ts us → BoostersAlike k (.multi ts) (.multi us)

/-- The same indicator of missing values; what stands for a missing value may be an int. -/
structure IndicatorsAlike (k : Likeness F G) (m : MissingIndicator F) (n : MissingIndicator G) : Prop where
  missingOnly : n.missingOnly = m.missingOnly
  features : n.features = m.features
  nFeatures : n.nFeatures = m.nFeatures
  missing : k.num m.missing n.missing
  errorOnNew : n.errorOnNew = m.errorOnNew

/-- Single estimators with alike parameters.  All learned numbers are floats. -/
inductive SingleAlike (k : Likeness F G) : Single F → Single G → Prop
  | linear {j m n} : MatAlike k m.coef n.coef → List.Forall₂ (LabelsAlike k) m.classes n.classes → Option.Rel (VecAlike k) m.intercept n.intercept →
      n.multiClass = m.multiClass → n.solver = m.solver → n.loss = m.loss → SingleAlike k (.linear j m) (.linear j n)
  | treeClassifier {t u} : TreesAlike k t u → SingleAlike k (.treeClassifier t) (.treeClassifier u)
  | treeRegressor {t u} : TreesAlike k t u → SingleAlike k (.treeRegressor t) (.treeRegressor u)
  | gaussianNB {m n} : VecAlike k m.classPrior n.classPrior → List.Forall₂ (LabelsAlike k) m.classes n.classes → MatAlike k m.sigma n.sigma →
      MatAlike k m.theta n.theta → SingleAlike k (.gaussianNB m) (.gaussianNB n)
  | multinomialNB {m n} : VecAlike k m.classLogPrior n.classLogPrior → List.Forall₂ (LabelsAlike k) m.classes n.classes →
      MatAlike k m.featureLogProb n.featureLogProb → SingleAlike k (.multinomialNB m) (.multinomialNB n)
  | complementNB {m n} : VecAlike k m.classLogPrior n.classLogPrior → List.Forall₂ (LabelsAlike k) m.classes n.classes →
      MatAlike k m.featureLogProb n.featureLogProb → SingleAlike k (.complementNB m) (.complementNB n)
  | dummy {d e} : VecAlike k d.classPrior e.classPrior → (∀ i : Nat, i < d.classPrior.length → k.value (ofInt i) (ofInt i)) →
      SingleAlike k (.dummy d) (.dummy e)
  | xgb {m n} : n.objective = m.objective → List.Forall₂ (LabelsAlike k) m.classes n.classes → n.nClasses = m.nClasses →
      n.nEstimators = m.nEstimators → BoostersAlike k m.trees n.trees → SingleAlike k (.xgb m) (.xgb n)
  | imputer {s t} : VecAlike k s.statistics t.statistics → t.constant = s.constant → t.addIndicator = s.addIndicator →
      k.num s.missing t.missing → Option.Rel (IndicatorsAlike k) s.indicator t.indicator → SingleAlike k (.imputer s) (.imputer t)
  | indicator {m n} : IndicatorsAlike k m n → SingleAlike k (.indicator m) (.indicator n)
  | standard {s t} : t.withMean = s.withMean → t.withStd = s.withStd → Option.Rel (VecAlike k) s.scale t.scale → Option.Rel (VecAlike k) s.mean t.mean →
      SingleAlike k (.standard s) (.standard t)
  | minMax {s t} : Option.Rel (VecAlike k) s.scale t.scale → Option.Rel (VecAlike k) s.min t.min → SingleAlike k (.minMax s) (.minMax t)
  | maxAbs {s t} : Option.Rel (VecAlike k) s.scale t.scale → SingleAlike k (.maxAbs s) (.maxAbs t)
  | normalizer {n} : k.Closed → SingleAlike k (.normalizer n) (.normalizer n)

/-- The fitted objects of two kinds of numbers that are alike. -/
inductive ObjectsAlike (k : Likeness F G) : SkObj (Attrs F) (PVal F) F → SkObj (Attrs G) (PVal G) G → Prop
  | single {c v a b s t} : Learned c a s → Learned c b t → SingleAlike k s t → ObjectsAlike k (.leaf c v a) (.leaf c v b)
  | pipeline {v} {names : List String} {os ps} : names.length = os.length → os.length = ps.length → (∀ p ∈ os.zip ps, ObjectsAlike k p.1 p.2) →
      ObjectsAlike k (.pipeline v (names.zip os)) (.pipeline v (names.zip ps))
  | union {v} {names : List String} {os ps ws us} : names.length = os.length → os.length = ps.length → (∀ p ∈ os.zip ps, ObjectsAlike k p.1 p.2) →
      Option.Rel (List.Forall₂ fun p q => p.1 = q.1 ∧ k.flt p.2 q.2) ws us →
      ObjectsAlike k (.union v (names.zip os) ws) (.union v (names.zip ps) us)
  | ensemble {kd v fs cs ds os ps} : List.Forall₂ (LabelsAlike k) cs ds → k.value (ofInt os.length) (ofInt os.length) → os.length = ps.length →
      (∀ p ∈ os.zip ps, ObjectsAlike k p.1 p.2) → ObjectsAlike k (.ensemble kd v fs cs os) (.ensemble kd v fs ds ps)
  | boosting {v cs ds stages stages' init init' loss lr lr'} {nf : Nat} : List.Forall₂ (LabelsAlike k) cs ds → stages.length = stages'.length →
      (∀ p ∈ stages.zip stages', p.1.length = p.2.length) → (∀ p ∈ stages.zip stages', ∀ q ∈ p.1.zip p.2, ObjectsAlike k q.1 q.2) →
      ObjectsAlike k init init' → k.flt lr lr' →
      ObjectsAlike k (.boosting v cs stages init loss [.float lr, .int nf]) (.boosting v ds stages' init' loss [.float lr', .int nf])

end PurePredict.Spec
