import Verif.Spec.Shuffle
/-
Fitted objects that differ in how the columns they were fitted on are coded: in other units (a temperature in °F instead of
°C), or, for trees, in any other way that keeps the order.
-/
namespace PurePredict.Spec
variable {fp : FP}

/-- A way to write the values of a column. -/
abbrev Code (fp : FP) := XR fp → XR fp

/-- `Recoded φs x y`: `y` is `x` with every entry written in the code of its column. -/
inductive Recoded : List (Code fp) → List (XR fp) → List (XR fp) → Prop
  | nil : Recoded [] [] []
  | cons {φ φs a x y} : Recoded φs x y → Recoded (φ :: φs) (a :: x) (φ a :: y)

/-- Dense requests, at least one record, each record of the second a recoded record of the first. -/
inductive RecodedRows (φs : List (Code fp)) : Data (XR fp) → Data (XR fp) → Prop
  | mk {M N} : M ≠ [] → List.Forall₂ (Recoded φs) M N → RecodedRows φs (.arr (.ofMat M)) (.arr (.ofMat N))

/-- `n` columns that are left as they are. -/
def asIs (fp : FP) (n : Nat) : List (Code fp) := List.replicate n id

/-- A change of units: the value `x` is now written `factor · x + offset`. -/
structure Change where
  factor : ℝ
  offset : ℝ

/-- The new value. -/
noncomputable def Change.on (c : Change) : Code fp := fun x => (.fin c.factor *ₚ x) +ₚ .fin c.offset

/-- Changes of units that keep the order, all in exact arithmetic. -/
def Upward (fp : FP) (cs : List Change) : Prop := fp = FP.exact ∧ ∀ c ∈ cs, 0 < c.factor

/-! ### Pairs of objects -/

/-- What two objects make of such requests: rows, coded in some way; or the same answers. -/
inductive Shared (fp : FP)
  | columns (φs : List (Code fp))
  | answers

/-- The second object does with recoded requests what the first does with the original ones. -/
def Accord (f g : Methods (XR fp)) (φs : List (Code fp)) : Shared fp → Prop
  | .columns ψs => ∃ t u, f.transform = some t ∧ g.transform = some u ∧
      ∀ X Y, RecodedRows φs X Y → Par (RecodedRows ψs) (t X) (u Y)
  | .answers => SameMethod (RecodedRows φs) f.predict g.predict ∧ SameMethod (RecodedRows φs) f.predictProba g.predictProba ∧
      SameMethod (RecodedRows φs) f.predictLogProba g.predictLogProba

/-! ### Single estimators -/

/-- finite floats -/
def floats (fp : FP) (l : List ℝ) : List (XR fp) := l.map .fin

/-- The value of every column, in the new units. -/
def values (cs : List Change) (l : List ℝ) : List ℝ := cs.zipWith (fun c x => c.factor * x + c.offset) l

/-- A spread of every column, in the new units. -/
def spreads (cs : List Change) (l : List ℝ) : List ℝ := cs.zipWith (fun c x => c.factor * x) l

/-- Something per unit of every column, in the new units. -/
noncomputable def rates (cs : List Change) (l : List ℝ) : List ℝ := cs.zipWith (fun c x => x / c.factor) l

/-- What the offsets add to a sum with these rates. -/
noncomputable def drift (cs : List Change) (l : List ℝ) : ℝ := (cs.zipWith (fun c x => x / c.factor * c.offset) l).sum

/-- Transformers fitted in the new units, and the code of their output columns. -/
inductive RecodedStep : List (Code fp) → Single (XR fp) → Single (XR fp) → List (Code fp) → Prop
  | standard {cs : List Change} {m s} : Upward fp cs → m.length = cs.length → s.length = cs.length → 0 ∉ s →
      RecodedStep (cs.map Change.on) (.standard ⟨true, true, some (floats fp s), some (floats fp m)⟩)
        (.standard ⟨true, true, some (floats fp (spreads cs s)), some (floats fp (values cs m))⟩) (asIs fp cs.length)
  | centred {cs : List Change} {m sc sc'} : Upward fp cs → m.length = cs.length →
      RecodedStep (cs.map Change.on) (.standard ⟨true, false, sc, some (floats fp m)⟩)
        (.standard ⟨true, false, sc', some (floats fp (values cs m))⟩) (cs.map fun c => Change.on ⟨c.factor, 0⟩)
  | divided {cs : List Change} {s m m'} : Upward fp cs → s.length = cs.length → 0 ∉ s →
      RecodedStep (cs.map Change.on) (.standard ⟨false, true, some (floats fp s), m⟩)
        (.standard ⟨false, true, some (floats fp (spreads cs s)), m'⟩)
        (cs.zipWith (fun c x => Change.on ⟨1, c.offset / (c.factor * x)⟩) s)
  | neither {φs sc sc' m m'} : RecodedStep φs (.standard ⟨false, false, sc, m⟩) (.standard ⟨false, false, sc', m'⟩) φs
  | minMax {cs : List Change} {s m} : Upward fp cs → m.length = cs.length → s.length = cs.length →
      RecodedStep (cs.map Change.on) (.minMax ⟨some (floats fp s), some (floats fp m)⟩)
        (.minMax ⟨some (floats fp (rates cs s)),
          some (floats fp (m.zipWith (· - ·) (cs.zipWith (fun c x => x / c.factor * c.offset) s)))⟩) (asIs fp cs.length)
  | maxAbs {cs : List Change} {s m m'} : Upward fp cs → (∀ c ∈ cs, c.offset = 0) → s.length = cs.length → 0 ∉ s →
      RecodedStep (cs.map Change.on) (.maxAbs ⟨some (floats fp s), m⟩) (.maxAbs ⟨some (floats fp (spreads cs s)), m'⟩)
        (asIs fp cs.length)
  | imputer {φs s s'} : s.addIndicator = false → s'.addIndicator = false → s'.constant = s.constant → s.statistics ≠ [] →
      (s.constant = true ∨ ∀ x ∈ s.statistics ++ s'.statistics, Arith.isnan x = false) → Recoded φs s.statistics s'.statistics →
      (Arith.isnan s.missing = true ∧ Arith.isnan s'.missing = true ∧ (∀ φ ∈ φs, ∀ x, Arith.isnan (φ x) = Arith.isnan x) ∨
        Arith.isnan s.missing = false ∧ Arith.isnan s'.missing = false ∧ ∀ φ ∈ φs, ∀ x, (φ x ==ₚ s'.missing) = (x ==ₚ s.missing)) →
      RecodedStep φs (.imputer s) (.imputer s') φs
  | normalizer {n r w} : fp = FP.exact → n = .l1 ∨ n = .l2 → 0 < r →
      RecodedStep (List.replicate w (Change.on ⟨r, 0⟩)) (.normalizer n) (.normalizer n) (asIs fp w)

/-- The same tests: a value is at most the old threshold when its new code is at most the new one. -/
inductive Rethreshold (φs : List (Code fp)) : DTree (XR fp) → DTree (XR fp) → Prop
  | leaf {v} : Rethreshold φs (.leaf v) (.leaf v)
  | node {f φ thr thr' l l' r r'} : φs[f]? = some φ → (∀ x, (φ x ≤ₚ thr') = (x ≤ₚ thr)) → Rethreshold φs l l' → Rethreshold φs r r' →
      Rethreshold φs (.node f thr l r) (.node f thr' l' r')

/-- The same for trees as scikit-learn keeps them. -/
inductive Regrown (φs : List (Code fp)) : SkTree (XR fp) → SkTree (XR fp) → Prop
  | leaf {v} : Regrown φs (.leaf v) (.leaf v)
  | split {v v' f φ thr thr' l l' r r'} : φs[f]? = some φ → (∀ x, (φ x ≤ₚ thr') = (x ≤ₚ thr)) → Regrown φs l l' → Regrown φs r r' →
      Regrown φs (.split v f thr l r) (.split v' f thr' l' r')

/-- Trees with the same tests, leaves and classes. -/
def SameTests {C : Type} (φs : List (Code fp)) (t t' : Tree (XR fp) C) : Prop :=
  t'.classes = t.classes ∧ ∃ dt dt', t.Encodes 0 dt ∧ t'.Encodes 0 dt' ∧ Rethreshold φs dt dt'

/-- The trees of two boosters, pairwise. -/
inductive SameBooster {C : Type} (φs : List (Code fp)) : XgbTrees (XR fp) C → XgbTrees (XR fp) C → Prop
  | binary {ts ts'} : List.Forall₂ (SameTests φs) ts ts' → SameBooster φs (.binary ts) (.binary ts')
  | multi {ts ts'} : List.Forall₂ (List.Forall₂ (SameTests φs)) ts ts' → SameBooster φs (.multi ts) (.multi ts')

/-- Predictors fitted in the new units. -/
inductive RecodedFit : List (Code fp) → Single (XR fp) → Single (XR fp) → Prop
  | linear {cs : List Change} {k m} {W : List (List ℝ)} {b : List (XR fp)} : fp = FP.exact → (∀ c ∈ cs, c.factor ≠ 0) →
      (∀ r ∈ W, r.length = cs.length) → m.coef = W.map (floats fp) → m.intercept = some b →
      RecodedFit (cs.map Change.on) (.linear k m)
        (.linear k { m with coef := W.map fun r => floats fp (rates cs r), intercept := some (W.zipWith (fun r x => x -ₚ .fin (drift cs r)) b) })
  | treeClassifier {φs t t'} : SameTests φs t t' → RecodedFit φs (.treeClassifier t) (.treeClassifier t')
  | treeRegressor {φs t t'} : SameTests φs t t' → RecodedFit φs (.treeRegressor t) (.treeRegressor t')
  | xgb {φs m ts'} : SameBooster φs m.trees ts' → RecodedFit φs (.xgb m) (.xgb { m with trees := ts' })
  | dummy {φs d} : RecodedFit φs (.dummy d) (.dummy d)
  | gaussianNB {cs : List Change} {m} {T S : List (List ℝ)} : Upward fp cs → (∀ r ∈ T, r.length = cs.length) → (∀ r ∈ S, r.length = cs.length) →
      (∀ r ∈ S, ∀ x ∈ r, 0 < x) → m.theta = T.map (floats fp) → m.sigma = S.map (floats fp) →
      RecodedFit (cs.map Change.on) (.gaussianNB m)
        (.gaussianNB { m with theta := T.map fun r => floats fp (values cs r), sigma := S.map fun r => floats fp (spreads cs (spreads cs r)) })

/-! ### Compound objects -/

/-- Columns multiplied by a finite weight, or left alone. -/
inductive Weighted : Option (XR fp) → List (Code fp) → List (Code fp) → Prop
  | alone {φs} : Weighted none φs φs
  | plain {w n} : Weighted (some w) (asIs fp n) (asIs fp n)
  | units {r} {cs : List Change} : Upward fp cs → Weighted (some (.fin r)) (cs.map Change.on) (cs.map fun c => Change.on ⟨c.factor, c.offset * r⟩)

/-- A named part of a union, before and after, and how its columns are coded before and after weighting. -/
structure Branch (fp : FP) where
  name : String
  before : SkObj (Attrs (XR fp)) (PVal (XR fp)) (XR fp)
  after : SkObj (Attrs (XR fp)) (PVal (XR fp)) (XR fp)
  made : List (Code fp)
  weighted : List (Code fp)

/-- A member of an ensemble, before and after, the columns it sees and their codes. -/
structure Voter (fp : FP) where
  before : SkObj (Attrs (XR fp)) (PVal (XR fp)) (XR fp)
  after : SkObj (Attrs (XR fp)) (PVal (XR fp)) (XR fp)
  seen : List Nat
  codes : List (Code fp)

/-- `Recode φs o o' k`: the second object is the first one for requests coded as `φs`. -/
inductive Recode : List (Code fp) → SkObj (Attrs (XR fp)) (PVal (XR fp)) (XR fp) →
    SkObj (Attrs (XR fp)) (PVal (XR fp)) (XR fp) → Shared fp → Prop
  | step {φs ψs c v a a' s s'} : Learned c a s → Learned c a' s' → RecodedStep φs s s' ψs →
      Recode φs (.leaf c v a) (.leaf c v a') (.columns ψs)
  | fit {φs c v a a' s s'} : Learned c a s → Learned c a' s' → RecodedFit φs s s' →
      Recode φs (.leaf c v a) (.leaf c v a') .answers
  | same {n o} : Recode (asIs fp n) o o .answers
  | lastStep {φs v n o o' k} : Recode φs o o' k → Recode φs (.pipeline v [(n, o)]) (.pipeline v [(n, o')]) k
  | firstStep {φs ψs v n o o' s ss s' ss' k} : Recode φs o o' (.columns ψs) →
      Recode ψs (.pipeline v (s :: ss)) (.pipeline v (s' :: ss')) k →
      Recode φs (.pipeline v ((n, o) :: s :: ss)) (.pipeline v ((n, o') :: s' :: ss')) k
  | union {φs v wts} {parts : List (Branch fp)} : parts ≠ [] →
      (∀ p ∈ parts, Weighted (weightOf wts p.name) p.made p.weighted) →
      (∀ p ∈ parts, Recode φs p.before p.after (.columns p.made)) →
      Recode φs (.union v (parts.map fun p => (p.name, p.before)) wts) (.union v (parts.map fun p => (p.name, p.after)) wts)
        (.columns (parts.map Branch.weighted).flatten)
  | ensemble {φs kd v cs ms ms'} : ms.length = ms'.length → (∀ p ∈ ms.zip ms', Recode φs p.1 p.2 .answers) →
      Recode φs (.ensemble kd v none cs ms) (.ensemble kd v none cs ms') .answers
  | subspaces {φs kd v cs} {members : List (Voter fp)} :
      (∀ m ∈ members, List.Forall₂ (fun j φ => φs[j]? = some φ) m.seen m.codes) →
      (∀ m ∈ members, Recode m.codes m.before m.after .answers) →
      Recode φs (.ensemble kd v (some (members.map fun m => m.seen.map Int.ofNat)) cs (members.map Voter.before))
        (.ensemble kd v (some (members.map fun m => m.seen.map Int.ofNat)) cs (members.map Voter.after)) .answers
  | boosting {φs v cs stages stages' init init' loss lr} : stages.length = stages'.length →
      (∀ p ∈ stages.zip stages', p.1.length = p.2.length) → (∀ p ∈ stages.zip stages', ∀ q ∈ p.1.zip p.2, Recode φs q.1 q.2 .answers) →
      Recode φs init init' .answers →
      Recode φs (.boosting v cs stages init loss [.float lr, .int φs.length]) (.boosting v cs stages' init' loss [.float lr, .int φs.length]) .answers

end PurePredict.Spec
