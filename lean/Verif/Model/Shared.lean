import Verif.Model.Pipeline
import Verif.Model.Text
import Verif.Model.Preprocessing
/-
Feature unions and pipelines on a request object that their members may modify or return.  The models
of `Model/Pipeline.lean` take members for functions of the request's value; here a member also says what
becomes of the object.
-/
namespace PurePredict
variable {F : Type} [Arith F]

/-- What `transform` of a member does with the object it is given: the new object it returns (`none`: it
returns the very object it was given) and the value of the given object afterwards. -/
abbrev UMember (F : Type) := Arr F → Py (Option (Arr F) × Arr F)

/-- The value a member returns, seen right after the call. -/
def UMember.value (t : UMember F) (X : Arr F) : Py (Arr F) := do
  let r ← t X
  return r.1.getD r.2

/-- A transformer that builds its result and leaves the given object alone. -/
def UMember.ofPure (t : Arr F → Py (Arr F)) : UMember F := fun X => do return (some (← t X), X)

/-- A transformer that returns the object it was given, for instance StandardScalerPure with neither
mean nor scale (preprocessing/_data.py:133-154: `X` is not assigned; `check_array` makes an exception
object of an empty list). -/
def UMember.same : UMember F := fun X => do
  match ← checkArray X .allow with
  | .errObj => return (some .errObj, X)
  | _ => return (none, X)

/-- feature_extraction/text.py:421-443: the idf weights are multiplied into the given object; without
norm that object is returned, with a norm `normalize_pure` builds a new one. -/
def UMember.tfidf (t : Tfidf F) : UMember F := fun X => do
  let r ← t.transform X
  match t.norm with
  | none => return (none, r.2)
  | some _ => return (some r.1, r.2)

/-- pipeline.py:162-176, members with effects -/
structure SharedUnion (F : Type) where
  transformers : List (String × UMember F)
  weights : Option (Dict String F)

/-- pipeline.py:59-64 `_transform_one`: multiplying by a weight builds a new object. -/
def sharedOne (t : UMember F) (X : Arr F) (weight : Option F) : Py (Option (Arr F) × Arr F) := do
  let r ← t X
  match weight with
  | none => return r
  | some w => return (some (.ofMat (← apply2d (r.1.getD r.2) fun x => .ok (x *ₚ w))), r.2)

/-- pipeline.py:192-195: one member after the other, all on the same object -/
def sharedAll (weightOf : String → Option F) : List (String × UMember F) → Arr F →
    Py (List (Option (Arr F)) × Arr F)
  | [], X => .ok ([], X)
  | t :: ts, X => do
    let r ← sharedOne t.2 X (weightOf t.1)
    let rs ← sharedAll weightOf ts r.2
    return (r.1 :: rs.1, rs.2)

/-- pipeline.py:186-218 `transform`: the result, and the request object afterwards.  Outputs that are the
request object are read after all members have run. -/
def SharedUnion.transform (u : SharedUnion F) (X : Arr F) : Py (Arr F × Arr F) := do
  let X ← checkArray X .allow
  let rs ← sharedAll (fun name => (u.weights.getD []).get? name) u.transformers X
  return (← unionOf rs.2.len rs.2.shape (rs.1.map fun o => o.getD rs.2), rs.2)

/-- pipeline.py:138-142 `_transform` with effects: the object in hand (`none`: still the caller's) and the
caller's object. -/
def sharedSteps : List (UMember F) → Option (Arr F) → Arr F → Py (Option (Arr F) × Arr F)
  | [], cur, X => .ok (cur, X)
  | t :: ts, none, X => do
    let r ← t X
    sharedSteps ts r.1 r.2
  | t :: ts, some Y, X => do
    let r ← t Y
    sharedSteps ts (some (r.1.getD r.2)) X

/-- pipeline.py:138-142 -/
def sharedPipeline (ts : List (UMember F)) (X : Arr F) : Py (Arr F × Arr F) := do
  let r ← sharedSteps ts none X
  return (r.1.getD r.2, r.2)

end PurePredict
