import Verif.Spec.Batch
/-
Specification of record-by-record processing through several steps.
-/
namespace PurePredict.Spec

/-- A way of presenting records as the data object a step receives: dense matrices of one width,
sparse matrices of one size, lists of documents, ... -/
structure Form (D : Type) where
  /-- what one record is -/
  Rec : Type
  /-- which records are admissible -/
  Ok : Rec → Prop
  /-- the data object made of a batch of records -/
  emb : List Rec → D

/-- All records of a batch are admissible, and there is at least one. -/
def Form.Batch {D : Type} (A : Form D) (xs : List A.Rec) : Prop := xs ≠ [] ∧ ∀ x ∈ xs, A.Ok x

/-- The step `f` takes batches presented as `A` to batches presented as `B`, one record at a time:
its results are the batches a batch independent `g` gives. -/
def RecordByRecord {D E : Type} (A : Form D) (B : Form E) (f : D → Py E) : Prop :=
  ∃ g : List A.Rec → Py (List B.Rec), BatchIndependent A.Ok g ∧
    ∀ xs, A.Batch xs →
      (∀ y, f (A.emb xs) = .ok y ↔ ∃ c, g xs = .ok c ∧ y = B.emb c) ∧
      ∀ c, g xs = .ok c → ∀ z ∈ c, B.Ok z

/-- A chain of steps, each one record by record. -/
inductive BatchChain {D : Type} : Form D → List (D → Py D) → Form D → Prop
  | nil (A) : BatchChain A [] A
  | cons {A B C f fs} : RecordByRecord A B f → BatchChain B fs C → BatchChain A (f :: fs) C

end PurePredict.Spec
