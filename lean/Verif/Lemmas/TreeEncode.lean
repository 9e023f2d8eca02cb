import Verif.Lemmas.Tree
/-
Prediction with array trees that encode an inductive tree, as equations.
-/
namespace PurePredict
open Spec

theorem mapM_kleisli_of_ok {α β γ : Type} {f : α → Py β} {g : β → Py γ} {l : List α}
    (h : ∀ x ∈ l, ∀ y, f x = .ok y → ∃ z, g y = .ok z) :
    (l.mapM fun x => f x >>= g) = l.mapM f >>= fun ys => ys.mapM g := by
  induction l with
  | nil => rfl
  | cons a l ih =>
    have ih := ih fun x hx => h x (by simp [hx])
    rw [mapM_cons', mapM_cons', ih]
    cases hf : f a with
    | error e => rfl
    | ok y =>
      obtain ⟨z, hz⟩ := h a (by simp) y hf
      simp only [py_ok_bind, hz]
      cases hm : l.mapM f with
      | error e => rfl
      | ok ys =>
        simp only [py_ok_bind, py_pure]
        rw [mapM_cons', hz, py_ok_bind]
        rfl

theorem mapM_bind_of_ok {α β γ : Type} {g : α → Py β} {h : β → Py γ} {l : List α}
    (hg : ∀ x ∈ l, ∃ y, g x = .ok y) :
    (l.mapM fun x => g x >>= h) = l.mapM g >>= fun ys => ys.mapM h := by
  induction l with
  | nil => rfl
  | cons a l ih =>
    have ih := ih fun x hx => hg x (by simp [hx])
    obtain ⟨y, hy⟩ := hg a (by simp)
    obtain ⟨ys, hys⟩ := mapM_total (l := l) fun x hx => hg x (by simp [hx])
    rw [mapM_cons', mapM_cons', ih, hy, hys]
    simp only [py_ok_bind, mapM_cons', py_pure]

variable {F C : Type} [Arith F]

/-- The value of the leaf a record reaches, or the exception for a missing feature. -/
def _root_.PurePredict.Spec.DTree.evalPy (dt : DTree F) (x : Row F) : Py (List F) :=
  match dt.eval x.look with
  | some v => .ok v
  | none => .error x.lookErr

namespace Tree

theorem evalPy_eq {t : Tree F C} {dt : DTree F} (henc : t.Encodes 0 dt) (x : Row F) :
    dt.evalPy x = t.getLeafNode x >>= fun nd => pyGet t.value nd := by
  have := getLeafNode_encodes henc x
  unfold DTree.evalPy
  cases he : dt.eval x.look with
  | none => rw [he] at this; rw [this]; rfl
  | some v =>
    rw [he] at this
    obtain ⟨k, h1, h2⟩ := this
    rw [h1, py_ok_bind, pyGet_ok_nat.2 h2]

theorem leaf_value_ok {t : Tree F C} {dt : DTree F} (henc : t.Encodes 0 dt) (x : Row F) (nd : Int)
    (h : t.getLeafNode x = .ok nd) : ∃ v, pyGet t.value nd = .ok v := by
  have := getLeafNode_encodes henc x
  cases he : dt.eval x.look with
  | none => rw [he] at this; rw [this] at h; cases h
  | some v =>
    rw [he] at this
    obtain ⟨k, h1, h2⟩ := this
    rw [h1] at h
    cases h
    exact ⟨v, pyGet_ok_nat.2 h2⟩

theorem leaves_encodes {t : Tree F C} {dt : DTree F} (henc : t.Encodes 0 dt) {γ : Type}
    (h : List F → Py γ) (rs : List (Row F)) :
    (rs.mapM t.getLeafNode >>= fun ls => ls.mapM fun nd => pyGet t.value nd >>= h) =
      rs.mapM dt.evalPy >>= fun vs => vs.mapM h := by
  have e : dt.evalPy = fun x => t.getLeafNode x >>= fun nd => pyGet t.value nd := by
    funext x; exact evalPy_eq henc x
  rw [e, mapM_kleisli_of_ok fun x _ nd => leaf_value_ok henc x nd]
  cases hl : rs.mapM t.getLeafNode with
  | error e => rfl
  | ok ls =>
    simp only [py_ok_bind]
    apply mapM_bind_of_ok
    intro nd hnd
    obtain ⟨x, _, hx⟩ := mapM_mem hl hnd
    exact leaf_value_ok henc x nd hx

variable {t : Tree F C} {dt : DTree F} (henc : t.Encodes 0 dt) {X : Arr F} {rs : List (Row F)}
  (hc : checkArray X .allow = .ok X) (hr : X.rows = .ok rs)
include henc hc hr

theorem predictProba_eq : t.predictProba X =
    rs.mapM dt.evalPy >>= fun vs => vs.mapM fun v => v.mapM fun a => a /ₚ pySum v := by
  simp only [predictProba, hc, py_ok_bind, hr]
  exact leaves_encodes henc (fun v => v.mapM fun a => a /ₚ pySum v) rs

theorem predictReg_eq : t.predictReg X =
    rs.mapM dt.evalPy >>= fun vs => vs.mapM fun v => pyGet v 0 := by
  simp only [predictReg, hc, py_ok_bind, hr]
  exact leaves_encodes henc (fun v => pyGet v 0) rs

theorem predict_eq : t.predict X =
    rs.mapM dt.evalPy >>= fun vs => vs.mapM argmax >>= fun ps =>
      ps.mapM fun (p : Nat) => pyGet t.classes (p : Int) := by
  simp only [predict, hc, py_ok_bind, hr]
  have := leaves_encodes henc argmax rs
  rw [← bind_assoc, ← bind_assoc, ← this]
  rfl

end Tree
end PurePredict
