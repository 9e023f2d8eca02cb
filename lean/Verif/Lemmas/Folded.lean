import Verif.Spec.Folded
import Verif.Lemmas.RecodeObject
import Verif.Lemmas.Idle
/-
Helper lemmas for C117.
-/
namespace PurePredict
open Spec
namespace Fold
variable {lib : String → TextLib} {encode : Str → List Nat}

theorem sub_on (m : ℝ) (x : Ex) : x -ₚ .fin m = Change.on ⟨1, -m⟩ x := by
  cases x with
  | fin x => rw [exact_on_fin, XR.sub_exact]; congr 1; ring
  | _ => simp [Change.on, Arith.sub, Arith.mul, Arith.add, XR.sub, XR.neg, XR.add, XR.mul, XR.infMul]

theorem quot_on {s : ℝ} (hs : s ≠ 0) (m : ℝ) (x : Ex) : quotOr (x -ₚ .fin m) (.fin s) = Change.on ⟨1 / s, -m / s⟩ x := by
  cases x with
  | fin x =>
    rw [exact_on_fin, XR.sub_exact, quotOr_fin hs]
    congr 1
    field_simp
    ring
  | nan => simp [quotOr, Change.on, Arith.sub, Arith.mul, Arith.add, Arith.div, XR.sub, XR.neg, XR.add, XR.mul, XR.div, hs]
  | pinf =>
    rcases lt_or_gt_of_ne hs with h | h
    · have h2 : ¬ 0 < s := not_lt.2 h.le
      have h3 : ¬ 0 < s⁻¹ := not_lt.2 (inv_nonpos.2 h.le)
      simp [quotOr, Change.on, Arith.sub, Arith.mul, Arith.add, Arith.div, XR.sub, XR.neg, XR.add, XR.mul, XR.div, XR.infMul, hs, h2, h3]
    · simp [quotOr, Change.on, Arith.sub, Arith.mul, Arith.add, Arith.div, XR.sub, XR.neg, XR.add, XR.mul, XR.div, XR.infMul, hs, h]
  | ninf =>
    rcases lt_or_gt_of_ne hs with h | h
    · have h2 : ¬ 0 < s := not_lt.2 h.le
      have h3 : ¬ 0 < s⁻¹ := not_lt.2 (inv_nonpos.2 h.le)
      simp [quotOr, Change.on, Arith.sub, Arith.mul, Arith.add, Arith.div, XR.sub, XR.neg, XR.add, XR.mul, XR.div, XR.infMul, hs, h2, h3]
    · simp [quotOr, Change.on, Arith.sub, Arith.mul, Arith.add, Arith.div, XR.sub, XR.neg, XR.add, XR.mul, XR.div, XR.infMul, hs, h]

theorem quot_on' {s : ℝ} (hs : s ≠ 0) (x : Ex) : quotOr x (.fin s) = Change.on ⟨1 / s, 0⟩ x := by
  have := quot_on hs 0 x
  rw [show x -ₚ (.fin 0 : Ex) = x by
    rw [sub_on]; cases x <;> simp [Change.on, Arith.mul, Arith.add, XR.add, XR.mul, XR.infMul]] at this
  rw [this]
  simp

theorem scale_on (s m : ℝ) (x : Ex) : (x *ₚ .fin s) +ₚ .fin m = Change.on ⟨s, m⟩ x := by
  cases x with
  | fin x => simp [Change.on, mul_comm]
  | _ => rfl

/-- one column after the other -/
theorem recoded_one {α : Type} (φ : α → Code FP.exact) (g : Ex → α → Ex) {p : List α} (h : ∀ a ∈ p, ∀ x, g x a = φ a x) {x : List Ex} (hx : x.length = p.length) :
    Recoded (p.map φ) x (x.zipWith g p) := by
  induction p generalizing x with
  | nil =>
    obtain rfl := List.length_eq_zero_iff.1 hx
    exact .nil
  | cons a p ih =>
    cases x with
    | nil => simp at hx
    | cons b x =>
      rw [List.zipWith_cons_cons, h a (by simp)]
      exact .cons (ih (fun c hc => h c (by simp [hc])) (by simpa using hx))

theorem recoded_two (φ : ℝ → ℝ → Code FP.exact) (g k : Ex → Ex → Ex) {p q : List ℝ} (hl : p.length = q.length)
    (h : ∀ a, ∀ b ∈ q, ∀ x, k (g x (.fin a)) (.fin b) = φ a b x) {x : List Ex} (hx : x.length = p.length) :
    Recoded (p.zipWith φ q) x ((x.zipWith g (floats _ p)).zipWith k (floats _ q)) := by
  induction p generalizing x q with
  | nil =>
    obtain rfl := List.length_eq_zero_iff.1 hx
    exact .nil
  | cons a p ih =>
    cases x with
    | nil => simp at hx
    | cons b x =>
      cases q with
      | nil => simp at hl
      | cons d q =>
        simp only [floats, List.map_cons, List.zipWith_cons_cons]
        rw [h a d (by simp)]
        exact .cons (ih (by simpa using hl) (fun c e he => h c e (by simp [he])) (by simpa using hx))

theorem recoded_map {φs : List (Code FP.exact)} {g : List Ex → List Ex} {M : List (List Ex)} (h : ∀ x ∈ M, Recoded φs x (g x)) :
    List.Forall₂ (Recoded φs) M (M.map g) := by
  induction M with
  | nil => exact .nil
  | cons x M ih => exact .cons (h x (by simp)) (ih fun y hy => h y (by simp [hy]))

/-- A scaler writes every entry in the units of its column. -/
theorem affine_run {s : Single Ex} {cs : List Change} (h : Affine s cs) : ∃ t, (s.est lib encode).transform = some t ∧
    ∀ M : List (List Ex), M ≠ [] → (∀ r ∈ M, r.length = cs.length) →
      ∃ N, t (.arr (.ofMat M)) = .ok (.arr (.ofMat N)) ∧ List.Forall₂ (Recoded (cs.map Change.on)) M N := by
  cases h with
  | @standard m s hl h0 =>
    refine ⟨_, rfl, fun M hM hw => ?_⟩
    have hw' : ∀ r ∈ M, r.length = m.length := fun r hr => by rw [hw r hr]; simp [hl]
    refine ⟨M.map fun x => (x.zipWith (fun a b => a -ₚ b) (floats _ m)).zipWith quotOr (floats _ s), ?_, ?_⟩
    · show (StandardScaler.transform _ _ >>= _) = _
      rw [standard_run _ hM]
      simp only [if_true, notNone, py_ok_bind]
      rw [columnwise_sub hw', py_ok_bind, columnwise_div h0 (by
        intro r hr
        obtain ⟨x, hx, rfl⟩ := List.mem_map.1 hr
        simp [floats, hw' x hx, hl])]
      simp only [py_ok_bind, Arr.ofMat, List.map_map]
      rfl
    · refine recoded_map fun x hx => ?_
      rw [List.map_zipWith]
      exact recoded_two (fun m s => Change.on ⟨1 / s, -m / s⟩) _ _ hl (fun a b hb x => quot_on (fun e => h0 (e ▸ hb)) a x) (hw' x hx)
  | @centred m sc =>
    refine ⟨_, rfl, fun M hM hw => ?_⟩
    have hw' : ∀ r ∈ M, r.length = m.length := fun r hr => by rw [hw r hr]; simp
    refine ⟨M.map fun x => x.zipWith (fun a b => a -ₚ b) (floats _ m), ?_, ?_⟩
    · show (StandardScaler.transform _ _ >>= _) = _
      rw [standard_run _ hM]
      simp only [if_true, notNone, py_ok_bind, Bool.false_eq_true, if_false]
      rw [columnwise_sub hw']
      rfl
    · refine recoded_map fun x hx => ?_
      rw [List.map_map, floats, List.zipWith_map_right]
      exact recoded_one (fun m => Change.on ⟨1, -m⟩) _ (fun a _ x => sub_on a x) (hw' x hx)
  | @divided s m h0 =>
    refine ⟨_, rfl, fun M hM hw => ?_⟩
    have hw' : ∀ r ∈ M, r.length = s.length := fun r hr => by rw [hw r hr]; simp
    refine ⟨M.map fun x => x.zipWith quotOr (floats _ s), ?_, ?_⟩
    · show (StandardScaler.transform _ _ >>= _) = _
      rw [standard_run _ hM]
      simp only [if_true, notNone, py_ok_bind, Bool.false_eq_true, if_false]
      rw [columnwise_div h0 hw']
      rfl
    · refine recoded_map fun x hx => ?_
      rw [List.map_map, floats, List.zipWith_map_right]
      exact recoded_one (fun s => Change.on ⟨1 / s, 0⟩) _ (fun a ha x => quot_on' (fun e => h0 (e ▸ ha)) x) (hw' x hx)
  | @minMax s m hl =>
    refine ⟨_, rfl, fun M hM hw => ?_⟩
    have hw' : ∀ r ∈ M, r.length = s.length := fun r hr => by rw [hw r hr]; simp [hl]
    refine ⟨M.map fun x => (x.zipWith (fun u c => u *ₚ c) (floats _ s)).zipWith (fun u c => u +ₚ c) (floats _ m), ?_, ?_⟩
    · show (MinMaxScaler.transform _ _ >>= _) = _
      rw [minMax_run (n := s.length) (by simp [floats]) (by simp [floats, hl]) hM hw']
      rfl
    · refine recoded_map fun x hx => ?_
      rw [List.map_zipWith]
      exact recoded_two (fun s m => Change.on ⟨s, m⟩) _ _ hl (fun a b _ x => scale_on a b x) (hw' x hx)
  | @maxAbs s m h0 =>
    refine ⟨_, rfl, fun M hM hw => ?_⟩
    have hw' : ∀ r ∈ M, r.length = s.length := fun r hr => by rw [hw r hr]; simp
    refine ⟨M.map fun x => x.zipWith quotOr (floats _ s), ?_, ?_⟩
    · show (MaxAbsScaler.transform _ _ >>= _) = _
      have hc : checkArray (.list (M.map Row.list)) .allow = .ok (.list (M.map Row.list)) := checkArray_ofMat hM _
      have e : (⟨some (floats _ s), m⟩ : MaxAbsScaler Ex).transform (.ofMat M) =
          columnwise (floats _ s) Arith.div (M.map Row.list) >>= fun rs => .ok (.list rs) := by
        show MaxAbsScaler.transform _ (.list _) = _
        simp only [MaxAbsScaler.transform, hc, py_ok_bind, rows_list, notNone]
        rfl
      rw [e, columnwise_div h0 hw']
      rfl
    · refine recoded_map fun x hx => ?_
      rw [List.map_map, floats, List.zipWith_map_right]
      exact recoded_one (fun s => Change.on ⟨1 / s, 0⟩) _ (fun a ha x => quot_on' (fun e => h0 (e ▸ ha)) x) (hw' x hx)

/-- The first step of a longer pipeline. -/
theorem first_step {F : Type} [Arith F] (n : String) (e : Methods F) {t : Data F → Py (Data F)} (he : e.transform = some t) (l : List (String × Methods F)) (hl : l ≠ []) :
    pipelineEst ((n, e) :: l) = {
      transform := (pipelineEst l).transform.map fun u X => t X >>= u
      predict := (pipelineEst l).predict.map fun u X => t X >>= u
      predictProba := (pipelineEst l).predictProba.map fun u X => t X >>= u
      predictLogProba := (pipelineEst l).predictLogProba.map fun u X => t X >>= u } := by
  obtain ⟨l, ⟨k, z⟩, rfl⟩ := List.eq_append_cons_of_mem (List.getLast_mem hl) |> fun _ => (⟨l.dropLast, l.getLast hl, (List.dropLast_append_getLast hl).symm⟩ : ∃ a b, l = a ++ [b])
  rw [← List.cons_append, Trim.pipe_methods, Trim.pipe_methods]
  have hx : ∀ {β : Type} (p : Option (Data F → Py β)), (p.map fun u X => Pipeline.applyAll (Trim.asSteps ((n, e) :: l)) X >>= u) =
      (p.map fun u X => Pipeline.applyAll (Trim.asSteps l) X >>= u).map fun u X => t X >>= u := by
    intro β p
    cases p with
    | none => rfl
    | some u =>
      simp only [Option.map_some, Option.some.injEq]
      funext X
      have : Pipeline.applyAll (Trim.asSteps ((n, e) :: l)) X = t X >>= fun Y => Pipeline.applyAll (Trim.asSteps l) Y := by
        simp [Trim.asSteps, Pipeline.applyAll, he]
      rw [this]
      cases t X <;> rfl
  simp only [hx]

end Fold
end PurePredict
