import Verif.Spec.Idle
import Verif.Lemmas.GaugeObject
import Verif.Lemmas.Redrawn
import Verif.Props.C41
/-
Lemmas for C115: parts with nothing to do.
-/
namespace PurePredict.Trim
open Spec Gauge
variable {F : Type} [Arith F] {P Q : Data F → Prop} {lib : String → TextLib} {encode : Str → List Nat}

/-! ### Transformers -/

theorem mapM_id {α : Type} {f : α → Py α} {l : List α} (h : ∀ x ∈ l, f x = .ok x) : l.mapM f = .ok l := by
  induction l with
  | nil => rfl
  | cons x l ih =>
    rw [mapM_cons', h x (by simp), ih fun y hy => h y (by simp [hy])]
    rfl

theorem range_row {r p : List F} {f : F → F → Py F} (h : List.Forall₂ (fun x c => f x c = .ok x) r p) :
    ((List.range p.length).mapM fun (i : Nat) => do f (← (Row.list r).getItem (i : Int)) (← pyGet p (i : Int))) = .ok r := by
  apply mapM_ok_iff.2
  rw [List.forall₂_iff_get]
  have hl := h.length_eq
  refine ⟨by simp [hl], fun i h1 h2 => ?_⟩
  have hp : i < p.length := by simpa using h1
  have hf := (List.forall₂_iff_get.1 h).2 i h2 hp
  simp only [List.get_eq_getElem, List.getElem_range] at hf ⊢
  have e1 : (Row.list r).getItem (i : Int) = .ok r[i] := pyGet_lt h2
  have e2 : pyGet p (i : Int) = .ok p[i] := pyGet_lt hp
  rw [e1, e2]
  exact hf

theorem columnwise_id {M : List (List F)} {p : List F} {f : F → F → Py F} (h : ∀ r ∈ M, List.Forall₂ (fun x c => f x c = .ok x) r p) :
    columnwise p f (M.map Row.list) = .ok (M.map Row.list) := by
  unfold columnwise
  apply mapM_id
  intro r hr
  obtain ⟨r', hr', rfl⟩ := List.mem_map.1 hr
  rw [range_row (h r' hr')]
  rfl

theorem checkArray_mat {M : List (List F)} (h : M ≠ []) (s : HandleSparse) : checkArray (.ofMat M) s = .ok (.ofMat M) := by
  cases M with
  | nil => exact absurd rfl h
  | cons r M => rfl

theorem sparseList_dicts {rs : List (Dict Int F)} (h : rs ≠ []) (size : Option Nat) (dt : DType) :
    sparseList (.list (rs.map Row.dict)) size (some dt) = .ok (.sparse rs size dt) := by
  have e : asDicts (rs.map (Row.dict (F := F))) = .ok rs := by
    unfold asDicts
    rw [mapM_map']
    exact mapM_id fun _ _ => rfl
  cases rs with
  | nil => exact absurd rfl h
  | cons r rs =>
    unfold sparseList
    simp only [Arr.first, Arr.rows, List.map_cons, py_ok_bind] at e ⊢
    rw [e]
    rfl

theorem scaleDicts_id {rs : List (Dict Int F)} {d : List F} (h : ∀ r ∈ rs, KeptBy d r) : scaleDicts (some d) rs = .ok rs := by
  unfold scaleDicts
  refine mapM_id fun r hr => mapM_id fun kv hkv => ?_
  obtain ⟨i, c, h1, h2, h3⟩ := h r hr kv hkv
  have : pyGet d kv.1 = .ok c := by rw [h1]; exact pyGet_ok_nat.2 h2
  simp only [notNone, py_ok_bind, this, h3]
  rfl

theorem elems_list (r : List F) : (Row.list r).elems = .ok r := by
  unfold Row.elems
  simp only [Row.len, py_ok_bind]
  apply mapM_ok_iff.2
  rw [List.forall₂_iff_get]
  refine ⟨by simp, fun i h1 h2 => ?_⟩
  simp only [List.get_eq_getElem, List.getElem_range]
  exact pyGet_lt h2

theorem imputeRow_id {stats : List F} {missing : F} {r : List F} (h : ∀ x ∈ r, Present missing x) : imputeRow stats missing r = .ok r := by
  unfold imputeRow
  apply mapM_ok_iff.2
  rw [List.forall₂_iff_get]
  refine ⟨by simp, fun i h1 h2 => ?_⟩
  simp only [List.get_eq_getElem, List.getElem_zipIdx]
  have hx := h r[i] (List.getElem_mem _)
  have : toImpute r[i] missing = false := by
    unfold toImpute
    cases hm : Arith.isnan missing with
    | true => simpa using hx.1 hm
    | false => simpa using hx.2 hm
  simp [this]

theorem shape_mat {r : List F} {M : List (List F)} : (Arr.ofMat (r :: M)).shape = .ok (.d2 (M.length + 1) (some r.length)) := by
  simp [Arr.shape, Arr.ofMat, Arr.ndim, Arr.first, Arr.rows, Arr.len, Row.len]

theorem idle_id {s : Single F} {X : Data F} (h : Idle s X) : ∃ t, (s.est lib encode).transform = some t ∧ t X = .ok X := by
  cases h with
  | @standard s M hM h1 h2 =>
    refine ⟨_, rfl, ?_⟩
    have : s.transform (.ofMat M) = .ok (.ofMat M) := by
      unfold StandardScaler.transform
      rw [checkArray_mat hM]
      simp only [py_ok_bind, Arr.ofMat, Arr.rows, py_pure]
      have e2 : (if s.withStd = true then (do
          let p ← notNone s.scale
          let rs ← columnwise p Arith.div (M.map Row.list)
          .ok (Arr.list rs))
        else .ok (.list (M.map Row.list))) = (.ok (.list (M.map Row.list)) : Py (Arr F)) := by
        cases hm : s.withStd with
        | false => rfl
        | true =>
          obtain ⟨m, e, hr⟩ := h2 hm
          simp only [if_true, e, notNone, py_ok_bind, columnwise_id hr]
      cases hm : s.withMean with
      | false => simpa using e2
      | true =>
        obtain ⟨m, e, hr⟩ := h1 hm
        have := columnwise_id (f := fun a b => .ok (a -ₚ b)) fun r hr' => (hr r hr').imp fun x c (hx : (x -ₚ c) = x) => congrArg Except.ok hx
        have e3 : notNone (some m) = (.ok m : Py (List F)) := rfl
        simp only [if_true, e, e3, py_ok_bind, this]
        simpa using e2
    simp only [Data.onArr, this, py_ok_bind]
    rfl
  | @standardOff s rs size dt h1 h2 =>
    refine ⟨_, rfl, ?_⟩
    simp [Data.onArr, StandardScaler.transform, checkArray, h1, h2]
  | @standardSparse s rs size dt d h1 h2 h3 h4 =>
    refine ⟨_, rfl, ?_⟩
    simp [Data.onArr, StandardScaler.transform, checkArray, h1, h2, scaleDicts_id h4, sparseList_dicts h3]
  | @minMax s M sc mn hM h1 h2 h3 h4 =>
    refine ⟨_, rfl, ?_⟩
    have : s.transform (.ofMat M) = .ok (.ofMat M) := by
      unfold MinMaxScaler.transform
      rw [if_neg (by simp [Arr.ofMat, Arr.issparse]), checkArray_mat hM]
      simp only [py_ok_bind, rows_ofMat, mapM_map']
      refine (congrArg (· >>= _) (mapM_id fun r hr => ?_)).trans (by rfl)
      simp only [h1, notNone, py_ok_bind, h2]
      apply mapM_ok_iff.2
      rw [List.forall₂_iff_get]
      have hl := (h4 r hr).length_eq
      rw [List.length_zip, h3, Nat.min_self] at hl
      refine ⟨by simp [hl], fun i g1 g2 => ?_⟩
      have hi : i < sc.length := by simpa using g1
      have hf := (List.forall₂_iff_get.1 (h4 r hr)).2 i g2 (by simp [h3, hi])
      simp only [List.get_eq_getElem, List.getElem_range, List.getElem_zip] at hf ⊢
      have e1 : (Row.list r).getItem (i : Int) = .ok r[i] := pyGet_lt g2
      rw [e1, pyGet_lt hi, pyGet_lt (h3 ▸ hi : i < mn.length)]
      simp only [py_ok_bind, hf]
      rfl
    simp only [Data.onArr, this, py_ok_bind]
    rfl
  | @maxAbs s M d hM h1 h2 =>
    refine ⟨_, rfl, ?_⟩
    have : s.transform (.ofMat M) = .ok (.ofMat M) := by
      unfold MaxAbsScaler.transform
      rw [checkArray_mat hM]
      simp only [py_ok_bind, Arr.ofMat, Arr.rows, h1, notNone]
      rw [columnwise_id h2]
      rfl
    simp only [Data.onArr, this, py_ok_bind]
    rfl
  | @maxAbsSparse s rs size dt d h2 h3 h4 =>
    refine ⟨_, rfl, ?_⟩
    simp [Data.onArr, MaxAbsScaler.transform, checkArray, h2, scaleDicts_id h4, sparseList_dicts h3]
  | @imputer s M hM h1 h2 h3 h4 =>
    refine ⟨_, rfl, ?_⟩
    have : s.transform (.ofMat M) = .ok (.ofMat M) := by
      unfold SimpleImputer.transform
      rw [checkArray_mat hM]
      have hw : (Arr.ofMat M).width = .ok (some s.statistics.length) := by
        cases M with
        | nil => exact absurd rfl hM
        | cons r M => rw [width_ofMat_cons, (h4 r (by simp)).1]
      have hr : (if s.constant then [] else (s.statistics.zipIdx.filter fun p => Arith.isnan p.1).map (·.2)) = [] := by
        rcases h3 with h3 | h3
        · simp [h3]
        · have : (s.statistics.zipIdx.filter fun p => Arith.isnan p.1) = [] := by
            rw [List.filter_eq_nil_iff]
            intro p hp
            simp [h3 p.1 (List.fst_mem_of_mem_zipIdx hp)]
          simp [this]
      have he : (M.map Row.list).mapM Row.elems = .ok M := by
        rw [mapM_map']
        exact mapM_id fun r _ => elems_list r
      have hi : M.mapM (imputeRow s.statistics s.missing) = .ok M := mapM_id fun r hr => imputeRow_id (h4 r hr).2
      simp only [py_ok_bind, SimpleImputer.transformIndicator, h1, Bool.false_eq_true, if_false, py_pure, hw, rows_ofMat]
      rw [if_neg (by simpa using h2), if_neg (by simp)]
      simp only [hr, List.isEmpty_nil, if_true, he, py_ok_bind, hi]
      rfl
    simp only [Data.onArr, this, py_ok_bind]
    rfl
  | @tfidf t M hM h1 h2 h3 =>
    refine ⟨_, rfl, ?_⟩
    have : t.transform (.ofMat M) = .ok (.ofMat M, .ofMat M) := by
      unfold Tfidf.transform
      rw [checkArray_mat hM]
      cases M with
      | nil => exact absurd rfl hM
      | cons r M => simp [shape_mat, h1, h2, h3]
    simp only [Data.onArr, this, py_ok_bind]
    rfl
  | @tfidfSparse t rs size dt hM h1 h2 h3 =>
    refine ⟨_, rfl, ?_⟩
    have : t.transform (.sparse rs size dt) = .ok (.sparse rs size dt, .sparse rs size dt) := by
      unfold Tfidf.transform
      cases rs with
      | nil => exact absurd rfl hM
      | cons r rs => simp [checkArray, Arr.shape, Arr.ndim, Arr.first, Arr.rows, h1, h2, h3]
    simp only [Data.onArr, this, py_ok_bind]
    rfl

/-! ### Pipelines -/

/-- steps as the pipeline sees them -/
def asSteps (l : List (String × Methods F)) : List (String × Option (Methods F)) := l.map fun s => (s.1, some s.2)

theorem asSteps_append (a b : List (String × Methods F)) : asSteps (a ++ b) = asSteps a ++ asSteps b := by simp [asSteps]

theorem delegated_snoc {R : Type} (l : List (String × Option (Methods F))) (n : String) (e : Methods F) (m : Methods F → Option (Data F → Py R)) :
    (⟨l ++ [(n, some e)]⟩ : Pipeline (Data F) (List (PVal F)) (List (List F))).delegated m = match m e with | none => .error .attributeError | some f => .ok f := by
  simp only [Pipeline.delegated, Pipeline.finalEstimator, List.getLast?_append, List.getLast?_singleton, Option.some_or, py_ok_bind]
  cases m e <;> rfl

/-- The methods of a pipeline with a last step. -/
theorem pipe_methods (l : List (String × Methods F)) (n : String) (e : Methods F) :
    pipelineEst (l ++ [(n, e)]) = {
      transform := e.transform.map fun t X => Pipeline.applyAll (asSteps l) X >>= t
      predict := e.predict.map fun t X => Pipeline.applyAll (asSteps l) X >>= t
      predictProba := e.predictProba.map fun t X => Pipeline.applyAll (asSteps l) X >>= t
      predictLogProba := e.predictLogProba.map fun t X => Pipeline.applyAll (asSteps l) X >>= t } := by
  have hl : pipelineEst (l ++ [(n, e)]) = Pipeline.asEst ⟨asSteps l ++ [(n, some e)]⟩ := by simp [pipelineEst, asSteps]
  have fin : (⟨asSteps l ++ [(n, some e)]⟩ : Pipeline (Data F) (List (PVal F)) (List (List F))).finalEstimator = .ok (some e) := by
    simp [Pipeline.finalEstimator]
  have fr : (⟨asSteps l ++ [(n, some e)]⟩ : Pipeline (Data F) (List (PVal F)) (List (List F))).front = asSteps l := by simp [Pipeline.front]
  rw [hl]
  unfold Pipeline.asEst
  congr 1
  · rw [fin]
    cases ht : e.transform with
    | none => simp [ht]
    | some t =>
      simp only [ht, Option.isNone_some, Bool.false_eq_true, if_false, Option.map_some, Option.some.injEq]
      funext X
      simp only [Pipeline.transform, fin, py_ok_bind, ht, Option.isNone_some, Bool.false_eq_true, if_false, applyAll_append]
      congr 1
      funext Y
      simp only [Pipeline.applyAll, ht]
      cases t Y <;> rfl
  · rw [delegated_snoc]
    cases ht : e.predict with
    | none => rfl
    | some t =>
      simp only [Option.map_some, Option.some.injEq]
      funext X
      simp only [Pipeline.predict, delegated_snoc, ht, fr, py_ok_bind]
  · rw [delegated_snoc]
    cases ht : e.predictProba with
    | none => rfl
    | some t =>
      simp only [Option.map_some, Option.some.injEq]
      funext X
      simp only [Pipeline.predictProba, delegated_snoc, ht, fr, py_ok_bind]
  · rw [delegated_snoc]
    cases ht : e.predictLogProba with
    | none => rfl
    | some t =>
      simp only [Option.map_some, Option.some.injEq]
      funext X
      simp only [Pipeline.predictLogProba, delegated_snoc, ht, fr, py_ok_bind]

theorem sameOn_map {β : Type} {a b : Data F → Py (Data F)} (h : ∀ X, Q X → Alongside Eq (a X) (b X)) (m : Option (Data F → Py β)) :
    SameOn Q (m.map fun t X => a X >>= t) (m.map fun t X => b X >>= t) := by
  cases m with
  | none => exact sameOn_none
  | some t => exact sameOn_some fun X hX => (h X hX).next t

/-- Pipelines whose first steps agree. -/
theorem front_for {l l' post : List (String × Methods F)} (hp : post ≠ [])
    (h : ∀ X, Q X → Alongside Eq (Pipeline.applyAll (asSteps l) X) (Pipeline.applyAll (asSteps l') X)) :
    AgreeFor Q (pipelineEst (l ++ post)) (pipelineEst (l' ++ post)) := by
  obtain ⟨post, ⟨n, e⟩, rfl⟩ : ∃ p x, post = p ++ [x] := ⟨post.dropLast, post.getLast hp, (List.dropLast_append_getLast hp).symm⟩
  rw [← List.append_assoc, ← List.append_assoc, pipe_methods, pipe_methods]
  have h' : ∀ X, Q X → Alongside Eq (Pipeline.applyAll (asSteps (l ++ post)) X) (Pipeline.applyAll (asSteps (l' ++ post)) X) := by
    intro X hX
    rw [asSteps_append, asSteps_append, applyAll_append, applyAll_append]
    exact (h X hX).next _
  exact ⟨sameOn_map h' _, sameOn_map h' _, sameOn_map h' _, sameOn_map h' _⟩

/-- A pipeline of one step. -/
theorem only_for (n : String) (e : Methods F) : pipelineEst [(n, e)] = e := by
  have := pipe_methods [] n e
  rw [List.nil_append] at this
  rw [this]
  have key : ∀ {β : Type} (m : Option (Data F → Py β)), (m.map fun t X => Pipeline.applyAll (asSteps ([] : List (String × Methods F))) X >>= t) = m := by
    intro β m
    cases m <;> rfl
  rw [key, key, key, key]

/-- The same steps run as a pipeline of their own. -/
theorem nested_run (n : String) {ss : List (String × Methods F)} (h : ss ≠ []) (X : Data F) :
    Alongside Eq (Pipeline.applyAll (asSteps [(n, pipelineEst ss)]) X) (Pipeline.applyAll (asSteps ss) X) := by
  obtain ⟨ss, ⟨m, e⟩, rfl⟩ : ∃ p x, ss = p ++ [x] := ⟨ss.dropLast, ss.getLast h, (List.dropLast_append_getLast h).symm⟩
  rw [asSteps_append, applyAll_append, pipe_methods]
  simp only [asSteps, List.map_cons, List.map_nil, Pipeline.applyAll]
  cases e.transform with
  | none =>
    simp only [Option.map_none]
    cases Pipeline.applyAll (ss.map fun s => (s.1, some s.2)) X with
    | error _ => exact .fail
    | ok _ => exact .fail
  | some t =>
    simp only [Option.map_some]
    cases Pipeline.applyAll (ss.map fun s => (s.1, some s.2)) X with
    | error _ => exact .fail
    | ok Y =>
      simp only [py_ok_bind]
      exact .same _

theorem nested_for (pre : List (String × Methods F)) (n : String) {ss : List (String × Methods F)} (h : ss ≠ []) (post : List (String × Methods F)) :
    AgreeFor Q (pipelineEst (pre ++ (n, pipelineEst ss) :: post)) (pipelineEst (pre ++ ss ++ post)) := by
  cases post with
  | cons p post =>
    rw [show pre ++ (n, pipelineEst ss) :: p :: post = (pre ++ [(n, pipelineEst ss)]) ++ (p :: post) by simp]
    refine front_for (by simp) fun X _ => ?_
    rw [asSteps_append, asSteps_append, applyAll_append, applyAll_append]
    exact .after _ fun Y _ => nested_run n h Y
  | nil =>
    rw [List.append_nil, pipe_methods]
    obtain ⟨ss, ⟨m, e⟩, rfl⟩ : ∃ p x, ss = p ++ [x] := ⟨ss.dropLast, ss.getLast h, (List.dropLast_append_getLast h).symm⟩
    rw [← List.append_assoc, pipe_methods, pipe_methods]
    have key : ∀ {β : Type} (m : Option (Data F → Py β)),
        SameOn Q ((m.map fun t X => Pipeline.applyAll (asSteps ss) X >>= t).map fun t X => Pipeline.applyAll (asSteps pre) X >>= t)
          (m.map fun t X => Pipeline.applyAll (asSteps (pre ++ ss)) X >>= t) := by
      intro β m
      cases m with
      | none => exact sameOn_none
      | some t =>
        refine sameOn_some fun X _ => ?_
        simp only [asSteps_append, applyAll_append]
        cases Pipeline.applyAll (asSteps pre) X with
        | error _ => exact .fail
        | ok _ => exact .same _
    exact ⟨key _, key _, key _, key _⟩

/-- A step agreeing on what reaches it. -/
theorem step_for {e e' : Methods F} (h : AgreeFor P e e') (pre : List (String × Methods F)) (n : String) (post : List (String × Methods F)) :
    AgreeFor (fun X => ∀ Y, Pipeline.applyAll (asSteps pre) X = .ok Y → P Y) (pipelineEst (pre ++ (n, e) :: post)) (pipelineEst (pre ++ (n, e') :: post)) := by
  cases post with
  | nil => exact pipe_for h pre n
  | cons p post =>
    rw [show pre ++ (n, e) :: p :: post = (pre ++ [(n, e)]) ++ (p :: post) by simp, show pre ++ (n, e') :: p :: post = (pre ++ [(n, e')]) ++ (p :: post) by simp]
    refine front_for (by simp) fun X hX => ?_
    rw [asSteps_append, asSteps_append]
    exact applyAll_last_for h _ n X hX

/-- A step that changes nothing. -/
theorem idle_for {e : Methods F} {P : Data F → Prop} (h : ∀ Y, P Y → ∃ t, e.transform = some t ∧ t Y = .ok Y) (pre : List (String × Methods F)) (n : String)
    {post : List (String × Methods F)} (hp : post ≠ []) :
    AgreeFor (fun X => ∀ Y, Pipeline.applyAll (asSteps pre) X = .ok Y → P Y) (pipelineEst (pre ++ (n, e) :: post)) (pipelineEst (pre ++ post)) := by
  rw [show pre ++ (n, e) :: post = (pre ++ [(n, e)]) ++ post by simp]
  refine front_for hp fun X hX => ?_
  rw [asSteps_append, applyAll_append]
  cases hY : Pipeline.applyAll (asSteps pre) X with
  | error _ => exact .fail
  | ok Y =>
    obtain ⟨t, h1, h2⟩ := h Y (hX Y hY)
    simp only [py_ok_bind, asSteps, List.map_cons, List.map_nil, Pipeline.applyAll, h1, h2]
    exact .same _

/-! ### Unions of one transformer -/

theorem counts_check {n : Nat} {Y : Data F} (h : CountsRecords n Y) : Y.check = .ok Y ∧ Y.len = .ok n := by
  cases Y with
  | arr X =>
    cases X with
    | list rs =>
      obtain ⟨h1, h2⟩ := h
      refine ⟨?_, by simp [Data.len, Arr.len, Arr.rows, h1]⟩
      simp [Data.check, checkArray, h1, h2]
    | sparse rs size dt =>
      have h' : rs.length = n := h
      exact ⟨rfl, by simp [Data.len, Arr.len, Arr.rows, h']⟩
    | errObj => exact h.elim
    | other => exact h.elim
  | docs ds =>
    obtain ⟨h1, h2⟩ := h
    refine ⟨?_, by simp [Data.len, h1]⟩
    have : ds ≠ [] := by rintro rfl; exact h2 h1.symm
    simp [Data.check, this]
  | records X =>
    cases X with
    | one _ => exact h.elim
    | many xs =>
      obtain ⟨h1, h2⟩ := h
      refine ⟨?_, by simp [Data.len, h1]⟩
      have : xs ≠ [] := by rintro rfl; exact h2 h1.symm
      simp [Data.check, this]
  | table X =>
    cases X with
    | list rs =>
      obtain ⟨h1, h2⟩ := h
      refine ⟨?_, by simp [Data.len, Arr.len, Arr.rows, h1]⟩
      simp [Data.check, checkArray, h1, h2]
    | sparse rs size dt =>
      have h' : rs.length = n := h
      exact ⟨rfl, by simp [Data.len, Arr.len, Arr.rows, h']⟩
    | errObj => exact h.elim
    | other => exact h.elim

theorem unionOf_one {sh : Py Shape} (M : List (List F)) : unionOf (.ok M.length) sh [.ofMat M] = .ok (.ofMat M) := by
  unfold unionOf
  rw [if_neg (by simp), if_neg (by simp [Arr.ofMat, Arr.issparse])]
  have e1 : [Arr.ofMat M].mapM Arr.rows = .ok [M.map Row.list] := rfl
  have e2 : ((List.range M.length).mapM fun (i : Nat) => unionDenseRow [M.map Row.list] i) = .ok M := by
    apply mapM_ok_iff.2
    rw [List.forall₂_iff_get]
    refine ⟨by simp, fun i h1 h2 => ?_⟩
    simp only [List.get_eq_getElem, List.getElem_range]
    have : pyGet (M.map Row.list) (i : Int) = .ok (.list M[i]) := by
      rw [pyGet_lt (by simpa using h2)]
      simp
    simp [unionDenseRow, mapM_cons', this, Row.iter]
  rw [e1]
  simp only [py_ok_bind, e2]
  rfl

theorem alone_run {e : Methods F} (m n : String) {Y : Data F} {k : Nat} (hY : CountsRecords k Y)
    (h : ∀ t Z, e.transform = some t → t Y = .ok Z → ∃ M, Z = .arr (.ofMat M) ∧ M.length = k) :
    Alongside Eq (Pipeline.applyAll (asSteps [(n, unionEst [(m, e)] none)]) Y) (Pipeline.applyAll (asSteps [(n, e)]) Y) := by
  obtain ⟨h1, h2⟩ := counts_check hY
  simp only [asSteps, List.map_cons, List.map_nil, Pipeline.applyAll, unionEst, transformer, h1, py_ok_bind, mapM_cons', List.mapM_nil, h2, transformOne, weightOf,
    Est.runTransform]
  cases ht : e.transform with
  | none => exact .fail
  | some t =>
    simp only
    cases hz : t Y with
    | error _ => exact .fail
    | ok Z =>
      obtain ⟨M, rfl, rfl⟩ := h t Z ht hz
      simp only [py_ok_bind, Data.asArr, py_pure, unionOf_one]
      exact .same _

/-! ### Subsets of all columns -/

theorem all_columns {M : List (List F)} {w : Nat} (h : ∀ r ∈ M, r.length = w) : featSlice (.ofMat M) (some ((List.range w).map fun (i : Nat) => (i : Int))) = .ok (.ofMat M) := by
  unfold featSlice
  simp only [rows_ofMat, py_ok_bind, mapM_map']
  refine (congrArg (· >>= _) (mapM_id fun r hr => ?_)).trans (by rfl)
  apply mapM_ok_iff.2
  rw [List.forall₂_iff_get]
  refine ⟨by simp [h r hr], fun i h1 h2 => ?_⟩
  simp only [List.get_eq_getElem, List.getElem_range]
  exact pyGet_lt h2

theorem columns_for {l : List (List Int)} {es : List (Methods F)} {w : Nat} (hl : es.length ≤ l.length)
    (h : ∀ cols ∈ l, cols = (List.range w).map fun (i : Nat) => (i : Int)) (cs : List (PVal F)) :
    AgreeFor (DenseOf w) (ensembleEst (some l) cs es) (ensembleEst none cs es) := by
  unfold ensembleEst
  generalize hb : (⟨some l, cs, es.map fun m => ⟨m.runProba⟩⟩ : Bagging F (PVal F)) = b
  generalize hb' : (⟨none, cs, es.map fun m => ⟨m.runProba⟩⟩ : Bagging F (PVal F)) = b'
  have hn : b'.estimators = b.estimators := by subst hb hb'; rfl
  have hc : b'.classes = b.classes := by subst hb hb'; rfl
  have hpp : ∀ X, DenseOf w (.arr X) → Alongside Eq (b.predictProba X) (b'.predictProba X) := by
    rintro X ⟨M, hX, hM⟩
    cases hX
    rw [predictProba_pile, predictProba_pile, hn]
    refine Alongside.next (pile_along _ ?_) _
    refine moved_map (forall₂_same (R := Eq) (fun _ => rfl) _) fun i _ e => ?_
    cases e
    unfold Bagging.memberProba
    rw [hn]
    refine .after _ fun m hm => ?_
    have hi : i < l.length := by
      have := pyGet_ok_nat.1 hm
      have : i < b.estimators.length := (List.getElem?_eq_some_iff.1 this).1
      have hbl : b.estimators.length = es.length := by subst hb; simp
      omega
    have e1 : b.getFeats i = .ok (some ((List.range w).map fun (i : Nat) => (i : Int))) := by
      subst hb
      simp only [Bagging.getFeats, pyGet_lt hi, py_ok_bind]
      rw [h _ (List.getElem_mem hi)]
      rfl
    have e2 : b'.getFeats i = .ok none := by subst hb'; rfl
    rw [e1, e2]
    simp only [py_ok_bind, all_columns hM]
    simp only [featSlice, py_ok_bind]
    exact .same _
  refine classifier_for (fun X hX => ?_) hpp fun X hX => (hpp X hX).next _
  unfold Bagging.predict
  rw [hc]
  exact (hpp X hX).next _

/-! ### Parts of unions -/

theorem runTransform_for {e e' : Methods F} (h : AgreeFor P e e') (X : Data F) (hX : P X) : Alongside Eq (e.runTransform X) (e'.runTransform X) := by
  unfold Est.runTransform
  cases he : e.transform with
  | none => rw [h.1.2 he]; exact .fail
  | some q =>
    obtain ⟨q', hq', hX'⟩ := h.1.1 q he
    rw [hq']
    exact (hX' X hX).next _

theorem unionOf_error (Xs : List (Arr F)) : ∃ e, unionOf (F := F) (.error .typeError) (.error .typeError) Xs = .error e := by
  unfold unionOf
  split
  · exact ⟨_, rfl⟩
  · split
    · cases Xs.mapM toBlock with
      | error e => exact ⟨e, rfl⟩
      | ok v => exact ⟨_, rfl⟩
    · cases Xs.mapM Arr.rows with
      | error e => exact ⟨e, rfl⟩
      | ok v => exact ⟨_, rfl⟩

theorem check_cases {X Y : Data F} (h : X.check = .ok Y) : Y = X ∨ Y.len = .error .typeError ∧ Y.shape = .error .typeError := by
  cases X with
  | arr X =>
    obtain ⟨Z, hZ, h⟩ := bind_ok_iff.1 h
    cases h
    cases X with
    | list rs =>
      unfold checkArray at hZ
      simp only at hZ
      split at hZ
      · cases hZ; exact .inr ⟨rfl, rfl⟩
      · cases hZ; exact .inl rfl
    | sparse rs size dt => cases hZ; exact .inl rfl
    | errObj => cases hZ
    | other => cases hZ
  | docs ds =>
    simp only [Data.check] at h
    split at h
    · cases h
    · cases h; exact .inl rfl
  | records X =>
    cases X with
    | one _ => cases h
    | many xs =>
      simp only [Data.check] at h
      split at h
      · cases h
      · cases h; exact .inl rfl
  | table X =>
    obtain ⟨Z, hZ, h⟩ := bind_ok_iff.1 h
    cases h
    cases X with
    | list rs =>
      unfold checkArray at hZ
      simp only at hZ
      split at hZ
      · cases hZ; exact .inr ⟨rfl, rfl⟩
      · cases hZ; exact .inl rfl
    | sparse rs size dt => cases hZ; exact .inl rfl
    | errObj => cases hZ
    | other => cases hZ

theorem union_for {es es' : List (Methods F)} (h : List.Forall₂ (AgreeFor P) es es') (names : List String) (ws : Option (List (String × F))) :
    AgreeFor P (unionEst (names.zip es) ws) (unionEst (names.zip es') ws) := by
  refine ⟨sameOn_some fun X hX => ?_, sameOn_none, sameOn_none, sameOn_none⟩
  refine Alongside.next ?_ _
  refine .after _ fun Y hY => ?_
  rcases check_cases hY with rfl | ⟨h1, h2⟩
  · refine Alongside.next (alongEq (.mapM (R := fun a b => a.1 = b.1 ∧ AgreeFor P a.2 b.2) ?_ fun a b hab => ?_)) _
    · clear hY
      induction h generalizing names with
      | nil => simp
      | cons h _ ih =>
        cases names with
        | nil => simp
        | cons n names => exact .cons ⟨rfl, h⟩ (ih names)
    · unfold transformOne
      rw [hab.1]
      exact (runTransform_for hab.2 Y hX).next _
  · have key : ∀ m : Py (List (Arr F)), ∃ e, (m >>= fun Xs => unionOf Y.len Y.shape Xs) = .error e := by
      intro m
      rw [h1, h2]
      cases m with
      | error e => exact ⟨e, rfl⟩
      | ok Xs => exact unionOf_error Xs
    obtain ⟨e, he⟩ := key ((names.zip es).mapM fun s => transformOne s.2.runTransform Y (weightOf ws s.1))
    obtain ⟨e', he'⟩ := key ((names.zip es').mapM fun s => transformOne s.2.runTransform Y (weightOf ws s.1))
    rw [he, he']
    exact .fail

/-! ### Whole objects -/

theorem zip_parts {pre post : List (String × SkObj (Attrs F) (PVal F) F)} {mid : List (String × SkObj (Attrs F) (PVal F) F)} {xs ys zs : List (Methods F)}
    (h1 : (pre.map Prod.snd).length = xs.length) (h2 : (mid.map Prod.snd).length = ys.length) :
    ((pre ++ (mid ++ post)).map Prod.fst).zip (xs ++ (ys ++ zs)) = (pre.map Prod.fst).zip xs ++ ((mid.map Prod.fst).zip ys ++ (post.map Prod.fst).zip zs) := by
  rw [List.map_append, List.map_append, List.zip_append (by simpa using h1), List.zip_append (by simpa using h2)]

theorem split_behaves {a b : List (SkObj (Attrs F) (PVal F) F)} {es : List (Methods F)} (h : List.Forall₂ (Behaves lib encode) (a ++ b) es) :
    ∃ xs ys, es = xs ++ ys ∧ List.Forall₂ (Behaves lib encode) a xs ∧ List.Forall₂ (Behaves lib encode) b ys := by
  induction a generalizing es with
  | nil => exact ⟨[], es, rfl, .nil, h⟩
  | cons o a ih =>
    cases h with
    | @cons _ e _ es hb h =>
      obtain ⟨xs, ys, rfl, h1, h2⟩ := ih h
      exact ⟨e :: xs, ys, rfl, .cons hb h1, h2⟩

theorem join_behaves {a b : List (SkObj (Attrs F) (PVal F) F)} {xs ys : List (Methods F)} (h1 : List.Forall₂ (Behaves lib encode) a xs)
    (h2 : List.Forall₂ (Behaves lib encode) b ys) : List.Forall₂ (Behaves lib encode) (a ++ b) (xs ++ ys) := by
  induction h1 with
  | nil => exact h2
  | cons h _ ih => exact .cons h ih

theorem behaves_trimmed {o o' : SkObj (Attrs F) (PVal F) F} (h : Trimmed lib encode P o o') {f : Methods F} (hb : Behaves lib encode o f) :
    ∃ f', Behaves lib encode o' f' ∧ AgreeFor P f f' := by
  induction h generalizing f with
  | same => exact ⟨f, hb, agreeFor_refl f⟩
  | trans _ _ ih1 ih2 =>
    obtain ⟨g, h1, h2⟩ := ih1 hb
    obtain ⟨k, h3, h4⟩ := ih2 h1
    exact ⟨k, h3, agreeFor_trans h2 h4⟩
  | fewer _ hQ ih =>
    obtain ⟨g, h1, h2⟩ := ih hb
    exact ⟨g, h1, agreeFor_fewer hQ h2⟩
  | @idle v pre n c v' a s post hl hp =>
    cases hb with
    | @pipeline _ _ es hv he =>
      rw [List.map_append, List.map_cons] at he
      obtain ⟨xs, ys, rfl, h1, h2⟩ := split_behaves he
      cases h2 with
      | @cons _ e _ zs hs h2 =>
        obtain ⟨rfl, _⟩ := leaf_behaves hl hs
        refine ⟨_, .pipeline (es := xs ++ zs) hv (by rw [List.map_append]; exact join_behaves h1 h2), ?_⟩
        have hlen := h1.length_eq
        rw [List.length_map] at hlen
        rw [List.map_append, List.map_cons, List.zip_append (by simpa using hlen), List.map_append, List.zip_append (by simpa using hlen), List.zip_cons_cons]
        have hz : (post.map Prod.fst).zip zs ≠ [] := by
          have := h2.length_eq
          cases post with
          | nil => exact absurd rfl hp
          | cons p post =>
            cases zs with
            | nil => simp at this
            | cons z zs => simp
        exact agreeFor_fewer (fun X hX Y hY => hX Y (reaches_of h1 hY)) (idle_for (P := Idle s) (fun Y hY => idle_id hY) _ n hz)
  | @only v n o =>
    cases hb with
    | @pipeline _ _ es hv he =>
      cases he with
      | @cons _ e _ zs hs h2 =>
        cases h2
        refine ⟨e, hs, ?_⟩
        simp only [List.map_cons, List.map_nil, List.zip_cons_cons, List.zip_nil_left]
        rw [only_for]
        exact agreeFor_refl e
  | @nested v w pre n ss post hss =>
    cases hb with
    | @pipeline _ _ es hv he =>
      rw [List.map_append, List.map_cons] at he
      obtain ⟨xs, ys, rfl, h1, h2⟩ := split_behaves he
      cases h2 with
      | @cons _ e _ zs hs h2 =>
        cases hs with
        | @pipeline _ _ is hw hi =>
          refine ⟨_, .pipeline (es := xs ++ is ++ zs) hv (by rw [List.map_append, List.map_append]; exact join_behaves (join_behaves h1 hi) h2), ?_⟩
          have hlen := h1.length_eq
          rw [List.length_map] at hlen
          have hlen' := hi.length_eq
          rw [List.length_map] at hlen'
          rw [List.map_append, List.map_cons, List.zip_append (by simpa using hlen), List.zip_cons_cons, List.map_append, List.map_append,
            List.zip_append (by simp [hlen, hlen']), List.zip_append (by simpa using hlen)]
          refine nested_for _ n ?_ _
          cases ss with
          | nil => exact absurd rfl hss
          | cons s ss =>
            cases is with
            | nil => simp at hlen'
            | cons z zs => simp
  | @alone v w pre n m o post hp =>
    cases hb with
    | @pipeline _ _ es hv he =>
      rw [List.map_append, List.map_cons] at he
      obtain ⟨xs, ys, rfl, h1, h2⟩ := split_behaves he
      cases h2 with
      | @cons _ e _ zs hs h2 =>
        cases hs with
        | @union _ _ _ is hw hi =>
          cases hi with
          | @cons _ g _ us hg hu =>
            cases hu
            refine ⟨_, .pipeline (es := xs ++ g :: zs) hv (by rw [List.map_append, List.map_cons]; exact join_behaves h1 (.cons hg h2)), ?_⟩
            have hlen := h1.length_eq
            rw [List.length_map] at hlen
            rw [List.map_append, List.zip_append (by simpa using hlen), List.map_append, List.zip_append (by simpa using hlen)]
            simp only [List.map_cons, List.map_nil, List.zip_cons_cons, List.zip_nil_left]
            have hz : (post.map Prod.fst).zip zs ≠ [] := by
              have := h2.length_eq
              cases post with
              | nil => exact absurd rfl hp
              | cons p post =>
                cases zs with
                | nil => simp at this
                | cons z zs => simp
            have sp : ∀ (l : List (String × Methods F)) (x : String × Methods F) (r : List (String × Methods F)), l ++ x :: r = (l ++ [x]) ++ r := by simp
            rw [sp, sp ((pre.map Prod.fst).zip xs) (n, g)]
            refine front_for hz fun X hX => ?_
            rw [asSteps_append, asSteps_append, applyAll_append, applyAll_append]
            refine .after _ fun Y hY => ?_
            obtain ⟨k, hk, hr⟩ := hX Y (reaches_of h1 hY)
            exact alone_run m n hk fun t Z ht hZ => hr g t Z hg ht hZ
  | columns hl hc =>
    cases hb with
    | ensemble hv hpl he =>
      exact ⟨_, .ensemble hv hpl he, columns_for (he.length_eq ▸ hl) hc _⟩
  | @inStep P v pre n o o' post _ ih =>
    cases hb with
    | @pipeline _ _ es hv he =>
      rw [List.map_append, List.map_cons] at he
      obtain ⟨xs, ys, rfl, h1, h2⟩ := split_behaves he
      cases h2 with
      | @cons _ e _ zs hs h2 =>
        obtain ⟨e', g1, g2⟩ := ih hs
        refine ⟨_, .pipeline (es := xs ++ e' :: zs) hv (by rw [List.map_append, List.map_cons]; exact join_behaves h1 (.cons g1 h2)), ?_⟩
        have hlen := h1.length_eq
        rw [List.length_map] at hlen
        rw [List.map_append, List.map_cons, List.zip_append (by simpa using hlen), List.map_append, List.map_cons, List.zip_append (by simpa using hlen),
          List.zip_cons_cons, List.zip_cons_cons]
        exact agreeFor_fewer (fun X hX Y hY => hX Y (reaches_of h1 hY)) (step_for g2 _ n _)
  | @inUnion P v names os os' ws hlen hn _ ih =>
    have e : ∀ l : List (SkObj (Attrs F) (PVal F) F), names.length = l.length → (names.zip l).map Prod.snd = l ∧ (names.zip l).map Prod.fst = names := by
      intro l hl
      exact ⟨List.map_snd_zip (by omega), List.map_fst_zip (by omega)⟩
    cases hb with
    | @union _ _ _ es hv he =>
      rw [(e os hn).1] at he
      obtain ⟨es', h1, h2⟩ := Redraw.members_behave he hlen fun p hp f hf => ih p hp hf
      refine ⟨_, .union (es := es') hv (by rw [(e os' (hn.trans hlen)).1]; exact h1), ?_⟩
      rw [(e os hn).2, (e os' (hn.trans hlen)).2]
      exact union_for h2 names ws
  | inEnsemble hP hP' hlen _ ih =>
    cases hb with
    | ensemble hv hpl he =>
      obtain ⟨es', h1, h2⟩ := Redraw.members_behave he hlen fun p hp f hf => ih p hp hf
      exact ⟨_, .ensemble hv hpl h1, ensemble_within _ hP hP' h2 _⟩
  | inStart _ ih =>
    cases hb with
    | boosting hv hpl he h0 hl =>
      obtain ⟨e', h1, h2⟩ := ih h0
      exact ⟨_, .boosting hv hpl he h1 hl, start_for h2 _ _ _ _ _⟩

end PurePredict.Trim
