import Verif.Props.C41
/-
C81: pipelines nested in pipelines behave as the flat pipeline of all their steps.
-/
namespace PurePredict
open Spec
variable {D L P : Type}

namespace Spec
/-- A pipeline whose steps are estimators or, again, pipelines. -/
inductive Nest (D L P : Type)
  | est (name : String) (e : Est D L P)
  | pipe (name : String) (steps : List (Nest D L P))

mutual
/-- The estimators of a nested pipeline from left to right. -/
def Nest.leaves : Nest D L P → List (Est D L P)
  | .est _ e => [e]
  | .pipe _ ss => Nest.leavesAll ss
def Nest.leavesAll : List (Nest D L P) → List (Est D L P)
  | [] => []
  | s :: ss => s.leaves ++ Nest.leavesAll ss
end

mutual
/-- Every pipeline in it has at least one step. -/
def Nest.Filled : Nest D L P → Prop
  | .est _ _ => True
  | .pipe _ ss => ss ≠ [] ∧ Nest.FilledAll ss
def Nest.FilledAll : List (Nest D L P) → Prop
  | [] => True
  | s :: ss => s.Filled ∧ Nest.FilledAll ss
end

/-- The flat pipeline of a list of estimators, its steps named by their position. -/
def flatPipeline (es : List (Est D L P)) : Pipeline D L P :=
  ⟨es.zipIdx.map fun p => (toString p.2, some p.1)⟩
end Spec

mutual
/-- The object built for a nested pipeline: each inner pipeline is a pipeline object used as a step. -/
def Spec.Nest.build : Nest D L P → String × Option (Est D L P)
  | .est n e => (n, some e)
  | .pipe n ss => (n, some (⟨Nest.buildAll ss⟩ : Pipeline D L P).asEst)
def Spec.Nest.buildAll : List (Nest D L P) → List (String × Option (Est D L P))
  | [] => []
  | s :: ss => s.build :: Nest.buildAll ss
end

/-- Run the transforms of a list of estimators. -/
def runAll : List (Est D L P) → D → Py D
  | [], x => .ok x
  | e :: es, x =>
    match e.transform with
    | none => .error .attributeError
    | some f => do runAll es (← f x)

theorem runAll_append (a b : List (Est D L P)) (x : D) :
    runAll (a ++ b) x = (runAll a x >>= runAll b) := by
  induction a generalizing x with
  | nil => rfl
  | cons e a ih =>
    simp only [List.cons_append, runAll]
    cases e.transform with
    | none => rfl
    | some f =>
      cases hf : f x with
      | error e => simp [hf]
      | ok y => simp only [hf, py_ok_bind]; exact ih y

theorem applyAll_named {γ : Type} (l : List γ) (name : γ → String) (e : γ → Est D L P) (x : D) :
    Pipeline.applyAll (l.map fun c => (name c, some (e c))) x = runAll (l.map e) x := by
  induction l generalizing x with
  | nil => rfl
  | cons c l ih =>
    simp only [List.map_cons, Pipeline.applyAll, runAll]
    cases (e c).transform with
    | none => rfl
    | some f =>
      cases hf : f x with
      | error e => simp [hf]
      | ok y => simp only [hf, py_ok_bind]; exact ih y

/-- All the estimators have a `transform`. -/
def CanTransform (es : List (Est D L P)) : Prop := ∀ e ∈ es, e.transform.isSome

theorem getLast?_buildAll (ss : List (Nest D L P)) (s : Nest D L P) :
    (Nest.buildAll (ss ++ [s])).getLast? = some s.build := by
  induction ss with
  | nil => rfl
  | cons t ss ih => rw [List.cons_append, Nest.buildAll, List.getLast?_cons, ih]; rfl

theorem buildAll_append (a b : List (Nest D L P)) :
    Nest.buildAll (a ++ b) = Nest.buildAll a ++ Nest.buildAll b := by
  induction a with
  | nil => rfl
  | cons s a ih => rw [List.cons_append, Nest.buildAll, Nest.buildAll, ih]; rfl

theorem leavesAll_append (a b : List (Nest D L P)) :
    Nest.leavesAll (a ++ b) = Nest.leavesAll a ++ Nest.leavesAll b := by
  induction a with
  | nil => rfl
  | cons s a ih => rw [List.cons_append, Nest.leavesAll, Nest.leavesAll, ih, List.append_assoc]

theorem filledAll_append (a b : List (Nest D L P)) :
    Nest.FilledAll (a ++ b) ↔ Nest.FilledAll a ∧ Nest.FilledAll b := by
  induction a with
  | nil => simp [Nest.FilledAll]
  | cons s a ih => rw [List.cons_append, Nest.FilledAll, Nest.FilledAll, ih, and_assoc]

theorem build_some (s : Nest D L P) : ∃ n e, s.build = (n, some e) := by
  cases s with
  | est n e => exact ⟨n, e, by rw [Nest.build]⟩
  | pipe n ss => exact ⟨n, _, by rw [Nest.build]⟩

/-- If the last built step of a pipeline has a `transform`, so has the pipeline. -/
theorem asEst_transform (front : List (String × Option (Est D L P))) (n : String) (e : Est D L P)
    (h : e.transform.isSome) :
    (⟨front ++ [(n, some e)]⟩ : Pipeline D L P).asEst.transform =
      some (Pipeline.applyAll (front ++ [(n, some e)])) := by
  have hn : e.transform.isNone = false := by
    cases he : e.transform with
    | none => rw [he] at h; cases h
    | some => rfl
  have h1 : (⟨front ++ [(n, some e)]⟩ : Pipeline D L P).finalEstimator = .ok (some e) := by
    simp [Pipeline.finalEstimator]
  simp only [Pipeline.asEst, h1, hn]
  simp only [Bool.false_eq_true, if_false]
  congr 1
  funext x
  simp only [Pipeline.transform, h1, py_ok_bind, hn, Bool.false_eq_true, if_false]

mutual
theorem build_transform : ∀ (s : Nest D L P), s.Filled → CanTransform s.leaves →
    ∃ n e, s.build = (n, some e) ∧ ∃ f, e.transform = some f ∧ ∀ x, f x = runAll s.leaves x
  | .est n e, _, ht => by
    have : e.transform.isSome := ht e (by simp [Nest.leaves])
    obtain ⟨f, hf⟩ := Option.isSome_iff_exists.1 this
    refine ⟨n, e, by rw [Nest.build], f, hf, fun x => ?_⟩
    simp only [Nest.leaves, runAll, hf]
    cases f x <;> rfl
  | .pipe n ss, hfill, ht => by
    rw [Nest.Filled] at hfill
    rw [Nest.leaves] at ht
    obtain ⟨hl, hlast⟩ := buildAll_transform ss hfill.2 ht
    obtain ⟨f, n', e, hss, he⟩ := hlast hfill.1
    refine ⟨n, _, by rw [Nest.build], ?_⟩
    refine ⟨Pipeline.applyAll (Nest.buildAll ss), ?_, fun x => by rw [Nest.leaves]; exact hl x⟩
    rw [hss]
    exact asEst_transform f n' e he
theorem buildAll_transform : ∀ (ss : List (Nest D L P)), Nest.FilledAll ss → CanTransform (Nest.leavesAll ss) →
    (∀ x, Pipeline.applyAll (Nest.buildAll ss) x = runAll (Nest.leavesAll ss) x) ∧
    (ss ≠ [] → ∃ front n e, Nest.buildAll ss = front ++ [(n, some e)] ∧ e.transform.isSome)
  | [], _, _ => ⟨fun x => rfl, fun h => absurd rfl h⟩
  | s :: ss, hfill, ht => by
    rw [Nest.FilledAll] at hfill
    rw [Nest.leavesAll] at ht
    obtain ⟨n, e, hb, f, hf, hx⟩ := build_transform s hfill.1
      fun e he => ht e (List.mem_append.2 (.inl he))
    obtain ⟨h1, h2⟩ := buildAll_transform ss hfill.2 fun e he => ht e (List.mem_append.2 (.inr he))
    constructor
    · intro x
      rw [Nest.buildAll, Nest.leavesAll, hb, runAll_append]
      simp only [Pipeline.applyAll, hf, hx]
      cases runAll s.leaves x with
      | error e => rfl
      | ok y => exact h1 y
    · intro _
      by_cases hss : ss = []
      · subst hss
        exact ⟨[], n, e, by rw [Nest.buildAll, hb]; rfl, by rw [hf]; rfl⟩
      · obtain ⟨front, n', e', h, he⟩ := h2 hss
        exact ⟨s.build :: front, n', e', by rw [Nest.buildAll, h]; rfl, he⟩
end

/-- A method of the final estimator, through any nesting. -/
structure Method (D L P R : Type) where
  get : Est D L P → Option (D → Py R)
  /-- the pipeline's method -/
  call : Pipeline D L P → D → Py R
  call_eq : ∀ p x, call p x = do let f ← p.delegated get; f (← Pipeline.applyAll p.front x)
  asEst_eq : ∀ p : Pipeline D L P, get p.asEst = match p.delegated get with
    | .ok _ => some (call p)
    | .error _ => none

/-- `predict`, `predict_proba` and `predict_log_proba`. -/
def predictMethod : Method D L P L := ⟨Est.predict, Pipeline.predict, fun _ _ => rfl, fun _ => rfl⟩
def probaMethod : Method D L P P := ⟨Est.predictProba, Pipeline.predictProba, fun _ _ => rfl, fun _ => rfl⟩
def logProbaMethod : Method D L P P :=
  ⟨Est.predictLogProba, Pipeline.predictLogProba, fun _ _ => rfl, fun _ => rfl⟩

variable {R : Type} (m : Method D L P R)

/-- What the method of a nested pipeline is: that of its last leaf, after the transforms of all other
leaves. -/
def After (g : D → Py R) (es : List (Est D L P)) (x : D) : Py R := do g (← runAll es x)

theorem asEst_method (front : List (String × Option (Est D L P))) (n : String) (e : Est D L P) :
    m.get (⟨front ++ [(n, some e)]⟩ : Pipeline D L P).asEst =
      (m.get e).map (fun g x => (do g (← Pipeline.applyAll front x))) := by
  rw [m.asEst_eq, delegated_last]
  cases h : m.get e with
  | none => rfl
  | some g =>
    simp only [Option.map_some]
    congr 1
    funext x
    rw [m.call_eq, delegated_last, h, py_ok_bind]
    simp [Pipeline.front]

theorem call_last (front : List (String × Option (Est D L P))) (n : String) (e : Est D L P) (x : D) :
    m.call (⟨front ++ [(n, some e)]⟩ : Pipeline D L P) x =
      match m.get e with
      | none => .error .attributeError
      | some g => (do g (← Pipeline.applyAll front x)) := by
  rw [m.call_eq, delegated_last]
  cases m.get e with
  | none => rfl
  | some g => simp [Pipeline.front]

theorem leavesAll_ne_nil {ss : List (Nest D L P)} (h : ss ≠ []) (hf : Nest.FilledAll ss) :
    Nest.leavesAll ss ≠ [] := by
  obtain ⟨s, ss', rfl⟩ := List.exists_cons_of_ne_nil h
  rw [Nest.leavesAll]
  rw [Nest.FilledAll] at hf
  have : ∀ s : Nest D L P, s.Filled → s.leaves ≠ [] := by
    intro s
    generalize hn : sizeOf s = n
    induction n using Nat.strong_induction_on generalizing s with
    | _ n ih =>
      intro hs
      cases s with
      | est => simp [Nest.leaves]
      | pipe name ss =>
        rw [Nest.Filled] at hs
        obtain ⟨t, ts, rfl⟩ := List.exists_cons_of_ne_nil hs.1
        rw [Nest.FilledAll] at hs
        rw [Nest.leaves, Nest.leavesAll]
        simp only [ne_eq, List.append_eq_nil_iff, not_and]
        intro h0
        refine absurd h0 (ih _ ?_ t rfl hs.2.1)
        simp at hn
        omega
  simp only [ne_eq, List.append_eq_nil_iff, not_and]
  intro h0
  exact absurd h0 (this s hf.1)

/-- The method of a nested pipeline (as a step): the method of the last leaf after the transforms of
the others. -/
theorem build_method (s : Nest D L P) : s.Filled → ∀ es last, s.leaves = es ++ [last] → CanTransform es →
    ∃ n e, s.build = (n, some e) ∧ m.get e = (m.get last).map fun g => After g es := by
  generalize hn : sizeOf s = N
  induction N using Nat.strong_induction_on generalizing s with
  | _ N ih =>
    intro hfill es last hl ht
    cases s with
    | est n e =>
      rw [Nest.leaves] at hl
      have hes : es = [] := by
        cases es with
        | nil => rfl
        | cons a es => have := congrArg List.length hl; simp at this
      subst hes
      simp at hl
      subst hl
      refine ⟨n, e, by rw [Nest.build], ?_⟩
      cases m.get e with
      | none => rfl
      | some g => rfl
    | pipe n ss =>
      rw [Nest.Filled] at hfill
      obtain ⟨hne, hall⟩ := hfill
      obtain ⟨init, t, rfl⟩ : ∃ init t, ss = init ++ [t] :=
        ⟨ss.dropLast, ss.getLast hne, (List.dropLast_append_getLast hne).symm⟩
      rw [filledAll_append, Nest.FilledAll] at hall
      obtain ⟨hinit, htf, -⟩ := hall
      rw [Nest.leaves, leavesAll_append, Nest.leavesAll, Nest.leavesAll, List.append_nil] at hl
      have htl : t.leaves ≠ [] := by
        have := leavesAll_ne_nil (ss := [t]) (by simp) (by simp [Nest.FilledAll, htf])
        simpa [Nest.leavesAll] using this
      obtain ⟨es', last', hsplit⟩ : ∃ es' last', t.leaves = es' ++ [last'] :=
        ⟨t.leaves.dropLast, t.leaves.getLast htl, (List.dropLast_append_getLast htl).symm⟩
      rw [hsplit, ← List.append_assoc] at hl
      obtain ⟨hes, hlast⟩ := List.append_inj' hl rfl
      simp only [List.cons.injEq, and_true] at hlast
      subst hlast
      subst hes
      obtain ⟨n', e, hb, hm⟩ := ih _ (by
        have : sizeOf t < sizeOf (init ++ [t]) := List.sizeOf_lt_of_mem (by simp)
        simp at hn
        omega) t rfl htf es' last' hsplit fun e he => ht e (List.mem_append.2 (.inr he))
      refine ⟨n, _, by rw [Nest.build], ?_⟩
      rw [buildAll_append, Nest.buildAll, Nest.buildAll, hb, asEst_method, hm]
      cases m.get last' with
      | none => rfl
      | some g =>
        simp only [Option.map_some]
        congr 1
        funext x
        unfold After
        rw [runAll_append, (buildAll_transform init hinit fun e he => ht e (List.mem_append.2 (.inl he))).1]
        cases runAll (Nest.leavesAll init) x <;> rfl

theorem zipIdx_snoc {γ : Type} (l : List γ) (a : γ) : (l ++ [a]).zipIdx = l.zipIdx ++ [(a, l.length)] := by
  simp [List.zipIdx_append]

theorem flat_call (es : List (Est D L P)) (last : Est D L P) (x : D) :
    m.call (flatPipeline (es ++ [last])) x =
      match m.get last with
      | none => .error .attributeError
      | some g => After g es x := by
  have : flatPipeline (es ++ [last]) =
      ⟨(es.zipIdx.map fun p => (toString p.2, some p.1)) ++ [(toString es.length, some last)]⟩ := by
    rw [flatPipeline, zipIdx_snoc, List.map_append]
    rfl
  rw [this, call_last]
  cases m.get last with
  | none => rfl
  | some g =>
    simp only [After, applyAll_named es.zipIdx (fun p => toString p.2) (fun p => p.1)]
    rw [show es.zipIdx.map (fun p => p.1) = es by simp]

/-- **C81** for each of the three methods: calling a nested pipeline is calling the flat pipeline of its
estimators, results and exceptions alike.  (All estimators but the last have a `transform`; no pipeline
is empty.) -/
theorem nested_call (ss : List (Nest D L P)) (hne : ss ≠ []) (hf : Nest.FilledAll ss)
    (ht : CanTransform (Nest.leavesAll ss).dropLast) (x : D) :
    m.call ⟨Nest.buildAll ss⟩ x = m.call (flatPipeline (Nest.leavesAll ss)) x := by
  have hln := leavesAll_ne_nil hne hf
  obtain ⟨es, last, hl⟩ : ∃ es last, Nest.leavesAll ss = es ++ [last] :=
    ⟨_, _, (List.dropLast_append_getLast hln).symm⟩
  rw [hl, List.dropLast_concat] at ht
  obtain ⟨init, t, rfl⟩ : ∃ init t, ss = init ++ [t] :=
    ⟨ss.dropLast, ss.getLast hne, (List.dropLast_append_getLast hne).symm⟩
  rw [hl, flat_call]
  have hpipe := build_method m (.pipe "" (init ++ [t])) (by rw [Nest.Filled]; exact ⟨hne, hf⟩) es last
    (by rw [Nest.leaves]; exact hl) ht
  obtain ⟨n, e, hb, hm⟩ := hpipe
  rw [Nest.build, Prod.mk.injEq, Option.some.injEq] at hb
  obtain ⟨-, rfl⟩ := hb
  obtain ⟨n', e', hb'⟩ := build_some t
  rw [buildAll_append, Nest.buildAll, Nest.buildAll, hb'] at hm ⊢
  rw [asEst_method] at hm
  rw [call_last]
  cases hlast : m.get last with
  | none =>
    rw [hlast] at hm
    cases he : m.get e' with
    | none => rfl
    | some g => rw [he] at hm; cases hm
  | some g =>
    rw [hlast] at hm
    cases he : m.get e' with
    | none => rw [he] at hm; cases hm
    | some g' =>
      rw [he] at hm
      simp only [Option.map_some, Option.some.injEq] at hm
      exact congrFun hm x

/-- **C81**, `predict`. -/
theorem C81_predict (ss : List (Nest D L P)) (hne : ss ≠ []) (hf : Nest.FilledAll ss)
    (ht : CanTransform (Nest.leavesAll ss).dropLast) (x : D) :
    (⟨Nest.buildAll ss⟩ : Pipeline D L P).predict x = (flatPipeline (Nest.leavesAll ss)).predict x :=
  nested_call predictMethod ss hne hf ht x

/-- **C81**, `predict_proba`. -/
theorem C81_predict_proba (ss : List (Nest D L P)) (hne : ss ≠ []) (hf : Nest.FilledAll ss)
    (ht : CanTransform (Nest.leavesAll ss).dropLast) (x : D) :
    (⟨Nest.buildAll ss⟩ : Pipeline D L P).predictProba x = (flatPipeline (Nest.leavesAll ss)).predictProba x :=
  nested_call probaMethod ss hne hf ht x

/-- **C81**, `predict_log_proba`. -/
theorem C81_predict_log_proba (ss : List (Nest D L P)) (hne : ss ≠ []) (hf : Nest.FilledAll ss)
    (ht : CanTransform (Nest.leavesAll ss).dropLast) (x : D) :
    (⟨Nest.buildAll ss⟩ : Pipeline D L P).predictLogProba x =
      (flatPipeline (Nest.leavesAll ss)).predictLogProba x :=
  nested_call logProbaMethod ss hne hf ht x

/-- **C81**, `transform`. -/
theorem C81_transform (ss : List (Nest D L P)) (hne : ss ≠ []) (hf : Nest.FilledAll ss)
    (ht : CanTransform (Nest.leavesAll ss)) (x : D) :
    (⟨Nest.buildAll ss⟩ : Pipeline D L P).transform x = (flatPipeline (Nest.leavesAll ss)).transform x := by
  have hln := leavesAll_ne_nil hne hf
  obtain ⟨h1, h2⟩ := buildAll_transform ss hf ht
  obtain ⟨front, n, e, hb, he⟩ := h2 hne
  have key : ∀ (front : List (String × Option (Est D L P))) n (e : Est D L P), e.transform.isSome →
      (⟨front ++ [(n, some e)]⟩ : Pipeline D L P).transform x =
        Pipeline.applyAll (front ++ [(n, some e)]) x := by
    intro front n e he
    have h1 : (⟨front ++ [(n, some e)]⟩ : Pipeline D L P).finalEstimator = .ok (some e) := by
      simp [Pipeline.finalEstimator]
    have hn : e.transform.isNone = false := by
      cases h : e.transform with
      | none => rw [h] at he; cases he
      | some => rfl
    simp only [Pipeline.transform, h1, py_ok_bind, hn, Bool.false_eq_true, if_false]
  rw [hb, key _ _ _ he, ← hb, h1]
  obtain ⟨es, last, hl⟩ : ∃ es last, Nest.leavesAll ss = es ++ [last] :=
    ⟨_, _, (List.dropLast_append_getLast hln).symm⟩
  have hflat : flatPipeline (es ++ [last]) =
      ⟨(es.zipIdx.map fun p => (toString p.2, some p.1)) ++ [(toString es.length, some last)]⟩ := by
    rw [flatPipeline, zipIdx_snoc, List.map_append]
    rfl
  rw [hl, hflat, key _ _ _ (ht last (by rw [hl]; simp))]
  have h3 := applyAll_named (es ++ [last]).zipIdx (fun p => toString p.2) (fun p => p.1) x
  rw [show (es ++ [last]).zipIdx.map (fun p => p.1) = es ++ [last] by simp, zipIdx_snoc,
    List.map_append] at h3
  exact h3.symm

/-! ### Non-vacuity -/

/-- A transformer on integers and a final estimator. -/
def demoStep (k : Int) : Est Int Int Int := ⟨some fun x => .ok (x + k), none, none, none⟩
def demoLast : Est Int Int Int := ⟨none, some fun x => .ok (2 * x), none, none⟩

example : (⟨Nest.buildAll [.pipe "prep" [.est "a" (demoStep 1), .pipe "b" [.est "c" (demoStep 2)]],
    .pipe "end" [.est "d" (demoStep 3), .est "e" demoLast]]⟩ : Pipeline Int Int Int).predict 10 =
    (flatPipeline [demoStep 1, demoStep 2, demoStep 3, demoLast]).predict 10 ∧
    (flatPipeline [demoStep 1, demoStep 2, demoStep 3, demoLast]).predict 10 = .ok 32 :=
  ⟨C81_predict [.pipe "prep" [.est "a" (demoStep 1), .pipe "b" [.est "c" (demoStep 2)]],
    .pipe "end" [.est "d" (demoStep 3), .est "e" demoLast]] (by simp)
    (by simp [Nest.FilledAll, Nest.Filled])
    (by simp [Nest.leavesAll, Nest.leaves, CanTransform, demoStep]) 10, by decide⟩

end PurePredict
