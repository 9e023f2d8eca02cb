import Verif.Model.Ensemble
import Verif.Lemmas.Mat
import Verif.Lemmas.RowWise
import Verif.Lemmas.Links
/-
Gradient boosting: accumulation over the stages.
-/
namespace PurePredict
open Spec
variable {F C : Type} [Arith F]

namespace GB

/-- The stage's tree for class `k` returns `t i` for record `i`. -/
def StageReturns (X : Arr F) (n k : Nat) (st : List (Arr F → Py (List F))) (t : Nat → F) : Prop :=
  ∃ f, st[k]? = some f ∧ f X = .ok ((List.range n).map t)

theorem range_mapM_zip {n : Nat} (a b : Nat → F) (op : F → F → F) :
    ((List.range n).mapM fun (i : Nat) => do
      return op (← pyGet ((List.range n).map a) (i : Int)) (← pyGet ((List.range n).map b) (i : Int)))
      = .ok ((List.range n).map fun i => op (a i) (b i)) := by
  apply range_mapM
  intro i hi
  rw [pyGet_lt (by simpa using hi), pyGet_lt (by simpa using hi)]
  simp

theorem rawColumn_eq {g : GB F C} {X : Arr F} {n k : Nat}
    {sts : List (List (Arr F → Py (List F)))} {ts : List (Nat → F)}
    (h : List.Forall₂ (StageReturns X n k) sts ts) (col : Nat → F) :
    g.rawColumn X k sts ((List.range n).map col) =
      .ok ((List.range n).map fun i =>
        ts.foldl (fun a t => a +ₚ (t i *ₚ g.learningRate)) (col i)) := by
  induction h generalizing col with
  | nil => rfl
  | @cons st t sts ts hst _ ih =>
    obtain ⟨f, hf, hX⟩ := hst
    simp only [rawColumn, pyGet_ok_nat.2 hf, py_ok_bind, hX, List.length_map, List.length_range]
    rw [range_mapM_zip col t fun a b => a +ₚ (b *ₚ g.learningRate)]
    simp only [py_ok_bind]
    rw [ih]
    rfl

/-- If a column is computed, every stage tree of that class answered. -/
theorem rawColumn_ok {g : GB F C} {X : Arr F} {k : Nat}
    {sts : List (List (Arr F → Py (List F)))} {col out : List F}
    (h : g.rawColumn X k sts col = .ok out) :
    ∀ st ∈ sts, ∃ f p, st[k]? = some f ∧ f X = .ok p := by
  induction sts generalizing col with
  | nil => simp
  | cons st sts ih =>
    simp only [rawColumn] at h
    obtain ⟨f, hf, h⟩ := bind_ok_iff.1 h
    obtain ⟨p, hp, h⟩ := bind_ok_iff.1 h
    obtain ⟨c', _, h⟩ := bind_ok_iff.1 h
    intro st' hst'
    rcases List.mem_cons.1 hst' with rfl | hst'
    · exact ⟨f, p, pyGet_ok_nat.1 hf, hp⟩
    · exact ih h st' hst'

theorem rawPredictInit_eq {g : GB F C} {M : List (List F)} (hM : M ≠ [])
    (hw : Rect g.nFeatures M) :
    g.rawPredictInit (.ofMat M) = g.initProba (.ofMat M) >>= g.loss.initRaw := by
  simp only [rawPredictInit, checkArray_ofMat hM, py_ok_bind, width_ofMat hM hw]
  simp

/-- Raw scores in any arithmetic: the init score plus the stage predictions times the learning
rate, added from first to last. -/
theorem rawPredict_eq {g : GB F C} {M : List (List F)} (hM : M ≠ []) (hw : Rect g.nFeatures M)
    {K : Nat} (hK : 0 < K) (hS : g.estimators ≠ []) (hlen : ∀ st ∈ g.estimators, st.length = K)
    {I : Nat → Nat → F} (hI : (g.initProba (.ofMat M) >>= g.loss.initRaw) = .ok (mat M.length K I))
    {T : Nat → List (Nat → F)}
    (hT : ∀ c < K, List.Forall₂ (StageReturns (.ofMat M) M.length c) g.estimators (T c)) :
    g.rawPredict (.ofMat M) = .ok (mat M.length K fun i c =>
      I i c +ₚ (T c).foldl (fun a t => a +ₚ (t i *ₚ g.learningRate)) (ofInt 0)) := by
  have hn : 0 < M.length := List.length_pos_of_ne_nil hM
  obtain ⟨st0, sts, hsts⟩ := List.exists_cons_of_ne_nil hS
  have h0 : pyGet g.estimators 0 = .ok st0 := by rw [hsts]; simp
  have hl0 : st0.length = K := hlen st0 (by rw [hsts]; simp)
  have hcols : ((List.range K).mapM fun k => do
      g.rawColumn (.ofMat M) k g.estimators (List.replicate (← (Arr.ofMat M).len) (ofInt 0))) =
      .ok (mat K M.length fun c i =>
        (T c).foldl (fun a t => a +ₚ (t i *ₚ g.learningRate)) (ofInt 0)) := by
    apply range_mapM
    intro c hc
    have := rawColumn_eq (g := g) (hT c hc) fun _ => ofInt 0
    simp only [len_ofMat, py_ok_bind]
    rw [← this]
    simp
  simp only [rawPredict, rawPredictInit_eq hM hw, hI, py_ok_bind, h0, hl0, hcols, transpose_ofMat,
    zipStar_mat hK, operate2d_mat hn]

end GB

namespace Loss

/-- Number of raw score columns (trees per stage). -/
def cols : Loss → Nat
  | multinomial n => n
  | _ => 1

/-- The init score of one record from its row of init probabilities. -/
def initRow (l : Loss) (a : List F) : Py (List F) :=
  let c := fun (x : F) => clip x gbEps (ofInt 1 -ₚ gbEps)
  match l with
  | multinomial _ => a.mapM fun x => safeLog (c x)
  | binomial => do
      let x := c (← pyGet a 1)
      return [← safeLog (← x /ₚ (ofInt 1 -ₚ x))]
  | exponential => do
      let x := c (← pyGet a 1)
      return [ofRat 1 2 *ₚ (← safeLog (← x /ₚ (ofInt 1 -ₚ x)))]

theorem initRaw_eq (l : Loss) (Q : List (List F)) : l.initRaw Q = Q.mapM l.initRow := by
  cases l with
  | multinomial n => simp only [initRaw, apply2d_ofMat]; rfl
  | binomial => rfl
  | exponential => rfl

theorem initRow_length {l : Loss} {q r : List F} (hq : ∀ n, l = .multinomial n → q.length = n)
    (h : l.initRow q = .ok r) : r.length = l.cols := by
  cases l with
  | multinomial n =>
    rw [mapM_length h, hq n rfl]; rfl
  | binomial =>
    simp only [initRow] at h
    obtain ⟨_, _, h⟩ := bind_ok_iff.1 h
    obtain ⟨_, _, h⟩ := bind_ok_iff.1 h
    obtain ⟨_, _, h⟩ := bind_ok_iff.1 h
    cases h; rfl
  | exponential =>
    simp only [initRow] at h
    obtain ⟨_, _, h⟩ := bind_ok_iff.1 h
    obtain ⟨_, _, h⟩ := bind_ok_iff.1 h
    obtain ⟨_, _, h⟩ := bind_ok_iff.1 h
    cases h; rfl

/-- The probabilities of one record from its row of raw scores. -/
def probaRow (l : Loss) (r : List F) : Py (List F) :=
  match l with
  | multinomial n => do
    let lse ← safeLog (pySum (← r.mapM safeExp))
    (List.range n).mapM fun (i : Nat) => do safeExp ((← pyGet r (i : Int)) -ₚ lse)
  | binomial => do
    let p ← expit (← pyGet r 0)
    return [ofInt 1 -ₚ p, p]
  | exponential => do
    let p := (← expit (← pyGet r 0)) *ₚ ofInt 2
    return [ofInt 1 -ₚ p, p]

theorem transpose_pair (l : List F) (f : F → F) :
    transpose (.ofMat [l.map f, l]) = .ok (l.map fun x => [f x, x]) := by
  rw [transpose_ofMat]
  congr 1
  simp only [zipStar, minLen, List.length_map, Nat.min_self]
  apply List.ext_getElem
  · simp
  · intro i h1 h2
    simp at h1
    simp [h1]

theorem ravel_col {M : List (List F)} (hM : M ≠ []) (hw : Rect 1 M) :
    ∃ l, M = l.map (fun x => [x]) ∧ ravel (.ofMat M) = .ok l := by
  refine ⟨M.filterMap fun r => r[0]?, ?_, ?_⟩
  · clear hM
    induction M with
    | nil => rfl
    | cons r rs ih =>
      obtain ⟨x, rfl⟩ : ∃ x, r = [x] := List.length_eq_one_iff.1 (hw r (by simp))
      simp only [List.filterMap_cons, List.getElem?_cons_zero, List.map_cons]
      congr 1
      exact ih fun r hr => hw r (by simp [hr])
  · have h2 : zipStar M = [M.filterMap fun r => r[0]?] := by
      simp [zipStar, minLen_rect hM hw, List.range_succ]
    simp only [ravel, issparse_ofMat, Bool.false_eq_true, if_false, transpose_ofMat, py_ok_bind, h2]
    simp

theorem binary_rowwise {raw : List (List F)} (hne : raw ≠ []) (hw : Rect 1 raw) (f : F → Py F) :
    OkEq (match (some 1 : Option Nat) with
      | some 1 => (do
        let proba1 ← (← ravel (.ofMat raw)).mapM f
        transpose (.ofMat [proba1.map fun x => ofInt 1 -ₚ x, proba1]))
      | _ => (.error .typeError : Py (List (List F))))
      (raw.mapM fun r => do
        let p ← f (← pyGet r 0)
        return [ofInt 1 -ₚ p, p]) := by
  obtain ⟨l, rfl, hl⟩ := ravel_col hne hw
  simp only [hl, py_ok_bind, transpose_pair]
  rw [mapM_map']
  simp only [pyGet_zero_cons, py_ok_bind]
  exact OkEq.mapM_map f _ l

theorem rawToProba_rowwise (l : Loss) {raw : List (List F)} (hne : raw ≠ [])
    (hw : Rect l.cols raw) : OkEq (l.rawToProba raw) (raw.mapM l.probaRow) := by
  cases l with
  | multinomial n =>
    have h : OkEq (rawToProba (.multinomial n) raw)
        (raw.mapM (fun r => do
          let lse ← safeLog (pySum (← r.mapM safeExp))
          return (r, lse)) >>= fun ps => ps.mapM fun p =>
            (List.range n).mapM fun (i : Nat) => do safeExp ((← pyGet p.1 (i : Int)) -ₚ p.2)) := by
      simp only [rawToProba, apply2d_ofMat]
      intro c
      simp only [bind_ok_iff]
      constructor
      · rintro ⟨es, hes, sums, hsums, lse, hlse, h⟩
        refine ⟨_, ?_, h⟩
        have hsums' : sums = es.map pySum := by
          rw [applyAxis2d_ofMat, mapM_ok_map (g := pySum) fun _ _ => rfl] at hsums
          cases hsums; rfl
        subst hsums'
        clear h hsums hw hne
        rw [mapM_map'] at hlse
        induction raw generalizing es lse with
        | nil => simp
        | cons r raw ih =>
          obtain ⟨e, es', he, hes', rfl⟩ := mapM_cons_ok.1 hes
          obtain ⟨y, ys, hy, hys, rfl⟩ := mapM_cons_ok.1 hlse
          rw [mapM_cons_ok]
          exact ⟨(r, y), _, by simp [he, hy], ih es' hes' ys hys, rfl⟩
      · rintro ⟨ps, hps, h⟩
        have : ∃ es lse, raw.mapM (fun a => a.mapM safeExp) = .ok es ∧
            (es.map pySum).mapM safeLog = .ok lse ∧ ps = raw.zip lse := by
          clear h hw hne
          induction raw generalizing ps with
          | nil => simp at hps; subst hps; exact ⟨[], [], by simp⟩
          | cons r raw ih =>
            obtain ⟨p, ps', hp, hps', rfl⟩ := mapM_cons_ok.1 hps
            obtain ⟨es, lse, h1, h2, rfl⟩ := ih ps' hps'
            obtain ⟨e, he, hp⟩ := bind_ok_iff.1 hp
            obtain ⟨y, hy, hp⟩ := bind_ok_iff.1 hp
            cases hp
            exact ⟨e :: es, y :: lse, mapM_cons_ok.2 ⟨_, _, he, h1, rfl⟩,
              mapM_cons_ok.2 ⟨_, _, hy, h2, rfl⟩, rfl⟩
        obtain ⟨es, lse, h1, h2, rfl⟩ := this
        refine ⟨es, h1, es.map pySum, ?_, lse, h2, h⟩
        rw [applyAxis2d_ofMat, mapM_ok_map (g := pySum) fun _ _ => rfl]
    refine h.trans ((OkEq.mapM_comp _ _ raw).trans (OkEq.of_eq ?_))
    apply mapM_congr
    intro r _
    simp only [probaRow]
    cases r.mapM safeExp with
    | error e => rfl
    | ok es =>
      simp only [py_ok_bind]
      cases safeLog (pySum es) <;> rfl
  | binomial =>
    have hw1 : Rect 1 raw := hw
    simp only [rawToProba, width_ofMat hne hw1, py_ok_bind]
    exact binary_rowwise hne hw1 expit
  | exponential =>
    have hw1 : Rect 1 raw := hw
    simp only [rawToProba, width_ofMat hne hw1, py_ok_bind]
    refine (binary_rowwise hne hw1 fun x => do return (← expit x) *ₚ ofInt 2).trans (OkEq.of_eq ?_)
    apply mapM_congr
    intro r _
    simp only [probaRow]
    cases pyGet r 0 with
    | error e => rfl
    | ok x =>
      simp only [py_ok_bind]
      cases expit x <;> rfl

end Loss
end PurePredict
