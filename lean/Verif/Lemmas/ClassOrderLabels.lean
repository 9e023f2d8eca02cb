import Verif.Lemmas.ClassOrderFit
import Verif.Lemmas.Idle
import Verif.Spec.Relisted
/-
Lemmas for C111: labels of linear classifiers from their scores.
-/
namespace PurePredict
open Spec Gauge
variable {w : Nat} {π : List Nat}

theorem argmax_largest {row : List Ex} (hn : XR.nan ∉ row) {i : Nat} (h : argmax row = .ok i) : ∃ p, row[i]? = some p ∧ ∀ q ∈ row, (p <ₚ q) = false := by
  obtain ⟨hi, h1, -⟩ := (argmax_iff XR.toE (XR.ordOn_toE hn)).1 h
  rw [List.length_map] at hi
  refine ⟨row[i], List.getElem?_eq_getElem hi, fun q hq => ?_⟩
  obtain ⟨j, hj, rfl⟩ := List.getElem_of_mem hq
  rw [(XR.ordOn_toE hn).lt _ (List.getElem_mem hi) _ hq]
  have := h1 j (by simpa using hj)
  simpa using this

theorem rowLabel_reordered (hp : π.Perm (List.range w)) (hw : 2 ≤ w) {row row' : List Ex} (h : Rearranged w π row row') (hn : XR.nan ∉ row) (h1 : OneLargest row)
    {cs cs' : List (PVal Ex)} (hcs : Rearranged w π cs cs') :
    ((do pyGet cs' (← argmax row')) : Py (PVal Ex)) = (do pyGet cs (← argmax row)) := by
  have e : row ≠ [] := by rintro rfl; have := h.1; simp at this; omega
  have e' : row' ≠ [] := by rintro rfl; have := h.len hp; simp at this; omega
  obtain ⟨i, hi⟩ := argmax_total e
  obtain ⟨j, hj⟩ := argmax_total e'
  have hn' : XR.nan ∉ row' := fun hx => hn (h.mem hx)
  obtain ⟨p, hp1, hp2⟩ := argmax_largest hn hi
  obtain ⟨q, hq1, hq2⟩ := argmax_largest hn' hj
  have hjl : j < π.length := by
    rw [← h.length]
    exact argmax_lt hj
  have hij : π[j]? = some π[j] := List.getElem?_eq_getElem hjl
  have : π[j] = i := h1 _ _ q p (by rw [← h.get hij, hq1]) hp1 (fun r hr => hq2 r ((h.perm hp).mem_iff.2 hr)) hp2
  rw [this] at hij
  rw [hi, hj]
  exact pyGet_reordered hcs hij

theorem sign_label {x : Ex} (h : x ≠ .nan) (h' : x ≠ .fin 0) : (ofInt 0 <ₚ Arith.neg x) = !(ofInt 0 <ₚ x) := by
  have h0 : (ofInt 0 : Ex) = .fin 0 := by
    show XR.round ((0 : ℤ) : ℝ) = _
    rw [Int.cast_zero, XR.round_exact]
  rw [h0]
  show XR.lt (.fin 0) (XR.neg x) = !(XR.lt (.fin 0) x)
  cases x with
  | nan => exact absurd rfl h
  | pinf => simp [XR.lt, XR.neg]
  | ninf => simp [XR.lt, XR.neg]
  | fin r =>
    have : r ≠ 0 := fun e => h' (by rw [e])
    simp only [XR.lt, XR.neg]
    rcases lt_or_gt_of_ne this with hr | hr
    · simp [hr, hr.le]
    · simp [hr, hr.le]

theorem linearLabels_reordered (hp : π.Perm (List.range w)) {k : LinKind} {m m' : Linear Ex (PVal Ex)} (h : Reordered w π (.linear k m) (.linear k m')) (X : Arr Ex)
    (hd : ∀ S, m.decisionFunction X = .ok S → Decided S) : Alongside Eq (m.predict X) (m'.predict X) := by
  cases h with
  | @linear _ _ coef' cs' b b' d hw hb hdd hc hbb hcs =>
    have key := decision_reordered (cs' := cs') hp hw hb hdd hc hbb X
    unfold Linear.predict
    revert key
    generalize ({ m with coef := coef', intercept := some b', classes := cs' } : Linear Ex (PVal Ex)).decisionFunction X = y
    cases hS : m.decisionFunction X with
    | error e => intro key; cases key; exact .fail
    | ok S =>
      intro key
      cases key with
      | done key =>
        cases key with
        | @mk M N hMN =>
          have hD : ∀ row ∈ M, XR.nan ∉ row ∧ OneLargest row := hd _ hS
          simp only [py_ok_bind]
          clear hS
          refine alongEq (.mapM (R := fun r r' => Rearranged w π r r' ∧ XR.nan ∉ r ∧ OneLargest r) ?_ fun r r' hr => ?_)
          · induction hMN with
            | nil => exact .nil
            | cons hr _ ih => exact .cons ⟨hr, hD _ (by simp)⟩ (ih fun row hrow => hD row (by simp [hrow]))
          · rw [← rowLabel_reordered hp hw hr.1 hr.2.1 hr.2.2 hcs]
            exact .same _
  | @linear2 _ _ c b no yes hw hπ hc hb hcs =>
    have key := decision_swapped (cs := [yes, no]) hc hb X
    unfold Linear.predict
    revert key
    generalize ({ m with coef := [c.map Arith.neg], intercept := some [Arith.neg b], classes := [yes, no] } : Linear Ex (PVal Ex)).decisionFunction X = y
    cases hS : m.decisionFunction X with
    | error e => intro key; cases key; exact .fail
    | ok S =>
      intro key
      cases key with
      | done key =>
        cases key with
        | @mk s =>
          have hD : ∀ x ∈ s, x ≠ .nan ∧ x ≠ .fin 0 := hd _ hS
          simp only [py_ok_bind, mapM_map', hcs]
          clear hS
          refine alongEq (.mapM (R := fun x y => x = y ∧ x ≠ .nan ∧ x ≠ .fin 0) ?_ fun x y hxy => ?_)
          · induction s with
            | nil => exact .nil
            | cons x s ih => exact .cons ⟨rfl, hD x (by simp)⟩ (ih fun y hy => hD y (by simp [hy]))
          · obtain ⟨rfl, h1, h2⟩ := hxy
            rw [sign_label h1 h2]
            cases (ofInt 0 <ₚ x) <;> exact .same _

variable {lib : String → TextLib} {encode : Str → List Nat}

theorem linear_labels_of (k : LinKind) (m : Linear Ex (PVal Ex)) : (k.est m).predict = some (Data.onArr m.predict) := by
  cases k with
  | logistic => rfl
  | plain => rfl
  | sgd =>
    simp only [LinKind.est]
    split <;> rfl

theorem behaves_relisted (hp : π.Perm (List.range w)) {P : Data Ex → Prop} {o o' : SkObj (Attrs Ex) (PVal Ex) Ex} (h : Relisted lib encode w π P o o') {f : Methods Ex}
    (hb : Behaves lib encode o f) : ∃ f', Behaves lib encode o' f' ∧ SameOn P f.predict f'.predict := by
  induction h generalizing f with
  | @linear c v a a' k m m' h1 h2 h3 =>
    obtain ⟨rfl, hv⟩ := leaf_behaves h1 hb
    refine ⟨_, .single hv h2, ?_⟩
    simp only [Single.est, linear_labels_of]
    refine sameOn_some fun X hX => ?_
    cases X with
    | arr A => exact linearLabels_reordered hp h3 A fun S hS => hX A S rfl hS
    | docs _ => exact .fail
    | records _ => exact .fail
    | table _ => exact .fail
  | @inPipeline P v steps n o o' _ ih =>
    cases hb with
    | @pipeline _ _ es hv he =>
      rw [List.map_append] at he
      obtain ⟨zs, z, rfl, g1, g2⟩ := forall₂_snoc he
      obtain ⟨z', h1, h2⟩ := ih g2
      refine ⟨_, .pipeline (es := zs ++ [z']) hv ?_, ?_⟩
      · rw [List.map_append]
        exact forall₂_append_one g1 h1
      · have hl : (steps.map Prod.fst).length = zs.length := by rw [← g1.length_eq]; simp
        have e : ∀ x : SkObj (Attrs Ex) (PVal Ex) Ex, ∀ y : Methods Ex, ((steps ++ [(n, x)]).map Prod.fst).zip (zs ++ [y]) = (steps.map Prod.fst).zip zs ++ [(n, y)] := by
          intro x y
          rw [List.map_append, List.zip_append hl]
          rfl
        rw [e, e, Trim.pipe_methods, Trim.pipe_methods]
        simp only
        cases hz : z.predict with
        | none =>
          rw [h2.2 hz]
          exact sameOn_none
        | some t =>
          obtain ⟨u, hu, hX⟩ := h2.1 t hz
          rw [hu]
          exact sameOn_some fun X hPX => .after _ fun Y hY => hX Y (hPX Y (reaches_of g1 hY))

end PurePredict
