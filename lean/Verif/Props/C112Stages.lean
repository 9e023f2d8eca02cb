import Verif.Spec.StageOrder
import Verif.Props.C83
import Verif.Props.C112
import Verif.Props.C118
import Verif.Spec.Gauge
/-
C112 in double precision: how much the order of stages, rounds and members with columns of their own matters.
-/
namespace PurePredict
open Spec
variable {lib : String → TextLib} {encode : Str → List Nat}

theorem near_both {ε : ℝ} {q q' : List ℝ} {p : Nat → ℝ} (h : Near 2 ε q p) (h' : Near 2 ε q' p) : ∀ c < 2, |q.getD c 0 - q'.getD c 0| ≤ ε + ε := by
  intro c hc
  have h1 := h.2 c hc
  have h2 := h'.2 c hc
  rw [abs_sub_comm] at h2
  exact (abs_sub_le _ _ _).trans (add_le_add h1 h2)

/-- **C112** in double precision, for an XGBClassifier with two classes: if the trees answer a request with numbers, both orders of the rounds give probabilities,
and no probability changes by more than 2⁻⁵³ times the number of trees times the sum of the sizes of the leaves, and 2⁻⁴⁹. -/
theorem C112_close_rounds (trunc : XR FP.binary64 → Py Int) {cl : String} {a a' v} {m : Xgb (XR FP.binary64) (PVal (XR FP.binary64))} {ts ts'} (hv : ReadableVersion v)
    (hl : Learned cl a (.xgb m)) (hl' : Learned cl a' (.xgb { m with trees := .binary ts' })) (hobj : m.objective = .binaryLogistic) (hts : m.trees = .binary ts) (hp : ts.Perm ts')
    (hn : ts.length ≤ 2 ^ 51) {M : List (List (XR FP.binary64))} (hM : M ≠ []) {os : List (Nat → ℝ)}
    (h : List.Forall₂ (fun t o => t.predictReg (.ofMat M) = .ok ((List.range M.length).map fun i => .fin (o i))) ts os)
    (hr : ∀ o ∈ os, ∀ i < M.length, FP.binary64.rnd (o i) = (o i : EReal)) (hb : ∀ i < M.length, (os.map fun o => |o i|).sum ≤ 2 ^ (1000 : ℤ)) :
    ∃ c c' q q', ∃ Q Q' : List (List ℝ), convert (singles trunc initXgb) (.leaf cl v a) = .ok c ∧ convert (singles trunc initXgb) (.leaf cl v a') = .ok c' ∧
      (c.methods lib encode).predictProba = some q ∧ (c'.methods lib encode).predictProba = some q' ∧
      q (.arr (.ofMat M)) = .ok (Q.map fun r => r.map .fin) ∧ q' (.arr (.ofMat M)) = .ok (Q'.map fun r => r.map .fin) ∧ Q.length = M.length ∧ Q'.length = M.length ∧
      ∀ i < M.length, ∀ c < 2, |(Q.getD i []).getD c 0 - (Q'.getD i []).getD c 0| ≤ ts.length * 2 ^ (-53 : ℤ) * (os.map fun o => |o i|).sum + 2 ^ (-49 : ℤ) := by
  obtain ⟨os', hP, h'⟩ := perm_with hp h
  obtain ⟨c, hc, e⟩ := C89_converted_behaves trunc lib encode _ _ (.single hv hl)
  obtain ⟨c', hc', e'⟩ := C89_converted_behaves trunc lib encode _ _ (.single hv hl')
  obtain ⟨Q, hQ, hlen, hN⟩ := C83_xgb_binary m hobj M hM ts hts hn os h hr hb
  obtain ⟨Q', hQ', hlen', hN'⟩ := C83_xgb_binary { m with trees := .binary ts' } hobj M hM ts' rfl (hp.length_eq ▸ hn) os' h' (fun o ho => hr o (hP.mem_iff.2 ho)) fun i hi => by
    rw [← (hP.map fun o => |o i|).sum_eq]
    exact hb i hi
  refine ⟨c, c', _, _, Q, Q', hc, hc', by rw [e]; rfl, by rw [e']; rfl, hQ, hQ', hlen, hlen', fun i hi j hj => ?_⟩
  have n1 := hN i hi
  have n2 := hN' i hi
  rw [← (hP.map fun o => |o i|).sum_eq, ← (hP.map fun o => o i).sum_eq, ← hp.length_eq] at n2
  refine (near_both n1 n2 j hj).trans (le_of_eq ?_)
  have e1 : (2 : ℝ) ^ (-52 : ℤ) = 2 * 2 ^ (-53 : ℤ) := by norm_num
  have e2 : (2 : ℝ) ^ (-49 : ℤ) = 2 * 2 ^ (-50 : ℤ) := by norm_num
  rw [e1, e2]
  ring

/-- two-class boosting with one tree per stage, every tree answering with numbers -/
theorem stages_near (trunc : XR FP.binary64 → Py Int) {v cs ms init} {lr : ℝ} {nf : Nat} (hv : ∃ w, checkVersion v (some "0.21.0".toList) = .ok w) (hcs : ∀ c ∈ cs, Plain c)
    (h2 : cs.length = 2) (hne : ms ≠ []) (hn : ms.length + 1 ≤ 2 ^ 51) {M : List (List (XR FP.binary64))} (hM : M ≠ []) (hw : ∀ r ∈ M, r.length = nf) {I : Nat → ℝ}
    (hI : StartsAt lib encode (.ofMat M) M.length init I) {ts : List (Nat → ℝ)} (h : List.Forall₂ (Numbers lib encode (.ofMat M) M.length) ms ts)
    (hb : ∀ i < M.length, |I i| + (ts.map fun t => |t i * lr|).sum ≤ 2 ^ (1000 : ℤ)) :
    ∃ c q, ∃ Q : List (List ℝ), convert (singles trunc initXgb) (.boosting v cs (ms.map fun m => [m]) init "deviance" [.float (.fin lr), .int nf]) = .ok c ∧
      (c.methods lib encode).predictProba = some q ∧ q (.arr (.ofMat M)) = .ok (Q.map fun r => r.map .fin) ∧ Q.length = M.length ∧
      ∀ i < M.length, Near 2 (((ms.length + 1) * (2 : ℝ) ^ (-52 : ℤ) * (|I i| + (ts.map fun t => |t i * lr|).sum) + ms.length * (2 : ℝ) ^ (-1074 : ℤ)) / 4 + (2 : ℝ) ^ (-50 : ℤ))
        (Q.getD i []) (logisticPair (I i + lr * (ts.map fun t => t i).sum)) := by
  obtain ⟨⟨e, q0, P, hbe, hq0, hP, hraw⟩, hIr⟩ := hI
  obtain ⟨es, he, hr⟩ : ∃ es : List (Methods (XR FP.binary64)), List.Forall₂ (List.Forall₂ (Behaves lib encode)) (ms.map fun m => [m]) (es.map fun e => [e]) ∧
      List.Forall₂ (fun e t => Est.runNumbers e (.ofMat M) = .ok ((List.range M.length).map fun i => .fin (t i))) es ts := by
    clear hb hne hn
    induction h with
    | nil => exact ⟨[], .nil, .nil⟩
    | cons h _ ih =>
      obtain ⟨es, h1, h2⟩ := ih
      obtain ⟨f, p, hf, hp, hX⟩ := h
      refine ⟨f :: es, .cons (.cons hf .nil) h1, .cons ?_ h2⟩
      unfold Est.runNumbers
      rw [hp]
      dsimp only
      rw [hX, py_ok_bind, mapM_map']
      exact mapM_ok_map fun i _ => rfl
  obtain ⟨c, hc, ec⟩ := C89_converted_behaves trunc lib encode _ _ (.boosting (loss := "deviance") (lr := (.fin lr : XR FP.binary64)) (nf := nf) (l := .binomial) hv hcs he hbe (by rw [h2]; rfl))
  generalize hg : (⟨cs, (es.map fun e => [e]).map fun st => st.map fun m => m.runNumbers, e.runProba, .fin lr, nf, .binomial⟩ : GB (XR FP.binary64) (PVal (XR FP.binary64))) = g
  have hS : g.estimators.length = ms.length := by
    subst hg
    have := he.length_eq
    simpa using this.symm
  have hlen : ∀ st ∈ g.estimators, st.length = 1 := by
    subst hg
    intro st hst
    simp only [List.map_map, List.mem_map] at hst
    obtain ⟨x, -, rfl⟩ := hst
    rfl
  have hne' : g.estimators ≠ [] := by
    intro hx
    rw [hx] at hS
    exact hne (List.length_eq_zero_iff.1 hS.symm)
  have htl : ts.length = ms.length := h.length_eq.symm
  have hT : ∀ s (hs : s < g.estimators.length) (hc : 0 < (g.estimators[s]).length),
      (g.estimators[s])[0] (.ofMat M) = .ok ((List.range M.length).map fun i => .fin ((ts.getD s fun _ => 0) i)) := by
    intro s hs hc0
    have hs1 : s < ts.length := by omega
    have hs2 : s < es.length := by rw [hr.length_eq]; exact hs1
    have := (List.forall₂_iff_get.1 hr).2 s hs2 hs1
    have h3 : (g.estimators[s])[0]? = some (es[s].runNumbers) := by
      have h4 : g.estimators[s]? = some [es[s].runNumbers] := by
        subst hg
        simp [hs2]
      rw [List.getElem?_eq_getElem hs] at h4
      rw [Option.some.inj h4]
      rfl
    rw [List.getElem?_eq_getElem hc0] at h3
    rw [Option.some.inj h3]
    simpa [List.getD_eq_getElem?_getD, hs1] using this
  have hI' : (g.initProba (.ofMat M) >>= g.loss.initRaw) = .ok (mat M.length 1 fun i _ => .fin (I i)) := by
    subst hg
    show (e.runProba (.ofMat M) >>= Loss.initRaw .binomial) = _
    unfold Est.runProba
    rw [hq0]
    dsimp only
    rw [hP, py_ok_bind, hraw]
  have hlr : g.learningRate = .fin lr := by subst hg; rfl
  have hw' : Rect g.nFeatures M := by subst hg; exact hw
  have sums : ∀ (f : (Nat → ℝ) → ℝ), ∑ s ∈ Finset.range g.estimators.length, f (ts.getD s fun _ => 0) = (ts.map f).sum := by
    intro f
    rw [hS, ← htl, ← list_sum_range]
    congr 1
    apply List.ext_getElem
    · simp
    · intro s h1 h2
      have : s < ts.length := by simpa using h1
      simp [List.getD_eq_getElem?_getD, this]
  have hfin : ∃ V : Nat → ℝ, g.rawPredict (.ofMat M) = .ok (mat M.length 1 fun i _ => .fin (V i)) := by
    have hs := FP.binary64_sound
    have hst : ∀ c < 1, List.Forall₂ (GB.StageReturns (.ofMat M) M.length c) g.estimators (ts.map fun t (i : Nat) => (.fin (t i) : XR FP.binary64)) := by
      intro j hj
      obtain rfl : j = 0 := by omega
      rw [List.forall₂_iff_get]
      refine ⟨by simp [hS, htl], fun s h1 h3 => ?_⟩
      have hs0 : 0 < (g.estimators[s]).length := by rw [hlen _ (List.getElem_mem h1)]; exact one_pos
      have hs1 : s < ts.length := by omega
      refine ⟨(g.estimators[s])[0], by simp [hs0], ?_⟩
      rw [hT s h1 hs0]
      simp [List.getD_eq_getElem?_getD, hs1]
    have hR := GB.rawPredict_eq hM hw' one_pos hne' hlen hI' hst
    have key : ∀ i < M.length, ∃ V : ℝ, (.fin (I i) : XR FP.binary64) +ₚ (ts.map fun t (i : Nat) => (.fin (t i) : XR FP.binary64)).foldl (fun a t => a +ₚ (t i *ₚ g.learningRate)) (ofInt 0) = .fin V := by
      intro i hi
      have hfold : (ts.map fun t (i : Nat) => (.fin (t i) : XR FP.binary64)).foldl (fun a t => a +ₚ (t i *ₚ g.learningRate)) (ofInt 0) =
          pySum ((ts.map fun t => (t i, lr)).map fun p => (.fin p.1 : XR FP.binary64) *ₚ .fin p.2) := by
        unfold pySum
        rw [hlr, List.foldl_map, List.map_map, List.foldl_map]
        rfl
      have hb' := hb i hi
      have hsum : 0 ≤ (ts.map fun t => |t i * lr|).sum := List.sum_nonneg fun x hx => by
        obtain ⟨o, -, rfl⟩ := List.mem_map.1 hx
        exact abs_nonneg _
      have hg2 : (1 + (2 : ℝ) ^ (-53 : ℤ)) ^ (ts.length + 1) ≤ 2 := by
        have := (gam64 (n := ts.length + 1) (by omega)).2
        unfold gam at this
        generalize (1 + (2 : ℝ) ^ (-53 : ℤ)) ^ (ts.length + 1) = g at *
        linarith
      have hη : (ts.length : ℝ) * 2 ^ (-1075 : ℤ) ≤ 2 ^ (1000 : ℤ) := by
        have h1 : (ts.length : ℝ) ≤ 2 ^ (51 : ℤ) := by
          have : ts.length ≤ 2 ^ 51 := by omega
          exact_mod_cast this
        calc (ts.length : ℝ) * 2 ^ (-1075 : ℤ) ≤ 2 ^ (51 : ℤ) * 2 ^ (-1075 : ℤ) := mul_le_mul_of_nonneg_right h1 (by positivity)
          _ = 2 ^ (-1024 : ℤ) := by rw [← zpow_add₀ (by norm_num)]; norm_num
          _ ≤ _ := B64.pow_mono (by norm_num)
      have h1002 : (2 : ℝ) ^ (1002 : ℤ) = 4 * 2 ^ (1000 : ℤ) := by
        rw [show (1002 : ℤ) = 2 + 1000 by norm_num, zpow_add₀ (by norm_num)]
        norm_num
      have h1003 : (2 : ℝ) ^ (1003 : ℤ) = 8 * 2 ^ (1000 : ℤ) := by
        rw [show (1003 : ℤ) = 3 + 1000 by norm_num, zpow_add₀ (by norm_num)]
        norm_num
      have hle : (2 : ℝ) ^ (1003 : ℤ) ≤ 2 ^ (1023 : ℤ) := B64.pow_mono (by norm_num)
      have hbig : (1 + (2 : ℝ) ^ (-53 : ℤ)) ^ ((ts.map fun t => (t i, lr)).length + 1) *
          (((ts.map fun t => (t i, lr)).map fun p => |p.1 * p.2|).sum + (ts.map fun t => (t i, lr)).length * 2 ^ (-1075 : ℤ)) ≤ 2 ^ (1002 : ℤ) := by
        rw [List.length_map, List.map_map, h1002]
        have hx : ((ts.map ((fun p : ℝ × ℝ => |p.1 * p.2|) ∘ fun t => (t i, lr))).sum + ts.length * 2 ^ (-1075 : ℤ)) ≤ 2 * 2 ^ (1000 : ℤ) := by
          have h3 : (ts.map ((fun p : ℝ × ℝ => |p.1 * p.2|) ∘ fun t => (t i, lr))).sum = (ts.map fun t => |t i * lr|).sum := rfl
          rw [h3]
          have := abs_nonneg (I i)
          generalize (2 : ℝ) ^ (1000 : ℤ) = big at *
          linarith
        have hx0 : 0 ≤ ((ts.map ((fun p : ℝ × ℝ => |p.1 * p.2|) ∘ fun t => (t i, lr))).sum + ts.length * 2 ^ (-1075 : ℤ)) :=
          add_nonneg hsum (by positivity)
        calc _ ≤ 2 * (2 * (2 : ℝ) ^ (1000 : ℤ)) := mul_le_mul hg2 hx hx0 (by norm_num)
          _ = _ := by ring
      obtain ⟨s, hs1, hs2, hs3⟩ := products_finite hs FP.binary64_accurate rnd_two_pow_1023 (ts.map fun t => (t i, lr)) (hbig.trans (B64.pow_mono (by norm_num)))
      rw [hfold, hs1]
      have : |I i + s| ≤ 2 ^ (1023 : ℤ) := by
        have a1 := abs_add_le (I i) s
        have a2 := hs3.trans hbig
        refine le_trans ?_ hle
        rw [h1003]
        rw [h1002] at a2
        have a3 : (0 : ℝ) ≤ 2 ^ (1000 : ℤ) := by positivity
        have a4 : |I i| ≤ 2 ^ (1000 : ℤ) := (le_add_of_nonneg_right hsum).trans hb'
        generalize (2 : ℝ) ^ (1000 : ℤ) = big at a2 a3 a4 ⊢
        linarith only [a1, a2, a3, a4]
      obtain ⟨V, hV⟩ := rnd_finite hs rnd_two_pow_1023 this
      exact ⟨V, XR.round_eq_fin.2 hV⟩
    choose! V hV using key
    refine ⟨V, ?_⟩
    rw [hR]
    congr 1
    unfold mat
    refine List.map_congr_left fun i hi => List.map_congr_left fun c _ => ?_
    exact hV i (List.mem_range.1 hi)
  obtain ⟨V, hV⟩ := hfin
  obtain ⟨Q, hQ, hql, hN⟩ := C83_gb_binomial g (by subst hg; rfl) M hM hw' hne' (by rw [hS]; exact hn) hlen lr hlr I hI' hIr (fun s i => (ts.getD s fun _ => 0) i) hT V hV
  refine ⟨c, _, Q, hc, by rw [ec]; rfl, by subst hg; exact hQ, hql, fun i hi => ?_⟩
  have := hN i hi
  unfold boosted at this
  rw [sums fun t => |t i * lr|, sums fun t => t i, hS] at this
  exact this

/-- **C112** in double precision, for gradient boosting with two classes: if the trees answer a request with numbers, both orders of the stages give probabilities,
and no probability changes by more than 2⁻⁵³ times the number of scores added times the sum of their sizes, and a little more than 2⁻⁴⁹. -/
theorem C112_close_stages (trunc : XR FP.binary64 → Py Int) {v cs ms ms' init} {lr : ℝ} {nf : Nat} (hp : ms.Perm ms') (hv : ∃ w, checkVersion v (some "0.21.0".toList) = .ok w) (hcs : ∀ c ∈ cs, Plain c)
    (h2 : cs.length = 2) (hne : ms ≠ []) (hn : ms.length + 1 ≤ 2 ^ 51) {M : List (List (XR FP.binary64))} (hM : M ≠ []) (hw : ∀ r ∈ M, r.length = nf) {I : Nat → ℝ}
    (hI : StartsAt lib encode (.ofMat M) M.length init I) {ts : List (Nat → ℝ)} (h : List.Forall₂ (Numbers lib encode (.ofMat M) M.length) ms ts)
    (hb : ∀ i < M.length, |I i| + (ts.map fun t => |t i * lr|).sum ≤ 2 ^ (1000 : ℤ)) :
    let o := fun ms : List (SkObj (Attrs (XR FP.binary64)) (PVal (XR FP.binary64)) (XR FP.binary64)) => SkObj.boosting v cs (ms.map fun m => [m]) init "deviance" [.float (.fin lr), .int nf]
    ∃ c c' q q', ∃ Q Q' : List (List ℝ), convert (singles trunc initXgb) (o ms) = .ok c ∧ convert (singles trunc initXgb) (o ms') = .ok c' ∧
      (c.methods lib encode).predictProba = some q ∧ (c'.methods lib encode).predictProba = some q' ∧
      q (.arr (.ofMat M)) = .ok (Q.map fun r => r.map .fin) ∧ q' (.arr (.ofMat M)) = .ok (Q'.map fun r => r.map .fin) ∧ Q.length = M.length ∧ Q'.length = M.length ∧
      ∀ i < M.length, ∀ c < 2, |(Q.getD i []).getD c 0 - (Q'.getD i []).getD c 0| ≤
        (ms.length + 1) * 2 ^ (-53 : ℤ) * (|I i| + (ts.map fun t => |t i * lr|).sum) + (ms.length * 2 ^ (-1074 : ℤ) + 2 ^ (-49 : ℤ)) := by
  intro o
  obtain ⟨ts', hP, h'⟩ := perm_with hp h
  obtain ⟨c, q, Q, h1, h3, h4, h5, h6⟩ := stages_near trunc hv hcs h2 hne hn hM hw hI h hb
  obtain ⟨c', q', Q', h1', h3', h4', h5', h6'⟩ := stages_near trunc hv hcs h2 (fun e => hne (by rw [e] at hp; exact hp.eq_nil)) (hp.length_eq ▸ hn) hM hw hI h' (by
    intro i hi
    rw [← (hP.map fun t => |t i * lr|).sum_eq]
    exact hb i hi)
  refine ⟨c, c', q, q', Q, Q', h1, h1', h3, h3', h4, h4', h5, h5', fun i hi j hj => ?_⟩
  have n1 := h6 i hi
  have n2 := h6' i hi
  rw [← (hP.map fun t => |t i * lr|).sum_eq, ← (hP.map fun t => t i).sum_eq, ← hp.length_eq] at n2
  refine (near_both n1 n2 j hj).trans ?_
  have e1 : (2 : ℝ) ^ (-52 : ℤ) = 2 * 2 ^ (-53 : ℤ) := by norm_num
  have e2 : (2 : ℝ) ^ (-49 : ℤ) = 2 * 2 ^ (-50 : ℤ) := by norm_num
  have hk : 0 ≤ (ms.length : ℝ) * 2 ^ (-1074 : ℤ) := by positivity
  rw [e1, e2]
  generalize (2 : ℝ) ^ (-1074 : ℤ) = z at *
  generalize (2 : ℝ) ^ (-53 : ℤ) = y at *
  generalize (2 : ℝ) ^ (-50 : ℤ) = x at *
  linarith

theorem mapM_pairs {α β : Type} {f : α → Py β} {l : List α} {u : List β} (h : List.Forall₂ (fun a b => f a = .ok b) l u) : l.mapM f = .ok u := by
  induction h with
  | nil => rfl
  | cons h1 _ ih => rw [mapM_cons', h1, ih]; rfl

theorem columns_slice {F : Type} [Arith F] {cols : List Int} {X Y : Arr F} (h : TakesColumns cols X Y) : featSlice X (some cols) = .ok Y := by
  obtain ⟨rs, rs', hr, rfl, hF⟩ := h
  simp only [featSlice, hr, py_ok_bind]
  rw [mapM_pairs (hF.imp fun r r' h => mapM_pairs h)]
  rfl

/-- an ensemble whose members read columns of their own and answer with probabilities -/
theorem assigned_subspaces (trunc : XR FP.binary64 → Py Int) {k v cs} {parts : List (SkObj (Attrs (XR FP.binary64)) (PVal (XR FP.binary64)) (XR FP.binary64) × List Int)}
    {X : Arr (XR FP.binary64)} {n w : Nat} (hv : ReadableVersion v) (hcs : ∀ c ∈ cs, Plain c) {Ps : List (Nat → Nat → ℝ)} (hne : Ps ≠ []) (hn : 0 < n)
    (h : List.Forall₂ (fun p P => ∃ Y, TakesColumns p.2 X Y ∧ Assigns lib encode Y n w p.1 P) parts Ps) (hT : parts.length ≤ 2 ^ 51) :
    ∃ c q, ∃ Q : Nat → Nat → ℝ, convert (singles trunc initXgb) (.ensemble k v (some (parts.map Prod.snd)) cs (parts.map Prod.fst)) = .ok c ∧ (c.methods lib encode).predictProba = some q ∧
      q (.arr X) = .ok (mat n w fun i c => .fin (Q i c)) ∧ ∀ i < n, ∀ c < w, Within64 parts.length (meanEntry Ps i c) 1 (Q i c) (meanEntry Ps i c) := by
  obtain ⟨es, he, hr⟩ : ∃ es : List (Methods (XR FP.binary64)), List.Forall₂ (Behaves lib encode) (parts.map Prod.fst) es ∧
      List.Forall₂ (fun (m : Member (XR FP.binary64) × Option (List Int)) P => (featSlice X m.2 >>= m.1.predictProba) = .ok (mat n w fun i c => .fin (P i c)))
        (List.zipWith (fun e f => (e, some f)) (es.map fun m => (⟨m.runProba⟩ : Member (XR FP.binary64))) (parts.map Prod.snd)) Ps := by
    clear hT hne
    induction h with
    | nil => exact ⟨[], .nil, .nil⟩
    | cons h _ ih =>
      obtain ⟨es, h1, h2⟩ := ih
      obtain ⟨Y, hY, ⟨f, q, hf, hq, hX⟩, -⟩ := h
      refine ⟨f :: es, .cons hf h1, .cons ?_ h2⟩
      show (featSlice X (some _) >>= Est.runProba f) = _
      rw [columns_slice hY, py_ok_bind]
      unfold Est.runProba
      rw [hq]
      exact hX
  have hlen : es.length = parts.length := by simpa using he.length_eq.symm
  obtain ⟨c, hc, e⟩ := C89_converted_behaves trunc lib encode _ _ (.ensemble (k := k) (fs := some (parts.map Prod.snd)) hv hcs he)
  generalize hb : (⟨some (parts.map Prod.snd), cs, es.map fun m => ⟨m.runProba⟩⟩ : Bagging (XR FP.binary64) (PVal (XR FP.binary64))) = b
  have hbl : b.estimators.length = parts.length := by subst hb; simpa using hlen
  obtain ⟨Q, hQ, hw⟩ := C82_average b (by
      subst hb
      intro fs hfs
      cases hfs
      simp [hlen]) X n w hn Ps hne (by
      subst hb
      exact hr) (hbl ▸ hT) fun P hP => by
    obtain ⟨o, -, Y, -, ho⟩ := forall₂_mem_right h hP
    exact ho.2
  rw [hbl] at hw
  refine ⟨c, _, Q, hc, by rw [e]; rfl, ?_, hw⟩
  subst hb
  exact hQ

theorem mean_le_one {Ps : List (Nat → Nat → ℝ)} (hne : Ps ≠ []) {i j : Nat} (h : ∀ P ∈ Ps, P i j ≤ 1) : meanEntry Ps i j ≤ 1 := by
  unfold meanEntry
  have hpos : (0 : ℝ) < Ps.length := by exact_mod_cast List.length_pos_iff.2 hne
  rw [div_le_one hpos]
  clear hne hpos
  induction Ps with
  | nil => simp
  | cons P l ih =>
    have a1 := h P (by simp)
    have a2 := ih fun P hP => h P (by simp [hP])
    rw [List.map_cons, List.sum_cons, List.length_cons]
    push_cast
    linarith

/-- **C112** in double precision, for ensembles whose members read columns of their own: the bound of `C112_close`. -/
theorem C112_close_subspaces (trunc : XR FP.binary64 → Py Int) {k v cs} {parts parts' : List (SkObj (Attrs (XR FP.binary64)) (PVal (XR FP.binary64)) (XR FP.binary64) × List Int)}
    (hp : parts.Perm parts') {X : Arr (XR FP.binary64)} {n w : Nat} (hv : ReadableVersion v) (hcs : ∀ c ∈ cs, Plain c) {Ps : List (Nat → Nat → ℝ)} (hn : 0 < n) (hne : parts ≠ [])
    (h : List.Forall₂ (fun p P => ∃ Y, TakesColumns p.2 X Y ∧ Assigns lib encode Y n w p.1 P) parts Ps) (hT : parts.length ≤ 2 ^ 51) :
    ∃ c c' q q', ∃ Q Q' : Nat → Nat → ℝ, convert (singles trunc initXgb) (.ensemble k v (some (parts.map Prod.snd)) cs (parts.map Prod.fst)) = .ok c ∧
      convert (singles trunc initXgb) (.ensemble k v (some (parts'.map Prod.snd)) cs (parts'.map Prod.fst)) = .ok c' ∧
      (c.methods lib encode).predictProba = some q ∧ (c'.methods lib encode).predictProba = some q' ∧
      q (.arr X) = .ok (mat n w fun i c => .fin (Q i c)) ∧ q' (.arr X) = .ok (mat n w fun i c => .fin (Q' i c)) ∧
      ∀ i < n, ∀ c < w, |Q i c - Q' i c| ≤ parts.length * 2 ^ (-51 : ℤ) + 2 ^ (-1073 : ℤ) := by
  obtain ⟨Ps', hP, h'⟩ := perm_with hp h
  have hPs : Ps ≠ [] := by
    rintro rfl
    exact hne (List.length_eq_zero_iff.1 h.length_eq)
  have hPs' : Ps' ≠ [] := fun e => hPs (by rw [e] at hP; exact hP.eq_nil)
  obtain ⟨c, q, Q, h1, h2, h3, h4⟩ := assigned_subspaces (k := k) trunc hv hcs hPs hn h hT
  obtain ⟨c', q', Q', h1', h2', h3', h4'⟩ := assigned_subspaces (k := k) trunc hv hcs hPs' hn h' (hp.length_eq ▸ hT)
  refine ⟨c, c', q, q', Q, Q', h1, h1', h2, h2', h3, h3', fun i hi j hj => ?_⟩
  have hm : meanEntry Ps' i j = meanEntry Ps i j := by
    unfold meanEntry
    rw [(hP.map fun P => P i j).sum_eq, hP.length_eq]
  have hm1 : meanEntry Ps i j ≤ 1 := mean_le_one hPs fun P hP => by
    obtain ⟨o, -, Y, -, ho⟩ := forall₂_mem_right h hP
    exact (ho.2 i hi j hj).2.1
  have b1 := h4 i hi j hj
  have b2 := h4' i hi j hj
  rw [hm, ← hp.length_eq] at b2
  unfold Within64 at b1 b2
  have tri : |Q i j - Q' i j| ≤ |Q i j - meanEntry Ps i j| + |Q' i j - meanEntry Ps i j| := by
    rw [abs_sub_comm (Q' i j)]
    exact abs_sub_le _ _ _
  have e1 : (2 : ℝ) ^ (-51 : ℤ) = 2 * 2 ^ (-52 : ℤ) := by
    rw [← zpow_one_add₀ (by norm_num)]
    norm_num
  have e2 : (2 : ℝ) ^ (-1073 : ℤ) = 2 * 2 ^ (-1074 : ℤ) := by
    rw [← zpow_one_add₀ (by norm_num)]
    norm_num
  have hk : (parts.length : ℝ) * 2 ^ (-52 : ℤ) * meanEntry Ps i j ≤ parts.length * 2 ^ (-52 : ℤ) := mul_le_of_le_one_right (by positivity) hm1
  rw [e1, e2]
  push_cast at b1 b2
  linarith

/-! ### Cases -/

/-- Two members with columns of their own that assign probabilities to the request [[5, 6]]. -/
example (a b : ℝ) (ha : 0 ≤ a ∧ a ≤ 1 ∧ FP.binary64.rnd a = (a : EReal)) (hb : 0 ≤ b ∧ b ≤ 1 ∧ FP.binary64.rnd b = (b : EReal)) :
    List.Forall₂ (fun (p : SkObj (Attrs (XR FP.binary64)) (PVal (XR FP.binary64)) (XR FP.binary64) × List Int) P =>
        ∃ Y, TakesColumns p.2 (.ofMat [[.fin 5, .fin 6]]) Y ∧ Assigns lib encode Y 1 3 p.1 P)
      [(.leaf "DummyClassifier" (some "0.22".toList) (demoPrior (.fin a) (.fin b) (.fin b)), [0]), (.leaf "DummyClassifier" (some "0.22".toList) (demoPrior (.fin b) (.fin b) (.fin a)), [1, 0])]
      [fun _ c => if c = 0 then a else b, fun _ c => if c = 2 then a else b] := by
  refine .cons ⟨.ofMat [[.fin 5]], ⟨_, _, rfl, rfl, .cons (.cons rfl .nil) .nil⟩, ⟨_, _, .single version_022 (demoPrior_learned _ _ _), rfl, rfl⟩, fun i _ c _ => ?_⟩
    (.cons ⟨.ofMat [[.fin 6, .fin 5]], ⟨_, _, rfl, rfl, .cons (.cons rfl (.cons rfl .nil)) .nil⟩, ⟨_, _, .single version_022 (demoPrior_learned _ _ _), rfl, rfl⟩, fun i _ c _ => ?_⟩ .nil) <;>
  · dsimp only
    split
    · exact ha
    · exact hb


/-- Boosting from the shares one half starts at zero. -/
theorem half_starts : StartsAt lib encode (.ofMat [[.fin 5]]) 1 (.leaf "DummyClassifier" (some "0.22".toList) (demoPrior (.fin (1 / 2)) (.fin (1 / 2)) (.fin 0))) fun _ => 0 := by
  have hs := FP.binary64_sound
  have hhalf : FP.binary64.rnd (1 / 2) = ((1 / 2 : ℝ) : EReal) := by
    have h := B64.rndFin_of_representable (z := (1 / 2 : ℝ)) ⟨1, -1, by norm_num, by norm_num, by norm_num⟩
    have := B64.rnd_of_fin (x := (1 / 2 : ℝ)) (by
      rw [h]
      have : (2 : ℝ) ^ (0 : ℤ) ≤ 2 ^ (1024 : ℤ) := B64.pow_mono (by norm_num)
      rw [zpow_zero] at this
      refine lt_of_lt_of_le ?_ this
      norm_num [abs_of_pos])
    rw [h] at this
    exact this
  have hone : (ofInt 1 : XR FP.binary64) = .fin 1 := XR.ofInt_one hs
  have heps : ∃ e : ℝ, (gbEps : XR FP.binary64) = .fin e ∧ 0 ≤ e ∧ e ≤ 1 / 2 := by
    obtain ⟨e, he⟩ := rnd_finite hs hhalf (t := (11920929 : ℝ) / 100000000000000) (by
      rw [abs_of_pos (by norm_num)]; norm_num)
    refine ⟨e, ?_, ?_, ?_⟩
    · have : ((11920929 : Int) : ℝ) / ((100000000000000 : Nat) : ℝ) = (11920929 : ℝ) / 100000000000000 := by
        norm_num
      show XR.round _ = _
      refine XR.round_eq_fin.2 ?_
      rw [← he]
      congr 1
    · have := hs.mono (show (0 : ℝ) ≤ (11920929 : ℝ) / 100000000000000 by norm_num)
      rw [hs.zero, he] at this
      exact_mod_cast this
    · have := hs.mono (show (11920929 : ℝ) / 100000000000000 ≤ 1 / 2 by norm_num)
      rw [hhalf, he] at this
      exact_mod_cast this
  obtain ⟨e, he, he0, he1⟩ := heps
  have hhi : ∃ f : ℝ, (ofInt 1 -ₚ gbEps : XR FP.binary64) = .fin f ∧ 1 / 2 ≤ f := by
    obtain ⟨f, hf⟩ := rnd_finite hs hs.one (t := 1 + -e) (by
      rw [abs_of_nonneg (by linarith)]; linarith)
    refine ⟨f, ?_, ?_⟩
    · rw [he, hone]
      exact XR.round_eq_fin.2 hf
    · have := hs.mono (show (1 / 2 : ℝ) ≤ 1 + -e by linarith)
      rw [hhalf, hf] at this
      exact_mod_cast this
  obtain ⟨f, hf, hf1⟩ := hhi
  have hclip : clip (.fin (1 / 2) : XR FP.binary64) gbEps (ofInt 1 -ₚ gbEps) = .fin (1 / 2) := by
    rw [hf, he]
    unfold clip
    have h1 : ¬ ((.fin (1 / 2) : XR FP.binary64) <ₚ .fin e) := by
      simp only [XR.lt_fin, decide_eq_true_eq]; linarith
    have h2 : ¬ ((.fin f : XR FP.binary64) <ₚ .fin (1 / 2)) := by
      simp only [XR.lt_fin, decide_eq_true_eq]; linarith
    rw [if_neg h1, if_neg h2]
  have hsub : (ofInt 1 -ₚ .fin (1 / 2) : XR FP.binary64) = .fin (1 / 2) := by
    rw [hone]
    refine XR.round_eq_fin.2 ?_
    rw [show (1 : ℝ) + -(1 / 2) = 1 / 2 by norm_num]
    exact hhalf
  have hdiv : (.fin (1 / 2) : XR FP.binary64) /ₚ .fin (1 / 2) = .ok (.fin 1) := by
    rw [XR.div_fin, if_neg (by norm_num), div_self (by norm_num)]
    exact congrArg _ (XR.round_eq_fin.2 hs.one)
  have hlog : safeLog (.fin 1 : XR FP.binary64) = .ok (.fin 0) := by
    unfold safeLog
    rw [XR.ofInt_zero hs]
    have h1 : ¬ ((.fin 1 : XR FP.binary64) ==ₚ .fin 0) := by simp
    have h2 : ¬ ((.fin 1 : XR FP.binary64) <ₚ .fin 0) := by simp [XR.lt_fin]
    rw [if_neg h1, if_neg h2]
    show XR.log _ = _
    have : FP.binary64.log 1 = 0 := by
      show B64.rndFin (Real.log 1) = 0
      rw [Real.log_one, B64.rndFin_zero]
    simp only [XR.log, this]
    rw [if_neg (by norm_num)]
  refine ⟨⟨_, _, _, .single version_022 (demoPrior_learned _ _ _), rfl, rfl, ?_⟩, fun _ _ => hs.zero⟩
  show Loss.initRaw .binomial [[(.fin (1 / 2) : XR FP.binary64), .fin (1 / 2), .fin 0]] = _
  simp only [Loss.initRaw_eq, mapM_cons', List.mapM_nil, Loss.initRow]
  have : pyGet [(.fin (1 / 2) : XR FP.binary64), .fin (1 / 2), .fin 0] 1 = .ok (.fin (1 / 2)) := rfl
  simp only [this, py_ok_bind, hclip, hsub, hdiv, hlog]
  rfl

theorem regTree_numbers (x : ℝ) : Numbers lib encode (.ofMat [[.fin 5]]) 1 (.leaf "DecisionTreeRegressor" (some "0.22".toList) (regTree (.fin x))) fun _ => x :=
  ⟨_, _, .single version_022 (regTree_learned _), rfl, rfl⟩

theorem eight_le : (8 : ℝ) ≤ 2 ^ (1000 : ℤ) := by
  have : (2 : ℝ) ^ (3 : ℤ) ≤ 2 ^ (1000 : ℤ) := B64.pow_mono (by norm_num)
  have e : (2 : ℝ) ^ (3 : ℤ) = 8 := by norm_num
  rwa [e] at this

/-- Three stages with the learning rate 1, in two orders. -/
example (trunc : XR FP.binary64 → Py Int) : let r := fun x : ℝ => SkObj.leaf "DecisionTreeRegressor" (some "0.22".toList) (regTree (.fin x : XR FP.binary64))
    let o := fun ms : List (SkObj (Attrs (XR FP.binary64)) (PVal (XR FP.binary64)) (XR FP.binary64)) => SkObj.boosting (some "0.22".toList) [.str "no", .str "yes"] (ms.map fun m => [m])
      (.leaf "DummyClassifier" (some "0.22".toList) (demoPrior (.fin (1 / 2)) (.fin (1 / 2)) (.fin 0))) "deviance" [.float (.fin 1), .int 1]
    ∃ c c' q q', ∃ Q Q' : List (List ℝ), convert (singles trunc initXgb) (o [r 1, r 2, r (-4)]) = .ok c ∧ convert (singles trunc initXgb) (o [r (-4), r 1, r 2]) = .ok c' ∧
      (c.methods lib encode).predictProba = some q ∧ (c'.methods lib encode).predictProba = some q' ∧
      q (.arr (.ofMat [[.fin 5]])) = .ok (Q.map fun r => r.map .fin) ∧ q' (.arr (.ofMat [[.fin 5]])) = .ok (Q'.map fun r => r.map .fin) ∧
      |(Q.getD 0 []).getD 1 0 - (Q'.getD 0 []).getD 1 0| ≤ 4 * 2 ^ (-53 : ℤ) * 7 + (3 * 2 ^ (-1074 : ℤ) + 2 ^ (-49 : ℤ)) := by
  intro r o
  obtain ⟨c, c', q, q', Q, Q', h1, h2, h3, h4, h5, h6, -, -, h7⟩ := C112_close_stages (lib := lib) (encode := encode) trunc (v := some "0.22".toList) (cs := [.str "no", .str "yes"])
    (ms := [r 1, r 2, r (-4)]) (ms' := [r (-4), r 1, r 2]) (lr := 1) (nf := 1)
    (List.perm_append_comm (l₁ := [_, _]) (l₂ := [_])) ⟨_, rfl⟩ (strings_plain ["no", "yes"]) rfl (by simp) (by norm_num) (M := [[.fin 5]]) (by simp) (by simp) half_starts
    (.cons (regTree_numbers 1) (.cons (regTree_numbers 2) (.cons (regTree_numbers (-4)) .nil))) (by
      intro i _
      have := eight_le
      generalize (2 : ℝ) ^ (1000 : ℤ) = big at *
      norm_num
      linarith)
  refine ⟨c, c', q, q', Q, Q', h1, h2, h3, h4, h5, h6, ?_⟩
  have := h7 0 (by simp) 1 (by norm_num)
  refine this.trans (le_of_eq ?_)
  simp only [List.map_cons, List.map_nil, List.sum_cons, List.sum_nil, List.length_cons, List.length_nil]
  generalize (2 : ℝ) ^ (-1074 : ℤ) = z
  generalize (2 : ℝ) ^ (-53 : ℤ) = y
  generalize (2 : ℝ) ^ (-49 : ℤ) = x
  norm_num

/-- Three rounds of an XGBClassifier in two orders. -/
example (trunc : XR FP.binary64 → Py Int) :=
  C112_close_rounds (lib := lib) (encode := encode) trunc (v := some "0.22".toList) version_022 (leafXgb_learned (fp := FP.binary64) (.fin 1) (.fin 2) (.fin 4))
    (leafXgb_learned (fp := FP.binary64) (.fin 4) (.fin 1) (.fin 2)) rfl rfl (List.perm_append_comm (l₁ := [_, _]) (l₂ := [_])) (by norm_num) (M := [[.fin 5]]) (by simp)
    (os := [fun _ => 1, fun _ => 2, fun _ => 4]) (.cons rfl (.cons rfl (.cons rfl .nil))) (by
      intro o ho i _
      have r : ∀ k : ℕ, k < 1000 → FP.binary64.rnd (2 ^ k) = ((2 ^ k : ℝ) : EReal) := fun k hk => XR.round_eq_fin.1 (round_two_pow k hk)
      simp only [List.mem_cons, List.not_mem_nil, or_false] at ho
      rcases ho with rfl | rfl | rfl
      · simpa using r 0 (by norm_num)
      · simpa using r 1 (by norm_num)
      · have := r 2 (by norm_num)
        norm_num at this
        exact this) (by
      intro i _
      have := eight_le
      generalize (2 : ℝ) ^ (1000 : ℤ) = big at *
      norm_num
      linarith)

end PurePredict
