import Verif.Lemmas.SumOne
import Verif.Props.C13
import Verif.Props.C16
import Verif.Props.C18
import Verif.Props.C50
/-
C61: in double precision, probabilities sum to one up to rounding.
-/
namespace PurePredict
open Spec Linear
variable {C : Type}

/-- Lists of double precision numbers, as the model's floats. -/
abbrev f64 (l : List ℝ) : List (XR FP.binary64) := l.map XR.fin

/-- **C61**, `sfmax` of `base.py`, used by logistic regression and XGBoost. -/
theorem C61_softmax (r : List ℝ) (ht : Tame r) (hn : r.length ≤ 2 ^ 51) :
    ∃ q, sfmax (f64 r) = .ok (f64 q) ∧ NearDist r.length (r.length * (2 : ℝ) ^ (-50 : ℤ)) q := by
  obtain ⟨q, h1, -, h2⟩ := sfmax64 ht hn
  exact ⟨q, h1, h2⟩

/-- **C61**, decision trees: every record of every request, dense or sparse, when every node's
counts are non-negative floats whose computed sum is finite and not zero. -/
theorem C61_tree (t : Tree (XR FP.binary64) C) (k : Nat) (hk : k ≤ 2 ^ 51)
    (hv : ∀ v ∈ t.value, ∃ c : List ℝ, v = f64 c ∧ c.length = k ∧
      (∀ a ∈ c, 0 ≤ a ∧ FP.binary64.rnd a = (a : EReal)) ∧
      ∃ S, pySum (f64 c) = .fin S ∧ S ≠ 0)
    (X : Arr (XR FP.binary64)) (P : List (List (XR FP.binary64))) (hP : t.predictProba X = .ok P) :
    ∀ p ∈ P, ∃ q, p = f64 q ∧ NearDist k (k * (2 : ℝ) ^ (-50 : ℤ)) q := by
  intro p hp
  simp only [Tree.predictProba] at hP
  obtain ⟨X', -, hP⟩ := bind_ok_iff.1 hP
  obtain ⟨rs, -, hP⟩ := bind_ok_iff.1 hP
  obtain ⟨leaves, -, hP⟩ := bind_ok_iff.1 hP
  obtain ⟨nd, -, hnd⟩ := mapM_mem hP hp
  simp only [Tree.probaFromLeaf] at hnd
  obtain ⟨v, hget, hnd⟩ := bind_ok_iff.1 hnd
  obtain ⟨c, rfl, hc, hcn, S, hS, hS0⟩ := hv v (pyGet_ok_mem hget)
  obtain ⟨q, h1, -, h2⟩ := normalise_near64 c hcn S hS hS0 (by omega)
  rw [hS, h1] at hnd
  rw [hc] at h2
  exact ⟨q, (Except.ok.inj hnd).symm, h2⟩

/-- **C61**, one-vs-rest logistic probabilities (`_predict_proba_lr`, also behind the SGD
classifier), two classes: whatever the finite score. -/
theorem C61_lr_binary (m : Linear (XR FP.binary64) C) (X : Arr (XR FP.binary64)) (V : List ℝ)
    (hV : m.decisionFunction X = .ok (.flat (f64 V))) :
    ∃ Q : List (List ℝ), m.predictProbaLr X = .ok (Q.map f64) ∧
      Q.length = V.length ∧ ∀ q ∈ Q, NearDist 2 ((2 : ℝ) ^ (-53 : ℤ)) q := by
  have hrow : ∀ x ∈ V, ∃ q : List ℝ, (do
      let a ← expit (.fin x : XR FP.binary64)
      return [ofInt 1 -ₚ a, a]) = Except.ok (f64 q) ∧ NearDist 2 ((2 : ℝ) ^ (-53 : ℤ)) q := by
    intro x _
    obtain ⟨a, ha, hu, hr⟩ := XR.expit_unit FP.binary64_sound (x := (.fin x : XR FP.binary64)) (by simp)
    obtain ⟨q, h1, -, h2⟩ := pair_near64 hu hr
    refine ⟨q, ?_, h2⟩
    rw [ha, py_ok_bind, h1]
    rfl
  choose! q hq using hrow
  refine ⟨V.map q, ?_, by simp, ?_⟩
  · simp only [Linear.predictProbaLr, hV, py_ok_bind]
    rw [mapM_map', List.map_map]
    exact mapM_ok_map fun x hx => (hq x hx).1
  · intro p hp
    obtain ⟨x, hx, rfl⟩ := List.mem_map.1 hp
    exact (hq x hx).2

/-- **C61**, one-vs-rest logistic probabilities, several classes: some score must not be below -600
(otherwise all logistic values may underflow to zero). -/
theorem C61_lr_multiclass (m : Linear (XR FP.binary64) C) (X : Arr (XR FP.binary64))
    (V : List (List ℝ)) (hV : m.decisionFunction X = .ok (.mat (V.map f64)))
    (ht : ∀ v ∈ V, (∃ x ∈ v, -600 ≤ x) ∧ v.length ≤ 2 ^ 51) :
    ∃ Q : List (List ℝ), m.predictProbaLr X = .ok (Q.map f64) ∧
      List.Forall₂ (fun (v q : List ℝ) => NearDist v.length (v.length * (2 : ℝ) ^ (-50 : ℤ)) q) V Q := by
  have hrow : ∀ v ∈ V, ∃ (y : List (XR FP.binary64)) (q : List ℝ), (f64 v).mapM expit = .ok y ∧
      Linear.normRow y = .ok (f64 q) ∧
      NearDist v.length (v.length * (2 : ℝ) ^ (-50 : ℤ)) q := by
    intro v hv
    obtain ⟨q, h1, -, h2⟩ := ovr64 (ht v hv).1 (ht v hv).2
    obtain ⟨y, h3, h4⟩ := bind_ok_iff.1 h1
    exact ⟨y, q, h3, h4, h2⟩
  choose! y q hq using hrow
  refine ⟨V.map q, ?_, ?_⟩
  · simp only [Linear.predictProbaLr, hV, py_ok_bind]
    rw [mapM_map', mapM_ok_map fun v hv => (hq v hv).1, py_ok_bind, mapM_map', List.map_map]
    exact mapM_ok_map fun v hv => (hq v hv).2.1
  · rw [List.forall₂_map_right_iff, List.forall₂_same]
    exact fun v hv => (hq v hv).2.2

/-- **C61**, multinomial logistic regression, several classes. -/
theorem C61_multinomial (m : Linear (XR FP.binary64) C) (hm : m.isOvr = .ok false)
    (X : Arr (XR FP.binary64)) (V : List (List ℝ))
    (hV : m.decisionFunction X = .ok (.mat (V.map f64)))
    (ht : ∀ v ∈ V, Tame v ∧ v.length ≤ 2 ^ 51) :
    ∃ Q : List (List ℝ), m.predictProba X = .ok (Q.map f64) ∧
      List.Forall₂ (fun (v q : List ℝ) => NearDist v.length (v.length * (2 : ℝ) ^ (-50 : ℤ)) q) V Q := by
  have hrow : ∀ v ∈ V, _ := fun v hv => C61_softmax v (ht v hv).1 (ht v hv).2
  choose! q hq using hrow
  refine ⟨V.map q, ?_, ?_⟩
  · simp only [Linear.predictProba, hm, hV, py_ok_bind]
    rw [if_neg (by simp), mapM_map', List.map_map]
    exact mapM_ok_map fun v hv => (hq v hv).1
  · rw [List.forall₂_map_right_iff, List.forall₂_same]
    exact fun v hv => (hq v hv).2

/-- **C61**, multinomial logistic regression, two classes. -/
theorem C61_multinomial_binary (m : Linear (XR FP.binary64) C) (hm : m.isOvr = .ok false)
    (X : Arr (XR FP.binary64)) (V : List ℝ)
    (hV : m.decisionFunction X = .ok (.flat (f64 V))) (ht : ∀ v ∈ V, |v| ≤ 600) :
    ∃ Q : List (List ℝ), m.predictProba X = .ok (Q.map f64) ∧ Q.length = V.length ∧
      ∀ q ∈ Q, NearDist 2 (2 * (2 : ℝ) ^ (-50 : ℤ)) q := by
  have hrow : ∀ v ∈ V, ∃ q, sfmax (f64 [-v, v]) = .ok (f64 q) ∧
      NearDist 2 (2 * (2 : ℝ) ^ (-50 : ℤ)) q := by
    intro v hv
    have := abs_le.1 (ht v hv)
    have h := C61_softmax [-v, v] ⟨by intro x hx; simp at hx; rcases hx with rfl | rfl <;> linarith,
      v, by simp, this.1⟩ (by norm_num)
    simpa using h
  choose! q hq using hrow
  refine ⟨V.map q, ?_, by simp, ?_⟩
  · simp only [Linear.predictProba, hm, hV, py_ok_bind]
    rw [if_neg (by simp), mapM_map', List.map_map]
    exact mapM_ok_map fun v hv => (hq v hv).1
  · intro p hp
    obtain ⟨x, hx, rfl⟩ := List.mem_map.1 hp
    exact (hq x hx).2

/-- **C61**, XGBoost, two classes: whatever the finite margins. -/
theorem C61_xgb_binary (m : Xgb (XR FP.binary64) C) (hobj : m.objective = .binaryLogistic)
    (M : List (List (XR FP.binary64))) (hM : M ≠ []) (s : List ℝ)
    (hb : m.predictBinary (.ofMat M) = .ok (f64 s)) :
    ∃ Q : List (List ℝ), m.predictProba (.ofMat M) = .ok (Q.map f64) ∧ Q.length = s.length ∧
      ∀ q ∈ Q, NearDist 2 ((2 : ℝ) ^ (-53 : ℤ)) q := by
  have hrow : ∀ x ∈ s, ∃ (a : XR FP.binary64) (q : List ℝ), expit (.fin x : XR FP.binary64) = .ok a ∧
      [ofInt 1 -ₚ a, a] = f64 q ∧ NearDist 2 ((2 : ℝ) ^ (-53 : ℤ)) q := by
    intro x _
    obtain ⟨a, ha, hu, hr⟩ := XR.expit_unit FP.binary64_sound (x := (.fin x : XR FP.binary64)) (by simp)
    obtain ⟨q, h1, -, h2⟩ := pair_near64 hu hr
    exact ⟨a, q, ha, h1, h2⟩
  have : Nonempty (XR FP.binary64) := ⟨.nan⟩
  choose! a q hq using hrow
  refine ⟨s.map q, ?_, by simp, ?_⟩
  · simp only [Xgb.predictProba, checkArray_ofMat hM, py_ok_bind, hobj, hb]
    rw [mapM_map', mapM_ok_map fun x hx => (hq x hx).1, py_ok_bind, List.map_map, List.map_map]
    simp only [py_pure, Except.ok.injEq]
    exact List.map_congr_left fun x hx => (hq x hx).2.1
  · intro p hp
    obtain ⟨x, hx, rfl⟩ := List.mem_map.1 hp
    exact (hq x hx).2.2

/-- **C61**, XGBoost, several classes: `V c i` is the margin of class `c` for record `i`. -/
theorem C61_xgb_multi (m : Xgb (XR FP.binary64) C) (hobj : m.objective = .multiSoftprob)
    (hk : m.nClasses ≤ 2 ^ 51) (M : List (List (XR FP.binary64))) (hM : M ≠ [])
    (V : Nat → Nat → ℝ)
    (hb : m.predict_ (.ofMat M) = .ok ((List.range m.nClasses).map fun c =>
      (List.range M.length).map fun i => XR.fin (V c i)))
    (ht : ∀ i < M.length, Tame ((List.range m.nClasses).map fun c => V c i)) :
    ∃ Q : Nat → List ℝ, m.predictProba (.ofMat M) = .ok ((List.range M.length).map fun i => f64 (Q i)) ∧
      ∀ i < M.length, NearDist m.nClasses (m.nClasses * (2 : ℝ) ^ (-50 : ℤ)) (Q i) := by
  have hrow : ∀ i < M.length, ∃ q, sfmax (f64 ((List.range m.nClasses).map fun c => V c i)) =
      .ok (f64 q) ∧ NearDist m.nClasses (m.nClasses * (2 : ℝ) ^ (-50 : ℤ)) q := by
    intro i hi
    simpa using C61_softmax _ (ht i hi) (by simpa using hk)
  choose! Q hQ using hrow
  refine ⟨Q, ?_, fun i hi => (hQ i hi).2⟩
  simp only [Xgb.predictProba, checkArray_ofMat hM, py_ok_bind, hobj, hb, len_ofMat]
  apply range_mapM
  intro i hi
  have hin : ((List.range m.nClasses).mapM fun (j : Nat) => do
      pyGet (← pyGet ((List.range m.nClasses).map fun c => (List.range M.length).map fun i =>
        (XR.fin (V c i) : XR FP.binary64)) (j : Int)) (i : Int)) =
      .ok (f64 ((List.range m.nClasses).map fun c => V c i)) := by
    rw [f64, List.map_map]
    apply range_mapM
    intro j hj
    rw [pyGet_lt (by simpa using hj), py_ok_bind, List.getElem_map, List.getElem_range,
      pyGet_lt (by simpa using hi)]
    simp
  rw [hin, py_ok_bind]
  exact (hQ i hi).1

/-- **C61**, gradient boosting with binary deviance: whatever the finite raw scores. -/
theorem C61_gb_binomial (g : GB (XR FP.binary64) C) (hl : g.loss = .binomial)
    (X : Arr (XR FP.binary64)) (raw : List ℝ) (hne : raw ≠ [])
    (h : g.rawPredict X = .ok (raw.map fun x => [XR.fin x])) :
    ∃ Q : List (List ℝ), g.predictProba X = .ok (Q.map f64) ∧ Q.length = raw.length ∧
      ∀ q ∈ Q, NearDist 2 ((2 : ℝ) ^ (-53 : ℤ)) q := by
  have hrow : ∀ x ∈ raw, ∃ q : List ℝ, g.loss.probaRow [(.fin x : XR FP.binary64)] = .ok (f64 q) ∧
      NearDist 2 ((2 : ℝ) ^ (-53 : ℤ)) q := by
    intro x _
    obtain ⟨a, ha, hu, hr⟩ := XR.expit_unit FP.binary64_sound (x := (.fin x : XR FP.binary64)) (by simp)
    obtain ⟨q, h1, -, h2⟩ := pair_near64 hu hr
    exact ⟨q, by simp [hl, Loss.probaRow, ha, h1], h2⟩
  choose! q hq using hrow
  refine ⟨raw.map q, ?_, by simp, ?_⟩
  · simp only [GB.predictProba, h, py_ok_bind]
    rw [Loss.rawToProba_rowwise g.loss (by simpa using hne) (by
      intro r hr
      obtain ⟨x, hx, rfl⟩ := List.mem_map.1 hr
      rw [hl]; rfl), mapM_map', List.map_map]
    exact mapM_ok_map fun x hx => (hq x hx).1
  · intro p hp
    obtain ⟨x, hx, rfl⟩ := List.mem_map.1 hp
    exact (hq x hx).2

/-- **C61**, the fastText softmax: any finite scores. -/
theorem C61_fasttext (l : List ℝ) (hl : l ≠ []) (hn : l.length ≤ 2 ^ 51) :
    ∃ q, FT.sfmax (f64 l) = .ok (f64 q) ∧ NearDist l.length (l.length * (2 : ℝ) ^ (-50 : ℤ)) q := by
  have hs := FP.binary64_sound
  obtain ⟨p, hp, hplen, -⟩ := C50_safe_rounded FP.binary64 hs l hl
  unfold FT.sfmax at hp
  obtain ⟨E, hE, hdiv⟩ := bind_ok_iff.1 hp
  -- the exponentials
  have hnan : XR.nan ∉ f64 l := by simp
  obtain ⟨m, hm, hmax, hle⟩ := pyMax_spec XR.toE (XR.ordOn_toE hnan) (by simpa using hl)
  obtain ⟨M, hM, rfl⟩ := List.mem_map.1 hm
  rw [hmax] at hE
  simp only [py_ok_bind] at hE
  have hone : ∀ x ∈ l, ∀ v, Arith.exp ((XR.fin x : XR FP.binary64) -ₚ XR.fin M) = .ok v →
      ∃ e : ℝ, v = .fin e ∧ 0 ≤ e ∧ e ≤ 1 ∧ FP.binary64.rnd e = (e : EReal) ∧ (x = M → e = 1) := by
    intro x hx v hv
    have hxM : x ≤ M := by
      have : (x : EReal) ≤ (M : EReal) := hle (.fin x) (List.mem_map.2 ⟨x, hx, rfl⟩)
      exact_mod_cast this
    have hsub : (XR.fin x : XR FP.binary64) -ₚ XR.fin M = XR.round (x + -M) := rfl
    have h0 : FP.binary64.rnd (x + -M) ≤ 0 := by
      have := hs.mono (show x + -M ≤ (0 : ℝ) by linarith)
      rwa [hs.zero] at this
    rw [hsub] at hv
    have hrE := XR.toE_round (fp := FP.binary64) (x + -M)
    cases hr : (XR.round (x + -M) : XR FP.binary64) with
    | nan => exact absurd hr (XR.round_ne_nan _)
    | pinf =>
      rw [hr] at hrE
      rw [← hrE] at h0
      simp [XR.toE] at h0
    | ninf =>
      rw [hr] at hv hrE
      refine ⟨0, (Except.ok.inj hv).symm, le_rfl, zero_le_one, hs.zero, ?_⟩
      intro he
      exfalso
      rw [he, add_neg_cancel, hs.zero] at hrE
      simp [XR.toE] at hrE
    | fin r =>
      rw [hr] at hv hrE
      have hr0 : r ≤ 0 := by
        rw [← hrE] at h0
        have : ((r : ℝ) : EReal) ≤ ((0 : ℝ) : EReal) := h0
        exact_mod_cast this
      obtain ⟨e, he, he1⟩ := hs.exp_nonpos r hr0
      obtain ⟨h1, h2⟩ := hs.exp_rep r e he
      have hv' : XR.exp (.fin r : XR FP.binary64) = .ok v := hv
      simp [XR.exp, he] at hv'
      refine ⟨e, hv'.symm, h1, he1, h2, ?_⟩
      intro hxe
      rw [hxe, add_neg_cancel, hs.zero] at hrE
      have : r = 0 := by
        have : ((r : ℝ) : EReal) = ((0 : ℝ) : EReal) := hrE
        exact_mod_cast this
      rw [this, hs.exp_zero] at he
      exact (Option.some.inj he).symm
  obtain ⟨c, rfl, hc, hc1⟩ : ∃ c : List ℝ, E = f64 c ∧
      (∀ e ∈ c, 0 ≤ e ∧ e ≤ 1 ∧ FP.binary64.rnd e = (e : EReal)) ∧ (1 ∈ c) := by
    rw [mapM_map'] at hE
    have hF := mapM_ok_iff.1 hE
    have key : ∀ l' : List ℝ, (∀ x ∈ l', x ∈ l) → ∀ E : List (XR FP.binary64),
        List.Forall₂ (fun x v => Arith.exp ((XR.fin x : XR FP.binary64) -ₚ XR.fin M) = .ok v) l' E →
        ∃ c : List ℝ, E = f64 c ∧
          (∀ e ∈ c, 0 ≤ e ∧ e ≤ 1 ∧ FP.binary64.rnd e = (e : EReal)) ∧ (M ∈ l' → 1 ∈ c) := by
      intro l' hsubl E hF
      induction hF with
      | nil => exact ⟨[], rfl, by simp, by simp⟩
      | @cons x v l' E h1 _ ih =>
        obtain ⟨c, rfl, h2, h3⟩ := ih fun y hy => hsubl y (by simp [hy])
        obtain ⟨e, rfl, he0, he1, her, heM⟩ := hone x (hsubl x (by simp)) v h1
        refine ⟨e :: c, rfl, ?_, ?_⟩
        · intro y hy
          rcases List.mem_cons.1 hy with rfl | hy
          · exact ⟨he0, he1, her⟩
          · exact h2 y hy
        · intro hMl
          rcases List.mem_cons.1 hMl with rfl | hMl
          · simp [heM rfl]
          · simp [h3 hMl]
    obtain ⟨c, h1, h2, h3⟩ := key l (fun x hx => hx) E hF
    exact ⟨c, h1, h2, h3 hM⟩
  have hlen : c.length = l.length := by
    have := mapM_length hE
    simpa using this
  obtain ⟨S, hS, hSle⟩ := pySum_finite64 c (by
    intro e he
    refine ⟨(hc e he).1, (hc e he).2.1.trans ?_, (hc e he).2.2⟩
    have : (2 : ℝ) ^ (0 : ℤ) ≤ 2 ^ (900 : ℤ) := B64.pow_mono (by norm_num)
    simpa using this) (by omega)
  have hS1 := hSle 1 hc1
  obtain ⟨q, h1, -, h3⟩ := normalise_near64 c (fun e he => ⟨(hc e he).1, (hc e he).2.2⟩) S hS
    (by linarith) (by omega)
  refine ⟨q, ?_, by rwa [hlen] at h3⟩
  rw [hS, h1] at hdiv
  unfold FT.sfmax
  rw [bind_ok_iff]
  refine ⟨f64 c, ?_, by rw [hS]; exact h1⟩
  rw [hmax]
  exact hE

theorem mat_inj {F : Type} {n k : Nat} {f g : Nat → Nat → F} (h : mat n k f = mat n k g) {i c : Nat}
    (hi : i < n) (hc : c < k) : f i c = g i c := by
  have h1 := congrArg (fun M => (M[i]?).bind fun r => r[c]?) h
  simpa [mat, hi, hc] using h1

/-- **C61**, bagging and forests: averaging `T` members whose rows sum to one within `ε` gives rows
that sum to one within `ε + T·2⁻⁵¹ + k·2⁻¹⁰⁷⁵`. -/
theorem C61_bagging (b : Bagging (XR FP.binary64) C) (hf : b.FeatsOk) (X : Arr (XR FP.binary64))
    (n k : Nat) (hn : 0 < n) (Ps : List (Nat → Nat → ℝ)) (hne : Ps ≠ [])
    (h : List.Forall₂ (fun (m : Member (XR FP.binary64) × Option (List Int)) P =>
      (featSlice X m.2 >>= m.1.predictProba) = .ok (mat n k fun i c => .fin (P i c))) b.members Ps)
    (hT : b.estimators.length ≤ 2 ^ 51) (ε : ℝ) (hε : ε ≤ 1)
    (hd : ∀ P ∈ Ps, ∀ i < n, NearDist k ε ((List.range k).map (P i)))
    (hr : ∀ P ∈ Ps, ∀ i < n, ∀ c < k, FP.binary64.rnd (P i c) = (P i c : EReal)) :
    ∃ Q : Nat → Nat → ℝ, b.predictProba X = .ok (mat n k fun i c => .fin (Q i c)) ∧
      ∀ i < n, NearDist k (ε + b.estimators.length * (2 : ℝ) ^ (-51 : ℤ) + k * (2 : ℝ) ^ (-1075 : ℤ))
        ((List.range k).map (Q i)) := by
  have hs := FP.binary64_sound
  have hacc := FP.binary64_accurate
  set T := b.estimators.length with hTdef
  have hlen : T = Ps.length := by
    rw [hTdef, ← Bagging.members_length hf, h.length_eq]
  have hTpos : 0 < T := by rw [hlen]; exact List.length_pos_iff.2 hne
  have hint : ∀ j : Nat, j ≤ T → FP.binary64.rnd j = ((j : ℝ) : EReal) := by
    intro j hj
    have := B64.rnd_int (j : ℤ) (by
      rw [abs_of_nonneg (by positivity)]
      have : (2 : ℕ) ^ 51 < 2 ^ 53 := by norm_num
      exact_mod_cast (show j < 2 ^ 53 by omega))
    exact_mod_cast this
  have hunit : ∀ P ∈ Ps, ∀ i < n, ∀ c < k, 0 ≤ P i c ∧ P i c ≤ 1 := by
    intro P hP i hi c hc
    exact (hd P hP i hi).2.1 _ (List.mem_map.2 ⟨c, by simpa using hc, rfl⟩)
  let Ps' : List (Nat → Nat → XR FP.binary64) := Ps.map fun P i c => .fin (P i c)
  have h' : List.Forall₂ (fun (m : Member (XR FP.binary64) × Option (List Int)) P =>
      (featSlice X m.2 >>= m.1.predictProba) = .ok (mat n k P)) b.members Ps' := by
    rw [List.forall₂_map_right_iff]; exact h
  obtain ⟨Q0, hQ0, hQ0u⟩ := C13_mean_in_unit_rounded FP.binary64 hs b hf X n k hn Ps'
    (by simpa [Ps'] using hne) h' hint (by
      intro P hP i hi c hc
      obtain ⟨P, hP', rfl⟩ := List.mem_map.1 hP
      exact ⟨⟨_, rfl, hunit P hP' i hi c hc⟩, hr P hP' i hi c hc⟩)
  obtain ⟨P0, Ps1, rfl⟩ := List.exists_cons_of_ne_nil hne
  have hentry : ∀ i < n, ∀ c < k, ∃ s q : ℝ,
      accEntry (fun i c => (.fin (P0 i c) : XR FP.binary64)) (Ps1.map fun P i c => .fin (P i c)) i c =
        .fin s ∧ 0 ≤ s ∧
      |s - ((P0 :: Ps1).map fun P => P i c).sum| ≤
        gam ((2 : ℝ) ^ (-53 : ℤ)) (T - 1) * ((P0 :: Ps1).map fun P => P i c).sum ∧
      (.fin s : XR FP.binary64) /ₚ ofInt (T : Int) = .ok (.fin q) ∧
      FP.binary64.rnd (s / T) = (q : EReal) := by
    intro i hi c hc
    have hl : ∀ x ∈ (P0 :: Ps1).map (fun P => P i c), 0 ≤ x ∧ x ≤ 2 ^ (900 : ℤ) ∧
        FP.binary64.rnd x = (x : EReal) := by
      intro x hx
      obtain ⟨P, hP, rfl⟩ := List.mem_map.1 hx
      refine ⟨(hunit P hP i hi c hc).1, (hunit P hP i hi c hc).2.trans ?_, hr P hP i hi c hc⟩
      have : (2 : ℝ) ^ (0 : ℤ) ≤ 2 ^ (900 : ℤ) := B64.pow_mono (by norm_num)
      simpa using this
    obtain ⟨s, hs1, hs2⟩ := pySum_finite64 _ hl (by rw [List.length_map]; omega)
    have hs0 : 0 ≤ s := (hunit P0 (by simp) i hi c hc).1.trans (hs2 _ (by simp))
    obtain ⟨hsr, hserr⟩ := pySum_error hs hacc _ (fun x hx => (hl x hx).2.2) s hs1
    rw [sum_map_abs_of_nonneg fun x hx => (hl x hx).1, List.length_map, ← hlen] at hserr
    have hacc' : accEntry (fun i c => (.fin (P0 i c) : XR FP.binary64))
        (Ps1.map fun P i c => .fin (P i c)) i c = .fin s := by
      rw [← hs1]
      unfold pySum accEntry
      rw [XR.ofInt_zero hs, List.map_cons, List.map_cons, List.foldl_cons, List.map_map, List.map_map]
      have h0 : (.fin 0 : XR FP.binary64) +ₚ .fin (P0 i c) = .fin (P0 i c) := by
        show XR.round (0 + P0 i c) = _
        rw [zero_add]
        exact XR.round_eq_fin.2 (hr P0 (by simp) i hi c hc)
      rw [h0]
      rfl
    have hTR : (1 : ℝ) ≤ T := by exact_mod_cast hTpos
    have hofi : (ofInt (T : Int) : XR FP.binary64) = .fin T := by
      show XR.round _ = _
      rw [Int.cast_natCast]
      exact XR.round_eq_fin.2 (hint T le_rfl)
    have hsM : |s| ≤ s := le_of_eq (abs_of_nonneg hs0)
    obtain ⟨q, hq⟩ := rnd_finite hs hsr (t := s / T) (by
      rw [abs_of_nonneg (div_nonneg hs0 (by linarith))]
      exact div_le_self hs0 hTR)
    refine ⟨s, q, hacc', hs0, hserr, ?_, hq⟩
    rw [hofi, XR.div_fin, if_neg (by linarith)]
    exact congrArg _ (XR.round_eq_fin.2 hq)
  choose! s q hsq using hentry
  have hres : b.predictProba X = .ok (mat n k fun i c => .fin (q i c)) := by
    rw [Bagging.predictProba_eq hf hn h']
    apply apply2d_mat
    intro i hi c hc
    rw [(hsq i hi c hc).1]
    exact (hsq i hi c hc).2.2.2.1
  refine ⟨q, hres, fun i hi => ⟨by simp, ?_, ?_⟩⟩
  · intro x hx
    obtain ⟨c, hc, rfl⟩ := List.mem_map.1 hx
    have hc : c < k := by simpa using hc
    rw [hQ0] at hres
    obtain ⟨r, hr', h0, h1⟩ := hQ0u i hi c hc
    rw [mat_inj (Except.ok.inj hres) hi hc] at hr'
    rw [XR.fin_inj.1 hr']
    exact ⟨h0, h1⟩
  · have hTR : (1 : ℝ) ≤ T := by exact_mod_cast hTpos
    have hT0 : (0 : ℝ) < T := by linarith
    set u : ℝ := (2 : ℝ) ^ (-53 : ℤ) with hudef
    set η : ℝ := (2 : ℝ) ^ (-1075 : ℤ)
    set g := gam u (T - 1) with hgdef
    have hu0 : 0 ≤ u := by positivity
    have hg0 : 0 ≤ g := gam_nonneg hu0 _
    set A := fun c => ((P0 :: Ps1).map fun P => P i c).sum with hA
    -- sum over the classes of the members' sums
    have hswap : ((List.range k).map A).sum =
        ((P0 :: Ps1).map fun P => ((List.range k).map (P i)).sum).sum := by
      simp only [hA]
      generalize P0 :: Ps1 = L
      induction L with
      | nil => simp
      | cons P L ih =>
        simp only [List.map_cons, List.sum_cons]
        rw [← ih, List.sum_map_add]
    have hsum : |((List.range k).map A).sum - T| ≤ T * ε := by
      rw [hswap, hlen]
      have : ∀ L : List (Nat → Nat → ℝ), (∀ P ∈ L, P ∈ P0 :: Ps1) →
          |(L.map fun P => ((List.range k).map (P i)).sum).sum - L.length| ≤ L.length * ε := by
        intro L hL
        induction L with
        | nil => simp
        | cons P L ih =>
          have h1 := ih fun P' hP' => hL P' (by simp [hP'])
          have h2 := (hd P (hL P (by simp)) i hi).2.2
          simp only [List.map_cons, List.sum_cons, List.length_cons]
          push_cast
          have := abs_add_le (((List.range k).map (P i)).sum - 1)
            ((L.map fun P => ((List.range k).map (P i)).sum).sum - L.length)
          have e : ((List.range k).map (P i)).sum +
              (L.map fun P => ((List.range k).map (P i)).sum).sum - (L.length + 1) =
              (((List.range k).map (P i)).sum - 1) +
              ((L.map fun P => ((List.range k).map (P i)).sum).sum - L.length) := by ring
          rw [e]
          linarith
      exact this _ fun P hP => hP
    have hcls : ∀ c < k, |q i c - A c / T| ≤ gam u T * (A c / T) + η := by
      intro c hc
      obtain ⟨-, h2, h3, -, h5⟩ := hsq i hi c hc
      have h6 := hacc.rel _ _ h5
      have hA0 : 0 ≤ A c := List.sum_nonneg fun x hx => by
        obtain ⟨P, hP, rfl⟩ := List.mem_map.1 hx
        exact (hunit P hP i hi c hc).1
      have h7 : |s i c / T - A c / T| ≤ g * (A c / T) := by
        rw [← sub_div, abs_div, abs_of_pos hT0, ← mul_div_assoc]
        exact div_le_div_of_nonneg_right h3 hT0.le
      have h8 : |s i c / T| ≤ (1 + g) * (A c / T) := by
        have := abs_add_le (s i c / T - A c / T) (A c / T)
        rw [sub_add_cancel, abs_of_nonneg (div_nonneg hA0 hT0.le)] at this
        linarith
      have h9 : gam u T = u + (1 + u) * g := by
        have : T = (T - 1) + 1 := by omega
        rw [this, gam_succ]
      have h10 := abs_add_le (q i c - s i c / T) (s i c / T - A c / T)
      rw [sub_add_sub_cancel] at h10
      have h11 : u * |s i c / T| ≤ u * ((1 + g) * (A c / T)) := mul_le_mul_of_nonneg_left h8 hu0
      rw [h9]
      refine h10.trans ?_
      have h12 : |q i c - s i c / T| ≤ u * |s i c / T| + η := h6
      calc _ ≤ u * ((1 + g) * (A c / T)) + η + g * (A c / T) := by linarith
        _ = _ := by ring
    have htot : ∀ L : List Nat, (∀ c ∈ L, c < k) →
        |(L.map (q i)).sum - (L.map A).sum / T| ≤ gam u T * ((L.map A).sum / T) + L.length * η := by
      intro L hL
      induction L with
      | nil => simp
      | cons c L ih =>
        have h1 := ih fun c' hc' => hL c' (by simp [hc'])
        have h2 := hcls c (hL c (by simp))
        simp only [List.map_cons, List.sum_cons, List.length_cons]
        push_cast
        have h3 := abs_add_le (q i c - A c / T) ((L.map (q i)).sum - (L.map A).sum / T)
        have e : q i c + (L.map (q i)).sum - (A c + (L.map A).sum) / T =
            (q i c - A c / T) + ((L.map (q i)).sum - (L.map A).sum / T) := by ring
        have e2 : (A c + (L.map A).sum) / T = A c / T + (L.map A).sum / T := by ring
        rw [e, e2]
        linarith
    have h1 := htot (List.range k) (by simp)
    rw [List.length_range] at h1
    have h2 : |((List.range k).map A).sum / T - 1| ≤ ε := by
      have e : ((List.range k).map A).sum / T - 1 = (((List.range k).map A).sum - T) / T := by
        field_simp
      rw [e, abs_div, abs_of_pos hT0, div_le_iff₀ hT0]
      linarith
    have h3 : ((List.range k).map A).sum / T ≤ 2 := by
      have := (abs_le.1 h2).2
      linarith
    have h4 := abs_add_le (((List.range k).map (q i)).sum - ((List.range k).map A).sum / T)
      (((List.range k).map A).sum / T - 1)
    rw [sub_add_sub_cancel] at h4
    have hg1 : gam u T ≤ T * (2 : ℝ) ^ (-52 : ℤ) := (gam64 hT).1
    have h5 : gam u T * (((List.range k).map A).sum / T) ≤ T * (2 : ℝ) ^ (-51 : ℤ) := by
      have e : (2 : ℝ) ^ (-51 : ℤ) = 2 * 2 ^ (-52 : ℤ) := by
        rw [← zpow_one_add₀ (by norm_num)]; norm_num
      rw [e]
      have h6 := mul_le_mul_of_nonneg_left h3 (gam_nonneg hu0 T)
      refine h6.trans ?_
      clear_value u
      generalize (2 : ℝ) ^ (-52 : ℤ) = z at *
      generalize gam u T = y at *
      linarith
    refine h4.trans ?_
    clear_value u η
    generalize (2 : ℝ) ^ (-51 : ℤ) = z at *
    linarith

/-- The bound on the scores in `C61_softmax` is needed: two scores of 709.5 have finite exponentials
whose sum overflows, and the library's softmax silently returns two zeros. -/
theorem C61_softmax_sharp : sfmax (f64 [709.5, 709.5]) = .ok (f64 [0, 0]) := by
  have hs := FP.binary64_sound
  have h1 : (2 : ℝ) ^ (1023 : ℤ) ≤ Real.exp 709.5 := by
    rw [← Real.log_le_iff_le_exp (B64.pow_pos' _), Real.log_zpow]
    have := Real.log_two_lt_d9
    push_cast
    linarith
  have h2 : Real.exp 709.5 ≤ 7 * 2 ^ (1021 : ℤ) := by
    have hp : (0 : ℝ) < 7 * 2 ^ (1021 : ℤ) := mul_pos (by norm_num) (B64.pow_pos' _)
    rw [← Real.le_log_iff_exp_le hp, Real.log_mul (by norm_num) (B64.pow_pos' _).ne', Real.log_zpow]
    have e : Real.log 7 = 2 * Real.log 2 + Real.log (7 / 4) := by
      have : (7 : ℝ) = 2 ^ 2 * (7 / 4) := by norm_num
      conv_lhs => rw [this]
      rw [Real.log_mul (by norm_num) (by norm_num), Real.log_pow]
      push_cast; ring
    have h3 := Real.one_sub_inv_le_log_of_pos (show (0 : ℝ) < 7 / 4 by norm_num)
    have := Real.log_two_gt_d9
    rw [e]
    push_cast
    norm_num at h3 ⊢
    linarith
  have hM : FP.binary64.rnd (7 * 2 ^ (1021 : ℤ)) = ((7 * 2 ^ (1021 : ℤ) : ℝ) : EReal) := by
    have h : B64.rndFin (7 * 2 ^ (1021 : ℤ)) = 7 * 2 ^ (1021 : ℤ) :=
      B64.rndFin_of_representable ⟨7, 1021, by norm_num, by norm_num, by norm_num⟩
    have h3 := B64.rnd_of_fin (x := 7 * 2 ^ (1021 : ℤ)) (by
      rw [h, abs_of_pos (mul_pos (by norm_num) (B64.pow_pos' _)),
        show (1024 : ℤ) = 3 + 1021 by norm_num, B64.pow_add']
      exact mul_lt_mul_of_pos_right (by norm_num) (B64.pow_pos' _))
    rwa [h] at h3
  obtain ⟨e, he⟩ := rnd_finite hs hM (t := Real.exp 709.5) (by rwa [abs_of_pos (Real.exp_pos _)])
  have hexp : FP.binary64.exp 709.5 = some e := by
    show B64.exp 709.5 = _
    unfold B64.exp
    have hv' : B64.rnd (Real.exp 709.5) = (e : EReal) := he
    rw [if_neg (by rw [hv']; exact EReal.coe_ne_top e), B64.rnd_coe he]
  have hse : safeExp (.fin 709.5 : XR FP.binary64) = .ok (.fin e) := by
    have : Arith.exp (.fin 709.5 : XR FP.binary64) = .ok (.fin e) := by
      show XR.exp (.fin 709.5) = _
      simp [XR.exp, hexp]
    simp [safeExp, this]
  have hge : (2 : ℝ) ^ (1023 : ℤ) ≤ e := by
    have := hs.mono h1
    rw [rnd_two_pow_1023, he] at this
    exact_mod_cast this
  have htop : FP.binary64.rnd (e + e) = ⊤ := by
    have h3 : (2 : ℝ) ^ (1024 : ℤ) ≤ e + e := by
      rw [show (1024 : ℤ) = 1 + 1023 by norm_num, B64.pow_add', zpow_one]
      linarith
    have h4 : B64.rndFin (2 ^ (1024 : ℤ)) = 2 ^ (1024 : ℤ) :=
      B64.rndFin_of_representable ⟨1, 1024, by norm_num, by norm_num, by norm_num⟩
    have h5 := B64.rndFin_mono h3
    rw [h4] at h5
    show B64.rnd (e + e) = ⊤
    unfold B64.rnd
    rw [if_pos h5]
  have h0 : (.fin 0 : XR FP.binary64) +ₚ .fin e = .fin e := by
    show XR.round (0 + e) = _
    rw [zero_add]
    exact XR.round_eq_fin.2 (hs.idem _ _ he)
  have hinf : (.fin e : XR FP.binary64) +ₚ .fin e = .pinf := by
    show XR.round (e + e) = _
    unfold XR.round XR.ofEReal
    rw [htop, if_pos rfl]
  have hsum : pySum [(.fin e : XR FP.binary64), .fin e] = .pinf := by
    simp only [pySum, List.foldl_cons, List.foldl_nil, XR.ofInt_zero hs]
    rw [h0, hinf]
  have hm : (f64 [709.5, 709.5]).mapM safeExp = .ok [(.fin e : XR FP.binary64), .fin e] := by
    simp only [f64, List.map_cons, List.map_nil, mapM_cons', hse, mapM_nil']
    rfl
  simp only [sfmax, hm, py_ok_bind, hsum]
  rfl

/-- Non-vacuity: three scores; four fastText scores of very different size. -/
example : (∃ q, sfmax (f64 [0, 1, -300]) = .ok (f64 q) ∧ NearDist 3 (3 * (2 : ℝ) ^ (-50 : ℤ)) q) ∧
    ∃ q, FT.sfmax (f64 [10 ^ 300, 0, -10 ^ 300, 5]) = .ok (f64 q) ∧
      NearDist 4 (4 * (2 : ℝ) ^ (-50 : ℤ)) q :=
  ⟨by simpa using C61_softmax [0, 1, -300] ⟨by intro x hx; simp at hx; rcases hx with rfl | rfl | rfl <;> norm_num,
    0, by simp, by norm_num⟩ (by norm_num),
   by simpa using C61_fasttext [10 ^ 300, 0, -10 ^ 300, 5] (by simp) (by norm_num)⟩

end PurePredict
