import Verif.Props.C09
import Verif.Lemmas.Links
import Verif.Py.Binary64
/-
C08: softmax robustness.  False of the code in floating point: `sfmax` does not subtract the
maximum, so it divides by zero when all exponentials underflow and returns NaN on overflow.
-/
namespace PurePredict
open scoped Classical
open Spec

/-- The full claim for one arithmetic: on every non-empty list of finite numbers `sfmax` returns
without exception and without NaN. -/
def SoftmaxRobust (fp : FP) : Prop :=
  ∀ l : List ℝ, l ≠ [] → ∃ p, sfmax (l.map XR.fin : List (XR fp)) = .ok p ∧ XR.nan ∉ p

theorem sum_const_zero {fp : FP} (hs : fp.Sound) (n : Nat) :
    pySum (List.replicate n (.fin 0 : XR fp)) = .fin 0 := by
  unfold pySum
  rw [XR.ofInt_zero hs]
  induction n with
  | zero => rfl
  | succ n ih =>
    rw [List.replicate_succ, List.foldl_cons, XR.add_zero_rep (XR.rep_zero hs)]
    exact ih

/-- If the exponential of every score underflows to 0, `sfmax` raises ZeroDivisionError. -/
theorem C08_underflow_raises (fp : FP) (hs : fp.Sound) (l : List ℝ) (hl : l ≠ [])
    (hu : ∀ x ∈ l, fp.exp x = some 0) :
    sfmax (l.map XR.fin : List (XR fp)) = .error .zeroDivisionError := by
  unfold sfmax
  rw [mapM_map', mapM_ok_map (g := fun _ => (.fin 0 : XR fp))]
  · simp only [py_ok_bind, List.map_const', sum_const_zero hs]
    cases l with
    | nil => exact absurd rfl hl
    | cons a l =>
      rw [List.length_cons, List.replicate_succ, mapM_cons', XR.div_fin]
      simp
  · intro x hx
    rw [C09_safe_exp_total]
    simp [npExp, hu x hx]

/-- If the exponentials of all scores overflow, `sfmax` returns only NaN. -/
theorem C08_overflow_nan (fp : FP) (hs : fp.Sound) (l : List ℝ) (ho : ∀ x ∈ l, fp.exp x = none) :
    sfmax (l.map XR.fin : List (XR fp)) = .ok (List.replicate l.length .nan) := by
  unfold sfmax
  rw [mapM_map', mapM_ok_map (g := fun _ => (.pinf : XR fp))]
  · simp only [py_ok_bind]
    have hsum : ∀ n, ((List.replicate (n+1) (.pinf : XR fp)).foldl Arith.add (ofInt 0)) = .pinf := by
      intro n
      have hp : ∀ n, (List.replicate n (.pinf : XR fp)).foldl Arith.add .pinf = .pinf := by
        intro n
        induction n with
        | zero => rfl
        | succ n ih => rw [List.replicate_succ, List.foldl_cons]; exact ih
      rw [List.replicate_succ, List.foldl_cons]
      have : (ofInt 0 : XR fp) +ₚ .pinf = .pinf := by
        rw [XR.ofInt_zero hs]; rfl
      rw [this]; exact hp n
    cases l with
    | nil => rfl
    | cons a l =>
      rw [List.map_const', List.length_cons]
      unfold pySum
      rw [hsum, mapM_ok_map (g := fun _ => (.nan : XR fp))]
      · simp
      · intro x hx
        rw [List.eq_of_mem_replicate hx]
        rfl
  · intro x hx
    rw [C09_safe_exp_total]
    simp [npExp, ho x hx]

/-- **C08 is false of the code**: in IEEE binary64 arithmetic (rounding to nearest even, correctly
rounded `exp`) two equal finite scores of -1000 raise ZeroDivisionError, and two scores of 1000
give NaN probabilities. -/
theorem C08_false : FP.binary64.Sound ∧ ¬ SoftmaxRobust FP.binary64 ∧
    sfmax ([.fin (-1000), .fin (-1000)] : List (XR FP.binary64)) = .error .zeroDivisionError ∧
    sfmax ([.fin 1000, .fin 1000] : List (XR FP.binary64)) = .ok [.nan, .nan] := by
  have h1 : sfmax ([.fin (-1000), .fin (-1000)] : List (XR FP.binary64)) =
      .error .zeroDivisionError :=
    C08_underflow_raises _ FP.binary64_sound [-1000, -1000] (by simp) (by
      intro x hx
      simp at hx
      subst hx
      exact FP.binary64_exp_underflow (by norm_num))
  refine ⟨FP.binary64_sound, ?_, h1, ?_⟩
  · intro h
    obtain ⟨p, hp, -⟩ := h [-1000, -1000] (by simp)
    rw [show ([-1000, -1000] : List ℝ).map (XR.fin : ℝ → XR FP.binary64) =
      [.fin (-1000), .fin (-1000)] from rfl, h1] at hp
    cases hp
  · exact C08_overflow_nan FP.binary64 FP.binary64_sound [1000, 1000] (by
      intro x hx
      simp at hx
      subst hx
      exact FP.binary64_exp_overflow (by norm_num))

/-- **C08 (part)**, exact arithmetic: defined for all scores. -/
theorem C08_softmax_defined_exact_partial : SoftmaxRobust FP.exact := by
  intro l hl
  refine ⟨_, sfmax_exact hl, ?_⟩
  simp [fins]

/-- **C08 (part)**, floating point: in every sound arithmetic, if no exponential overflows and
their computed sum is finite and not zero, `sfmax` succeeds and every value lies in [0,1].
Missing: the scores for which these conditions fail. -/
theorem C08_softmax_defined_partial (fp : FP) (hs : fp.Sound) (l : List ℝ)
    (v : ℝ → ℝ) (hv : ∀ x ∈ l, fp.exp x = some (v x)) (S : ℝ)
    (hS : pySum ((l.map v).map XR.fin : List (XR fp)) = .fin S) (hS0 : S ≠ 0) :
    ∃ p, sfmax (l.map XR.fin : List (XR fp)) = .ok p ∧ p.length = l.length ∧
      ∀ q ∈ p, XR.Unit q := by
  have hexp : (l.map XR.fin : List (XR fp)).mapM safeExp = .ok ((l.map v).map XR.fin) := by
    rw [mapM_map', List.map_map]
    apply mapM_ok_map
    intro x hx
    rw [C09_safe_exp_total]
    simp [npExp, hv x hx]
  have hNN : ∀ x ∈ ((l.map v).map XR.fin : List (XR fp)), XR.NN x := by
    intro x hx
    obtain ⟨y, hy, rfl⟩ := List.mem_map.1 hx
    obtain ⟨z, hz, rfl⟩ := List.mem_map.1 hy
    obtain ⟨h1, h2⟩ := hs.exp_rep z _ (hv z hz)
    exact XR.NN.fin h1 h2
  obtain ⟨h1, h2⟩ := XR.pySum_NN hs hNN
  rw [hS] at h1 h2
  have hSpos : 0 < S := by
    have : (0 : EReal) ≤ (S : EReal) := h1.2.1
    exact lt_of_le_of_ne (by exact_mod_cast this) hS0.symm
  have hdiv : ∀ x ∈ ((l.map v).map XR.fin : List (XR fp)), ∃ q,
      x /ₚ (.fin S : XR fp) = .ok q ∧ XR.Unit q ∧ XR.Rep q := by
    intro x hx
    have hle := h2 x hx
    have hn := hNN x hx
    obtain ⟨y, hy, rfl⟩ := List.mem_map.1 hx
    have hle : (y : EReal) ≤ (S : EReal) := hle
    have hy0 : (0 : EReal) ≤ (y : EReal) := hn.2.1
    exact XR.div_unit hs (by exact_mod_cast hy0) hSpos (by exact_mod_cast hle)
  unfold sfmax
  simp only [hexp, py_ok_bind, hS]
  obtain ⟨p, hp⟩ := mapM_total (f := fun x => x /ₚ (.fin S : XR fp)) fun x hx =>
    let ⟨q, hq, _⟩ := hdiv x hx; ⟨q, hq⟩
  refine ⟨p, hp, by simpa using mapM_length hp, ?_⟩
  intro q hq
  obtain ⟨x, hx, hxq⟩ := mapM_mem hp hq
  obtain ⟨q', hq', hu, _⟩ := hdiv x hx
  rw [hxq] at hq'
  cases hq'
  exact hu

/-- Non-vacuity of the floating point part: scores 0 and 0. -/
example : ∃ p, sfmax ([0, 0].map XR.fin : List Ex) = .ok p ∧ p.length = 2 ∧
    ∀ q ∈ p, XR.Unit q :=
  C08_softmax_defined_partial FP.exact FP.exact_sound [0, 0] Real.exp (fun _ _ => rfl) 2
    (by rw [XR.pySum_exact]; norm_num) (by norm_num)

end PurePredict
