import Verif.Spec.NaiveBayes
import Verif.Model.NaiveBayes
import Verif.Lemmas.Mat
import Verif.Lemmas.Links
import Verif.Lemmas.Dot
import Verif.Lemmas.LinearExact
import Verif.Lemmas.GB
/-
Joint log likelihoods of the naive Bayes models, exactly.
-/
namespace PurePredict
open Spec
variable {C : Type}

theorem safeLog_pos {x : ℝ} (h : 0 < x) : safeLog (.fin x : Ex) = .ok (.fin (Real.log x)) := by
  have h1 : ¬ x = 0 := h.ne'
  have h2 : ¬ x < 0 := not_lt.2 h.le
  simp [safeLog, h1, h2, XR.log_exact h]

theorem map_eq_range_map {α β : Type} (R : List α) (d : α) (h : α → β) :
    R.map h = (List.range R.length).map fun i => h (R.getD i d) := by
  apply List.ext_getElem
  · simp
  · intro i h1 h2
    simp at h1
    simp [List.getD_eq_getElem?_getD, h1]

theorem fins_range (k : Nat) (g : Nat → ℝ) :
    fins ((List.range k).map g) = (List.range k).map fun i => (XR.fin (g i) : Ex) := by
  simp [fins, Function.comp_def]

theorem dot_exact {w k : Nat} (f : Nat → Nat → ℝ) {x : List ℝ} (hx : x.length = w) :
    dot (.list (fins x)) ((mat k w f).map fins) =
      .ok (fins ((List.range k).map fun c => ∑ i ∈ Finset.range w, x.getD i 0 * f c i)) := by
  unfold dot
  rw [mapM_map', mat, mapM_map', fins_range]
  apply range_mapM
  intro c _
  simp only [dotList_fins]
  rw [zipWith_sum_range hx (by simp)]
  congr 2
  apply Finset.sum_congr rfl
  intro i hi
  have hi := Finset.mem_range.1 hi
  simp [List.getD_eq_getElem?_getD, hi]

theorem pyGet_fins_range {k : Nat} (g : Nat → ℝ) {i : Nat} (hi : i < k) :
    pyGet (fins ((List.range k).map g)) (i : Int) = .ok (.fin (g i)) := by
  rw [pyGet_lt (by simpa using hi)]
  simp [fins_def]

theorem jllMultinomial_exact {m : DiscreteNB Ex C} {w k : Nat} (hk : m.classes.length = k)
    (lp : Nat → ℝ) (f : Nat → Nat → ℝ) (hlp : m.classLogPrior = fins ((List.range k).map lp))
    (hf : m.featureLogProb = (mat k w f).map fins) {R : List (List ℝ)} (hw : Rect w R) :
    m.jllMultinomial (.ofMat (R.map fins)) =
      .ok (R.map fun x => fins ((List.range k).map (multiJll w lp f x))) := by
  simp only [DiscreteNB.jllMultinomial, rows_ofMat, py_ok_bind, List.map_map]
  rw [mapM_map']
  apply mapM_ok_map
  intro x hx
  simp only [Function.comp, hf, dot_exact f (hw x hx), py_ok_bind, hk, hlp]
  rw [fins_range k (multiJll w lp f x)]
  apply range_mapM
  intro i hi
  simp only [pyGet_fins_range _ hi, py_ok_bind, XR.add_exact, multiJll, py_pure, add_comm]

theorem jllComplement_exact {m : DiscreteNB Ex C} {w k : Nat} (hk : m.classes.length = k)
    (lp : Nat → ℝ) (f : Nat → Nat → ℝ) (hlp : m.classLogPrior = fins ((List.range k).map lp))
    (hf : m.featureLogProb = (mat k w f).map fins) {R : List (List ℝ)} (hw : Rect w R) :
    m.jllComplement (.ofMat (R.map fins)) =
      .ok (R.map fun x => fins ((List.range k).map (compJll w k lp f x))) := by
  simp only [DiscreteNB.jllComplement, rows_ofMat, py_ok_bind, List.map_map, hf]
  rw [mapM_map']
  simp only [Function.comp]
  rw [mapM_ok_map (g := fun x => fins ((List.range k).map fun c =>
    ∑ i ∈ Finset.range w, x.getD i 0 * f c i)) fun x hx => dot_exact f (hw x hx), py_ok_bind, hk]
  by_cases h1 : k = 1
  · subst h1
    simp only [beq_self_eq_true, if_true]
    rw [mapM_map']
    apply mapM_ok_map
    intro x _
    simp [hlp, compJll, List.range_succ]
  · have : (k == 1) = false := by simpa using h1
    have e : ∀ x, compJll w k lp f x = fun c => ∑ i ∈ Finset.range w, x.getD i 0 * f c i := by
      intro x; funext c; simp [compJll, h1]
    simp only [this, e]
    rfl

theorem gauss_terms {w : Nat} {θ σ : Nat → ℝ} (hσ : ∀ i < w, σ i ≠ 0) {x : List ℝ}
    (hx : x.length = w) :
    GaussianNB.terms (fins ((List.range w).map θ)) (fins ((List.range w).map σ))
      (.list (fins x)) =
      .ok (fins ((List.range w).map fun i => (x.getD i 0 - θ i) ^ 2 / σ i)) := by
  unfold GaussianNB.terms
  simp only [Row.len, fins_length, hx, py_ok_bind]
  rw [fins_range w fun i => (x.getD i 0 - θ i) ^ 2 / σ i]
  apply range_mapM
  intro i hi
  have hi' : i < x.length := by rw [hx]; exact hi
  simp only [Row.getItem, pyGet_fins_range _ hi, py_ok_bind]
  rw [pyGet_lt (by simpa using hi')]
  simp only [fins_def, List.getElem_map, py_ok_bind, XR.sub_exact, XR.sq_exact,
    XR.div_exact _ (hσ i hi)]
  simp [List.getD_eq_getElem?_getD, hi', pow_two]

theorem gauss_column {m : GaussianNB Ex C} {w k : Nat} {prior : Nat → ℝ} {θ σ : Nat → Nat → ℝ}
    (hp : m.classPrior = fins ((List.range k).map prior)) (hθ : m.theta = (mat k w θ).map fins)
    (hσ : m.sigma = (mat k w σ).map fins) (hpos : ∀ c < k, 0 < prior c)
    (hσpos : ∀ c < k, ∀ i < w, 0 < σ c i) {R : List (List ℝ)} (hw : Rect w R) {c : Nat}
    (hc : c < k) :
    m.column ((R.map fins).map Row.list) c =
      .ok (R.map fun x => .fin (gaussJll w prior θ σ x c)) := by
  have hrow : ∀ g : Nat → Nat → ℝ, pyGet ((mat k w g).map fins) (c : Int) =
      .ok (fins ((List.range w).map (g c))) := by
    intro g
    rw [pyGet_lt (by simpa [mat] using hc)]
    simp [mat]
  have hlogs : (fins ((List.range w).map (σ c))).mapM
      (fun x => safeLog (ofInt 2 *ₚ Arith.pi *ₚ x)) =
      .ok (fins ((List.range w).map fun i => Real.log (2 * Real.pi * σ c i))) := by
    rw [mapM_fins (g := fun x => Real.log (2 * Real.pi * x))]
    · simp [List.map_map, Function.comp_def]
    · intro x hx
      obtain ⟨i, hi, rfl⟩ := List.mem_map.1 hx
      have hpi : (Arith.pi : Ex) = .fin Real.pi := XR.round_exact _
      have := hσpos c hc i (List.mem_range.1 hi)
      rw [hpi, XR.ofInt_exact, XR.mul_exact, XR.mul_exact]
      have h0 : 0 < 2 * Real.pi * σ c i := by positivity
      rw [safeLog_pos (by simpa using h0)]
      simp
  simp only [GaussianNB.column, hp, pyGet_fins_range _ hc, py_ok_bind, safeLog_pos (hpos c hc), hσ,
    hrow, hlogs, hθ, pySum_fins]
  rw [List.map_map, mapM_map', mapM_ok_map (g := fun x : List ℝ =>
    fins ((List.range w).map fun i => (x.getD i 0 - θ c i) ^ 2 / σ c i))
    (fun x hx => by
      exact gauss_terms (fun i hi => (hσpos c hc i hi).ne') (hw x hx)), py_ok_bind]
  simp only [py_pure, List.map_map, Except.ok.injEq]
  apply List.map_congr_left
  intro x _
  simp only [Function.comp, pySum_fins, XR.ofRat_exact, XR.mul_exact, XR.neg_fin, XR.sub_exact,
    XR.add_exact, list_sum_range, gaussJll, logNormal]
  congr 1
  rw [Finset.sum_sub_distrib, ← Finset.mul_sum]
  have : ∑ i ∈ Finset.range w, (x.getD i 0 - θ c i) ^ 2 / (2 * σ c i) =
      1 / 2 * ∑ i ∈ Finset.range w, (x.getD i 0 - θ c i) ^ 2 / σ c i := by
    rw [Finset.mul_sum]
    apply Finset.sum_congr rfl
    intro i hi
    have := (hσpos c hc i (Finset.mem_range.1 hi)).ne'
    field_simp
  rw [this]
  push_cast
  ring

theorem jllGaussian_exact {m : GaussianNB Ex C} {w k : Nat} (hk : m.classes.length = k)
    (hk0 : 0 < k) {prior : Nat → ℝ} {θ σ : Nat → Nat → ℝ}
    (hp : m.classPrior = fins ((List.range k).map prior)) (hθ : m.theta = (mat k w θ).map fins)
    (hσ : m.sigma = (mat k w σ).map fins) (hpos : ∀ c < k, 0 < prior c)
    (hσpos : ∀ c < k, ∀ i < w, 0 < σ c i) {R : List (List ℝ)} (hw : Rect w R) :
    m.jll (.ofMat (R.map fins)) =
      .ok (R.map fun x => fins ((List.range k).map (gaussJll w prior θ σ x))) := by
  have hcols : ((List.range k).mapM fun i => do
      m.column (← (Arr.ofMat (R.map fins)).rows) i) =
      .ok (mat k R.length fun c i => (XR.fin (gaussJll w prior θ σ (R.getD i []) c) : Ex)) := by
    unfold mat
    apply range_mapM
    intro c hc
    rw [rows_ofMat, py_ok_bind, gauss_column hp hθ hσ hpos hσpos hw hc, map_eq_range_map R []]
  simp only [GaussianNB.jll, hk, hcols, py_ok_bind, transpose_ofMat, zipStar_mat hk0]
  rw [map_eq_range_map R [], mat]
  simp only [fins_range]

end PurePredict
