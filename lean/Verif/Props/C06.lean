import Verif.Props.C04
import Verif.Props.C05
/-
C06: `predict` agrees with `predict_proba` for logistic models.
-/
namespace PurePredict
open Spec Linear
variable {C : Type}

theorem isFirstMax_ovr {k : Nat} (hk : 0 < k) (s : Nat → ℝ) {i : Nat} :
    IsFirstMax ((List.range k).map (ovr k s)) i ↔ IsFirstMax ((List.range k).map s) i := by
  have hpos : 0 < ∑ j ∈ Finset.range k, sigmoid (s j) :=
    Finset.sum_pos (fun _ _ => sigmoid_pos _) ⟨0, by simpa using hk⟩
  have hm : StrictMono fun y => sigmoid y / ∑ j ∈ Finset.range k, sigmoid (s j) :=
    fun a b h => (div_lt_div_iff_of_pos_right hpos).2 (sigmoid_strictMono h)
  rw [← isFirstMax_map hm (l := (List.range k).map s), List.map_map]
  rfl

theorem isFirstMax_softmax {k : Nat} (hk : 0 < k) (s : Nat → ℝ) {i : Nat} :
    IsFirstMax ((List.range k).map (softmax k s)) i ↔ IsFirstMax ((List.range k).map s) i := by
  have hpos : 0 < ∑ j ∈ Finset.range k, Real.exp (s j) :=
    Finset.sum_pos (fun _ _ => Real.exp_pos _) ⟨0, by simpa using hk⟩
  have hm : StrictMono fun y => Real.exp y / ∑ j ∈ Finset.range k, Real.exp (s j) :=
    fun a b h => (div_lt_div_iff_of_pos_right hpos).2 (Real.exp_lt_exp.2 h)
  rw [← isFirstMax_map hm (l := (List.range k).map s), List.map_map]
  rfl

/-- **C06**: for every logistic model (all `multi_class`/`solver` combinations, one row of
coefficients with two classes or `k ≥ 2` rows with `k` classes), both methods succeed on every
request of the fitted width, and each predicted label is that of the first most probable class. -/
theorem C06_predict_agrees_with_proba (m : Linear Ex C) (w k : Nat) (W : List (List ℝ))
    (b : List ℝ) (h : m.IsExact w k W b) (hc : m.classes.length = if k = 1 then 2 else k)
    (mc sol : String) (hmc : m.multiClass = some mc)
    (hsol : m.solver = some sol) (R : List (List ℝ)) (hR : R ≠ []) (hRw : Rect w R) :
    ∃ (P : List (List ℝ)) (labels : List C),
      m.predictProba (.ofMat (R.map fins)) = .ok (P.map fins) ∧
      m.predict (.ofMat (R.map fins)) = .ok labels ∧
      List.Forall₂ (fun p l => ∃ i, IsFirstMax p i ∧ m.classes[i]? = some l) P labels := by
  have hd := C05_dispatch m mc sol hmc hsol
  by_cases hk : k = 1
  · subst hk
    rw [if_pos rfl] at hc
    obtain ⟨c0, c1, hcl⟩ := List.length_eq_two.1 hc
    obtain ⟨-, hp⟩ := C04_binary m w W b h c0 c1 hcl R hR hRw
    cases ho : decide (mc = "ovr" ∨ mc = "warn" ∨
      (mc = "auto" ∧ (m.classes.length ≤ 2 ∨ sol = "liblinear"))) with
    | true =>
      rw [ho] at hd
      refine ⟨R.map fun x => [1 - sigmoid (linScore w W b x 0), sigmoid (linScore w W b x 0)], _,
        ?_, hp, ?_⟩
      · rw [C05_ovr_uses_lr m _ hd, C05_lr_binary m w W b h R hR hRw, List.map_map]
        rfl
      · rw [List.forall₂_map_left_iff, List.forall₂_map_right_iff, List.forall₂_same]
        intro x _
        refine ⟨_, isFirstMax_pair, ?_⟩
        have hiff : 1 - sigmoid (linScore w W b x 0) < sigmoid (linScore w W b x 0) ↔
            0 < linScore w W b x 0 := by
          rw [← half_lt_sigmoid]
          constructor <;> intro h <;> linarith
        rw [hcl]
        by_cases hp : 0 < linScore w W b x 0
        · rw [if_pos (hiff.2 hp), if_pos hp]; rfl
        · rw [if_neg (fun h => hp (hiff.1 h)), if_neg hp]; rfl
    | false =>
      rw [ho] at hd
      refine ⟨R.map fun x => (List.range 2).map
        (softmax 2 fun c => if c = 0 then - linScore w W b x 0 else linScore w W b x 0), _,
        ?_, hp, ?_⟩
      · rw [C05_multinomial_binary m w W b h hd R hR hRw, List.map_map]
        rfl
      · rw [List.forall₂_map_left_iff, List.forall₂_map_right_iff, List.forall₂_same]
        intro x _
        refine ⟨if - linScore w W b x 0 < linScore w W b x 0 then 1 else 0,
          (isFirstMax_softmax (by norm_num) _).2 ?_, ?_⟩
        · exact isFirstMax_pair
        · rw [hcl]
          by_cases hp : 0 < linScore w W b x 0
          · rw [if_pos (by linarith), if_pos hp]; rfl
          · rw [if_neg (by linarith), if_neg hp]; rfl
  · have hk2 : 2 ≤ k := by have := h.pos; omega
    rw [if_neg hk] at hc
    obtain ⟨-, labels, hl, hf⟩ := C04_multiclass m w k W b h hk2 hc R hR hRw
    cases ho : decide (mc = "ovr" ∨ mc = "warn" ∨
      (mc = "auto" ∧ (m.classes.length ≤ 2 ∨ sol = "liblinear"))) with
    | true =>
      rw [ho] at hd
      refine ⟨R.map fun x => (List.range k).map (ovr k (linScore w W b x)), labels, ?_, hl, ?_⟩
      · rw [C05_ovr_uses_lr m _ hd, C05_lr_multiclass m w k W b h hk2 R hR hRw, List.map_map]
        rfl
      · rw [List.forall₂_map_left_iff]
        refine hf.imp ?_
        rintro x l ⟨i, hi, hg⟩
        exact ⟨i, (isFirstMax_ovr h.pos _).2 hi, hg⟩
    | false =>
      rw [ho] at hd
      refine ⟨R.map fun x => (List.range k).map (softmax k (linScore w W b x)), labels, ?_, hl, ?_⟩
      · rw [C05_multinomial m w k W b h hk2 hd R hR hRw, List.map_map]
        rfl
      · rw [List.forall₂_map_left_iff]
        refine hf.imp ?_
        rintro x l ⟨i, hi, hg⟩
        exact ⟨i, (isFirstMax_softmax h.pos _).2 hi, hg⟩

/-- Non-vacuity: a binary one-vs-rest model. -/
example : ∃ (P : List (List ℝ)) (labels : List String),
    (⟨[[1, 0]].map fins, ["a", "b"], some (fins [3]), some "ovr", some "liblinear", none⟩ :
      Linear Ex String).predict (.ofMat ([[1, 1], [0, 2]].map fins)) = .ok labels ∧
    List.Forall₂ (fun p l => ∃ i, IsFirstMax p i ∧ ["a", "b"][i]? = some l) P labels := by
  obtain ⟨P, l, -, h⟩ := C06_predict_agrees_with_proba
    (⟨[[1, 0]].map fins, ["a", "b"], some (fins [3]), some "ovr", some "liblinear", none⟩ :
      Linear Ex String) 2 1 [[1, 0]] [3]
    ⟨rfl, by intro r hr; simp at hr; rcases hr with rfl; rfl, rfl, rfl, rfl, by norm_num⟩ rfl
    _ _ rfl rfl [[1, 1], [0, 2]] (by simp)
    (by intro r hr; simp at hr; rcases hr with rfl | rfl <;> rfl)
  exact ⟨P, l, h⟩

end PurePredict
