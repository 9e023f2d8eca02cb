import Verif.Model.Text
import Verif.Props.C42
import Verif.Lemmas.Dot
import Verif.Props.C02
/-
Helper lemmas for feature unions of text transformers.
-/
namespace PurePredict
open Spec

/-- A union of text transformers is the union of transformers that return fixed arrays, on a request of
as many one-dimensional entries. -/
theorem TextUnion.transform_eq {F : Type} [Arith F] (u : TextUnion F) {docs : List Str} (hd : docs ≠ []) :
    u.transform docs = (⟨u.transformers.map fun t => (t.1, fun _ => t.2 docs), u.weights⟩ :
      FeatureUnion F).transform (.list (docs.map fun _ => .scalar (ofInt 0))) := by
  cases docs with
  | nil => exact absurd rfl hd
  | cons d docs =>
    unfold TextUnion.transform FeatureUnion.transform
    simp [checkArray, Arr.issparse, transformOne, mapM_map', TextUnion.weightOf, FeatureUnion.weightOf,
      Arr.len, Arr.shape, Arr.ndim, Function.comp_def, Arr.rows, Arr.first, pyGet]

/-- Rows of finite numbers are stored as finite numbers. -/
theorem finD_of_dense {w : Nat} {d : Dict Int Ex} (hv : ValidRow w d) {r : List ℝ}
    (hr : dense (.fin 0) w d = fins r) : ∃ d', d = finD d' ∧ ValidRow w d' ∧ dense 0 w d' = r := by
  have hfin : ∀ p ∈ d, ∃ x : ℝ, p.2 = .fin x := by
    intro p hp
    obtain ⟨h0, h1⟩ := hv.2 p hp
    have hn : p.1.toNat < w := by omega
    have he : entry (.fin 0) d p.1.toNat = p.2 := by
      have hp' : (p.1, p.2) ∈ d := hp
      rw [entry_eq_get?, show ((p.1.toNat : Nat) : Int) = p.1 by omega,
        Dict.get?_eq_some_of_mem hv.1 hp']
      rfl
    have hm : p.2 ∈ dense (.fin 0) w d := by
      rw [← he]
      exact List.mem_map.2 ⟨p.1.toNat, List.mem_range.2 hn, rfl⟩
    rw [hr] at hm
    obtain ⟨x, -, hx⟩ := List.mem_map.1 hm
    exact ⟨x, hx.symm⟩
  have hex : ∃ d' : Dict Int ℝ, d = finD d' := by
    clear hr hv
    induction d with
    | nil => exact ⟨[], rfl⟩
    | cons p d ih =>
      obtain ⟨d', rfl⟩ := ih fun q hq => hfin q (List.mem_cons_of_mem _ hq)
      obtain ⟨x, hx⟩ := hfin p (by simp)
      exact ⟨(p.1, x) :: d', by rw [finD, finD, List.map_cons, ← hx]⟩
  obtain ⟨d', rfl⟩ := hex
  refine ⟨d', rfl, ?_, ?_⟩
  · refine ⟨?_, fun p hp => ?_⟩
    · have := hv.1
      simpa [finD, List.map_map, Function.comp_def] using this
    · exact hv.2 (p.1, .fin p.2) (List.mem_map.2 ⟨p, hp, rfl⟩)
  · rw [dense_finD] at hr
    exact List.map_injective_iff.2 (fun a b h => by simpa using h) hr

/-- The same for all rows of a matrix. -/
theorem finDs_of_dense {w : Nat} (ds : List (Dict Int Ex)) (R : List (List ℝ)) (hv : ∀ d ∈ ds, ValidRow w d)
    (hR : ds.map (dense (.fin 0) w) = R.map fins) :
    ∃ ds' : List (Dict Int ℝ), ds = ds'.map finD ∧ (∀ d ∈ ds', ValidRow w d) ∧ ds'.map (dense 0 w) = R := by
  induction ds generalizing R with
  | nil =>
    cases R with
    | nil => exact ⟨[], rfl, by simp, rfl⟩
    | cons => simp at hR
  | cons r ds ih =>
    cases R with
    | nil => simp at hR
    | cons d R =>
      simp only [List.map_cons, List.cons.injEq] at hR
      obtain ⟨r', e1, e2, e3⟩ := finD_of_dense (hv r (by simp)) hR.1
      obtain ⟨ds', g1, g2, g3⟩ := ih R (fun d hd => hv d (List.mem_cons_of_mem _ hd)) hR.2
      refine ⟨r' :: ds', by rw [e1, g1]; rfl, ?_, by rw [List.map_cons, e3, g3]⟩
      intro x hx
      rcases List.mem_cons.1 hx with rfl | hx
      · exact e2
      · exact g2 x hx

end PurePredict
