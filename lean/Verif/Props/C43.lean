import Verif.Model.Utils
import Verif.Spec.Convert
import Verif.Lemmas.Basic
/-
C43: `convert_estimator` dispatch.
-/
namespace PurePredict
open Spec

/-- The whole table, entry by entry: `MAPPING[c]` is `m.cPure`. -/
theorem mapping_exports : ∀ p ∈ exports, ∀ c ∈ p.2,
    (Dict.get? (mapping : Dict String String) c).map (fun s => splitLastDot s.toList) =
      some (p.1.toList, (c ++ "Pure").toList) := by decide +kernel

theorem mapping_keys : ∀ k ∈ mapping.map Prod.fst, ∃ p ∈ exports, k ∈ p.2 := by decide +kernel

section
variable {α β : Type} (construct : List Char → List Char → Fitted α → Py β) (est : Fitted α)
  (mv : Option (List Char))

/-- **C43**: a class with a counterpart is converted by constructing `<Name>Pure` of the module that
exports it. -/
theorem C43_supported {m : String} (h : Counterpart m est.className) :
    convertEstimator construct est mv =
      construct m.toList (est.className ++ "Pure").toList est := by
  obtain ⟨cs, h1, h2⟩ := h
  have h3 := mapping_exports _ h1 _ h2
  unfold convertEstimator
  cases hg : Dict.get? (mapping : Dict String String) est.className with
  | none => rw [hg] at h3; cases h3
  | some s =>
    rw [hg] at h3
    simp only [Option.map_some, Option.some.injEq] at h3
    simp only [h3]

/-- **C43**: every other class name raises `ValueError`. -/
theorem C43_unsupported (h : ∀ m, ¬ Counterpart m est.className) :
    convertEstimator construct est mv = .error .valueError := by
  unfold convertEstimator
  have : Dict.get? (mapping : Dict String String) est.className = none := by
    rw [Dict.get?_eq_none_iff]
    intro hm
    obtain ⟨p, hp, hc⟩ := mapping_keys _ hm
    exact h p.1 ⟨p.2, hp, hc⟩
  rw [this]

/-- **C43**: with constructors that succeed, `convert_estimator` raises for exactly the classes
without a counterpart. -/
theorem C43_iff (hok : ∀ m n, ∃ b, construct m n est = .ok b) :
    convertEstimator construct est mv = .error .valueError ↔ ¬ ∃ m, Counterpart m est.className := by
  constructor
  · rintro h ⟨m, hm⟩
    rw [C43_supported construct est mv hm] at h
    obtain ⟨b, hb⟩ := hok m.toList (est.className ++ "Pure").toList
    rw [hb] at h
    cases h
  · intro h
    exact C43_unsupported construct est mv fun m hm => h ⟨m, hm⟩
end

/-- **C43**, `min_version`: the claim is false; the argument has no effect whatever. -/
theorem C43_min_version_ignored {α β : Type} (construct : List Char → List Char → Fitted α → Py β)
    (est : Fitted α) (mv : Option (List Char)) :
    convertEstimator construct est mv = convertEstimator construct est none := rfl

/-- **C43 is false** for `min_version`: an estimator fitted with 0.20 is converted although 99.0 is
demanded, with the real constructor's version check in place. -/
theorem C43_min_version_false : ¬ ∀ (est : Fitted Unit) (mv : List Char),
    checkVersion est.version (some mv) = .error .exception →
    ∃ e, convertEstimator (fun _ name est => do
      let _ ← checkVersion est.version (ctorMinVersion name)
      return ()) est (some mv) = .error e := by
  intro h
  obtain ⟨e, he⟩ := h ⟨"LinearSVC", some "0.20".toList, ()⟩ "99.0".toList (by decide)
  rw [C43_supported _ _ _ (m := "pure_sklearn.svm") ⟨["LinearSVC"], by decide, by decide⟩] at he
  revert he
  have : (do
      let _ ← checkVersion (some "0.20".toList) (ctorMinVersion ("LinearSVC" ++ "Pure").toList)
      return () : Py Unit) = .ok () := by decide
  simp only [this]
  intro he
  cases he

/-- Non-vacuity: a supported and an unsupported class. -/
example : Counterpart "pure_sklearn.ensemble" "RandomForestClassifier" ∧
    ¬ ∃ m, Counterpart m "SVC" := by
  constructor
  · exact ⟨["RandomForestClassifier", "BaggingClassifier", "ExtraTreesClassifier",
      "GradientBoostingClassifier"], by decide, by decide⟩
  · rintro ⟨m, cs, h1, h2⟩
    have : ∀ p ∈ exports, "SVC" ∉ p.2 := by decide
    exact this _ h1 h2

end PurePredict
