import Verif.Model.Utils
import Verif.Lemmas.Basic
import Mathlib.Tactic.IntervalCases
/-
C45: the version check compares numerically.
-/
namespace PurePredict

namespace Spec
/-- The digit character of a number below 10. -/
def digit (d : Nat) : Char := Char.ofNat (48 + d)

/-- Decimal notation. -/
def decimal (n : Nat) : List Char :=
  if n < 10 then [digit n] else decimal (n / 10) ++ [digit (n % 10)]
termination_by n
decreasing_by omega

/-- A version number in dotted notation: `[0, 21, 3]` is `0.21.3`. -/
def dotted : List Nat → List Char
  | [] => []
  | [n] => decimal n
  | n :: m :: ns => decimal n ++ '.' :: dotted (m :: ns)

/-- Numeric comparison of version numbers, missing components counting as 0. -/
def versionLt : List Nat → List Nat → Prop
  | [], [] => False
  | [], b :: bs => 0 < b ∨ (b = 0 ∧ versionLt [] bs)
  | _ :: _, [] => False
  | a :: as, b :: bs => a < b ∨ (a = b ∧ versionLt as bs)
end Spec
open Spec

theorem vKind_digit {d : Nat} (h : d < 10) : vKind (digit d) = .digit := by
  interval_cases d <;> decide

theorem digit_val {d : Nat} (h : d < 10) : (digit d).toNat - '0'.toNat = d := by
  interval_cases d <;> decide

theorem decimal_digits (n : Nat) : ∀ c ∈ decimal n, vKind c = .digit := by
  induction n using Nat.strong_induction_on with
  | _ n ih =>
    rw [decimal]
    split
    · intro c hc
      rw [List.mem_singleton] at hc
      subst hc
      exact vKind_digit (by omega)
    · intro c hc
      rcases List.mem_append.1 hc with hc | hc
      · exact ih (n / 10) (by omega) c hc
      · rw [List.mem_singleton] at hc
        subst hc
        exact vKind_digit (by omega)

theorem decimal_ne_nil (n : Nat) : decimal n ≠ [] := by
  rw [decimal]; split <;> simp

theorem decimal_val (n : Nat) : digitsVal (decimal n) = n := by
  induction n using Nat.strong_induction_on with
  | _ n ih =>
    rw [decimal]
    split
    · rename_i h
      simp only [digitsVal, List.foldl_cons, List.foldl_nil]
      rw [digit_val h]; omega
    · have h1 := ih (n / 10) (by omega)
      unfold digitsVal at h1 ⊢
      rw [List.foldl_append, h1]
      simp only [List.foldl_cons, List.foldl_nil]
      rw [digit_val (by omega)]; omega

/-- Reading a run of digits. -/
theorem vParseGo_digits (ds : List Char) (hd : ∀ c ∈ ds, vKind c = .digit) (cur : List Char) (hc : cur ≠ []) :
    vParseGo ds .digit cur = [.num (digitsVal (cur.reverse ++ ds))] ∧
    ∀ rest, vParseGo (ds ++ '.' :: rest) .digit cur =
      .num (digitsVal (cur.reverse ++ ds)) :: vParseGo rest .dot ['.'] := by
  induction ds generalizing cur with
  | nil =>
    constructor
    · simp [vParseGo, hc, vEmit]
    · intro rest
      have : vKind '.' = .dot := by decide
      simp [vParseGo, hc, vEmit, this]
  | cons d ds ih =>
    have hd1 := hd d (by simp)
    obtain ⟨h1, h2⟩ := ih (fun c hc => hd c (by simp [hc])) (d :: cur) (by simp)
    simp only [List.reverse_cons, List.append_assoc, List.singleton_append] at h1 h2
    constructor
    · simp only [vParseGo, hd1, if_true]
      rw [if_neg (by simpa using hc), h1]
    · intro rest
      simp only [List.cons_append, vParseGo, hd1, if_true]
      rw [if_neg (by simpa using hc), h2]

theorem vParseGo_start {s : List Char} (hs : ∃ c cs, s = c :: cs ∧ vKind c = .digit) :
    vParseGo s .dot ['.'] = vParseGo s .other [] := by
  obtain ⟨c, cs, rfl, hc⟩ := hs
  simp [vParseGo, hc, vEmit]

theorem dotted_start {ns : List Nat} (h : ns ≠ []) : ∃ c cs, dotted ns = c :: cs ∧ vKind c = .digit := by
  have hdec : ∀ n rest, ∃ c cs, decimal n ++ rest = c :: cs ∧ vKind c = .digit := by
    intro n rest
    cases hd : decimal n with
    | nil => exact absurd hd (decimal_ne_nil n)
    | cons c cs => exact ⟨c, cs ++ rest, rfl, decimal_digits n c (by rw [hd]; simp)⟩
  match ns, h with
  | [n], _ => simpa [dotted] using hdec n []
  | n :: m :: ns, _ => exact hdec n _

/-- **C45**, parsing: the components of a dotted version are its numbers. -/
theorem C45_parse (ns : List Nat) : vParse (dotted ns) = ns.map VComp.num := by
  unfold vParse
  match ns with
  | [] => rfl
  | [n] =>
    show vParseGo (decimal n) .other [] = _
    have hv := decimal_val n
    have hk := decimal_digits n
    cases hd : decimal n with
    | nil => exact absurd hd (decimal_ne_nil n)
    | cons c cs =>
      rw [hd] at hv hk
      have := (vParseGo_digits cs (fun x hx => hk x (by simp [hx])) [c] (by simp)).1
      simp only [List.reverse_singleton, List.singleton_append, hv] at this
      simpa [vParseGo, hk c (by simp)] using this
  | n :: m :: ns =>
    show vParseGo (decimal n ++ '.' :: dotted (m :: ns)) .other [] = _
    have hv := decimal_val n
    have hk := decimal_digits n
    have ih := C45_parse (m :: ns)
    unfold vParse at ih
    cases hd : decimal n with
    | nil => exact absurd hd (decimal_ne_nil n)
    | cons c cs =>
      rw [hd] at hv hk
      have := (vParseGo_digits cs (fun x hx => hk x (by simp [hx])) [c] (by simp)).2 (dotted (m :: ns))
      simp only [List.reverse_singleton, List.singleton_append, hv] at this
      rw [vParseGo_start (dotted_start (by simp)), ih] at this
      simpa [vParseGo, hk c (by simp)] using this

theorem vLt_num (ns ms : List Nat) :
    vLt (ns.map VComp.num) (ms.map VComp.num) = .ok (decide (ns < ms)) := by
  induction ns generalizing ms with
  | nil => cases ms <;> simp [vLt]
  | cons n ns ih =>
    cases ms with
    | nil => simp [vLt]
    | cons m ms =>
      simp only [List.map_cons, vLt]
      by_cases h : n = m
      · subst h
        simp [ih]
      · simp [h, vCompLt, List.cons_lt_cons_iff]

theorem minVersion_eq : minVersion = dotted [0, 20] := by
  have h0 : decimal 0 = ['0'] := by rw [decimal, if_pos (by omega)]; decide
  have h2 : decimal (20 / 10) = ['2'] := by rw [decimal, if_pos (by omega)]; decide
  have h20 : decimal 20 = ['2', '0'] := by rw [decimal, if_neg (by omega), h2]; decide
  rw [dotted, dotted, h0, h20]
  decide

/-- **C45**, all numeric versions: with a minimum, an estimator is rejected exactly when its version
precedes it in the component-wise numeric order (a proper prefix coming first); otherwise it is
accepted, with a warning exactly when it precedes 0.20. -/
theorem C45_check_partial (ns ms : List Nat) :
    checkVersion (some (dotted ns)) (some (dotted ms)) =
      if ns < ms then .error .exception else .ok (decide (ns < [0, 20])) := by
  simp only [checkVersion, C45_parse, vLt_num, py_ok_bind, minVersion_eq]
  by_cases h : ns < ms <;> simp [h]

/-- **C45**: without a minimum (every class but gradient boosting) nothing is rejected. -/
theorem C45_no_min (ns : List Nat) :
    checkVersion (some (dotted ns)) none = .ok (decide (ns < [0, 20])) := by
  simp only [checkVersion, minVersion_eq, C45_parse, vLt_num, py_ok_bind, py_pure, Bool.false_eq_true, if_false]

theorem gbMin_eq : "0.21.0".toList = dotted [0, 21, 0] := by
  have h0 : decimal 0 = ['0'] := by rw [decimal, if_pos (by omega)]; decide
  have h2 : decimal (21 / 10) = ['2'] := by rw [decimal, if_pos (by omega)]; decide
  have h21 : decimal 21 = ['2', '1'] := by rw [decimal, if_neg (by omega), h2]; decide
  rw [dotted, dotted, dotted, h0, h21]
  decide

/-- **C45**, the constructors: gradient boosting refuses exactly the versions before 0.21.0; every
other class refuses none. -/
theorem C45_constructors (name : List Char) (ns : List Nat) :
    checkVersion (some (dotted ns)) (ctorMinVersion name) =
      if name = "GradientBoostingClassifierPure".toList ∧ ns < [0, 21, 0] then .error .exception
      else .ok (decide (ns < [0, 20])) := by
  unfold ctorMinVersion
  by_cases h : name = "GradientBoostingClassifierPure".toList
  · rw [if_pos h, gbMin_eq, C45_check_partial]
    simp only [h, true_and]
  · rw [if_neg h, C45_no_min, if_neg (fun h' => h h'.1)]

/-- Non-vacuity: 0.20.4 is too old for gradient boosting and good enough for a tree. -/
example : checkVersion (some (dotted [0, 20, 4])) (ctorMinVersion "GradientBoostingClassifierPure".toList) =
      .error .exception ∧
    checkVersion (some (dotted [0, 20, 4])) (ctorMinVersion "DecisionTreeClassifierPure".toList) = .ok false := by
  rw [C45_constructors, C45_constructors]
  refine ⟨by decide, by decide⟩

/-- **C45**: an estimator whose version cannot be read is accepted with a warning, whatever minimum is
demanded. -/
theorem C45_unknown (mv : Option (List Char)) : checkVersion none mv = .ok true := rfl

theorem versionLt_iff_lt {ns ms : List Nat} (h : ns.length = ms.length) : versionLt ns ms ↔ ns < ms := by
  induction ns generalizing ms with
  | nil =>
    cases ms with
    | nil => simp [versionLt]
    | cons => simp at h
  | cons n ns ih =>
    cases ms with
    | nil => simp at h
    | cons m ms =>
      simp only [versionLt, List.cons_lt_cons_iff]
      rw [ih (by simpa using h)]

/-- **C45** for versions with the same number of components as the minimum: the numeric comparison. -/
theorem C45_same_length_partial (ns ms : List Nat) (h : ns.length = ms.length) :
    checkVersion (some (dotted ns)) (some (dotted ms)) = .error .exception ↔ versionLt ns ms := by
  rw [C45_check_partial, versionLt_iff_lt h]
  by_cases h : ns < ms <;> simp [h]

/-- Rejection is complete: a version that is numerically below the minimum is always rejected. -/
theorem C45_rejects (ns ms : List Nat) (h : versionLt ns ms) :
    checkVersion (some (dotted ns)) (some (dotted ms)) = .error .exception := by
  have : ns < ms := by
    induction ns generalizing ms with
    | nil =>
      cases ms with
      | nil => exact absurd h (by simp [versionLt])
      | cons => simp
    | cons n ns ih =>
      cases ms with
      | nil => exact absurd h (by simp [versionLt])
      | cons m ms =>
        rw [List.cons_lt_cons_iff]
        rcases h with h | ⟨rfl, h⟩
        · exact .inl h
        · exact .inr ⟨rfl, ih ms h⟩
  rw [C45_check_partial, if_pos this]

/-- **C45 is false** in one corner: version 0.21 is rejected where 0.21.0 is required, although it is
not below it. -/
theorem C45_false : ¬ ∀ ns ms : List Nat,
    checkVersion (some (dotted ns)) (some (dotted ms)) = .error .exception → versionLt ns ms := by
  intro h
  have := h [0, 21] [0, 21, 0] (by rw [C45_check_partial]; decide)
  simp [versionLt] at this

/-- Non-vacuity: 0.9 < 0.20 < 0.100 numerically (not as strings). -/
example : checkVersion (some (dotted [0, 9])) (some (dotted [0, 20])) = .error .exception ∧
    checkVersion (some (dotted [0, 100])) (some (dotted [0, 20])) = .ok false ∧
    versionLt [0, 9] [0, 20] ∧ versionLt [0, 20] [0, 100] := by
  rw [C45_check_partial, C45_check_partial]
  refine ⟨by decide, by decide, by simp [versionLt], by simp [versionLt]⟩

/-- A pre-release compared with a three-part minimum raises `TypeError` (`"0.21rc1"` against
`"0.21.0"` compares the string `rc` with the number 0). -/
theorem C45_prerelease_typeError :
    checkVersion (some "0.21rc1".toList) (some "0.21.0".toList) = .error .typeError := by decide

end PurePredict
