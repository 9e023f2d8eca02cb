import Verif.Model.Profile
import Verif.Model.Linear
import Verif.Lemmas.Linear
import Verif.Lemmas.Dot
/-
C106: `performance_comparison`: what it prints, which record it uses, and when it raises.
-/
namespace PurePredict
open Spec
variable {F : Type} [Arith F]

theorem quiet_ok_bind {α β : Type} (a : α) (k : α → Prof F β) : (quiet (.ok a) >>= k) = k a := rfl
theorem quiet_error_bind {α β : Type} (e : PyErr) (k : α → Prof F β) : (quiet (.error e) >>= k) = (quiet (.error e) : Prof F β) := rfl
theorem prof_assoc {α β γ : Type} (p : Prof F α) (k : α → Prof F β) (l : β → Prof F γ) : ((p >>= k) >>= l) = (p >>= fun a => k a >>= l) := bind_assoc ..

/-- The setting in which nothing raises by itself. -/
structure Setting.Works (s : Setting F) (X : Given F) (a b : Nat) (x : Arr F) : Prop where
  dumpSk : s.dumpSk = .ok a
  dumpPure : s.dumpPure = .ok b
  loadSk : s.loadSk = .ok ()
  loadPure : s.loadPure = .ok ()
  request : X.first.toPure = .ok x
  predictSk : s.predictSk X.first = .ok ()
  predictPure : s.predictPure x = .ok ()

/-- **C106**: when pickling, loading and both predictions succeed and no divisor is zero, nine lines are printed: the sizes,
the loading times and the prediction times, each pair followed by its quotient. -/
theorem C106_report_partial {s : Setting F} {X : Given F} {a b : Nat} {x : Arr F} (h : s.Works X a b x) {q1 q2 q3 : F}
    (h1 : (ofInt b /ₚ ofInt a : Py F) = .ok q1) (h2 : (s.clock 3 -ₚ s.clock 2) /ₚ (s.clock 1 -ₚ s.clock 0) = .ok q2)
    (h3 : (s.clock 7 -ₚ s.clock 6) /ₚ (s.clock 5 -ₚ s.clock 4) = .ok q3) :
    performanceComparison s X = (.ok (), [.sizeSk a, .sizePure b, .difference q1,
      .loadSk (s.clock 1 -ₚ s.clock 0), .loadPure (s.clock 3 -ₚ s.clock 2), .difference q2,
      .predictSk (s.clock 5 -ₚ s.clock 4), .predictPure (s.clock 7 -ₚ s.clock 6), .difference q3]) := by
  obtain ⟨e1, e2, e3, e4, e5, e6, e7⟩ := h
  simp only [performanceComparison, Setting.sizes, Setting.loading, Setting.predicting, prof_assoc, quiet_ok_bind, e1, e2, e3, e4, e5, e6, e7, h1, h2, h3]
  rfl

/-- **C106**: if the clock shows the same time before and after loading the scikit-learn object, the comparison ends with
ZeroDivisionError after five lines, although both objects work. -/
theorem C106_instant_loading {s : Setting F} {X : Given F} {a b : Nat} {x : Arr F} (h : s.Works X a b x) {q1 : F}
    (h1 : (ofInt b /ₚ ofInt a : Py F) = .ok q1) {e : PyErr} (h2 : (s.clock 3 -ₚ s.clock 2) /ₚ (s.clock 1 -ₚ s.clock 0) = .error e) :
    performanceComparison s X = (.error e, [.sizeSk a, .sizePure b, .difference q1,
      .loadSk (s.clock 1 -ₚ s.clock 0), .loadPure (s.clock 3 -ₚ s.clock 2)]) := by
  obtain ⟨e1, e2, e3, e4, e5, e6, e7⟩ := h
  simp only [performanceComparison, Setting.sizes, Setting.loading, Setting.predicting, prof_assoc, quiet_ok_bind, quiet_error_bind, e1, e2, e3, e4, h1, h2]
  rfl

/-- **C106**: likewise when the prediction of scikit-learn takes no measurable time, after eight lines. -/
theorem C106_instant_prediction {s : Setting F} {X : Given F} {a b : Nat} {x : Arr F} (h : s.Works X a b x) {q1 q2 : F}
    (h1 : (ofInt b /ₚ ofInt a : Py F) = .ok q1) (h2 : (s.clock 3 -ₚ s.clock 2) /ₚ (s.clock 1 -ₚ s.clock 0) = .ok q2)
    {e : PyErr} (h3 : (s.clock 7 -ₚ s.clock 6) /ₚ (s.clock 5 -ₚ s.clock 4) = .error e) :
    performanceComparison s X = (.error e, [.sizeSk a, .sizePure b, .difference q1,
      .loadSk (s.clock 1 -ₚ s.clock 0), .loadPure (s.clock 3 -ₚ s.clock 2), .difference q2,
      .predictSk (s.clock 5 -ₚ s.clock 4), .predictPure (s.clock 7 -ₚ s.clock 6)]) := by
  obtain ⟨e1, e2, e3, e4, e5, e6, e7⟩ := h
  simp only [performanceComparison, Setting.sizes, Setting.loading, Setting.predicting, prof_assoc, quiet_ok_bind, quiet_error_bind, e1, e2, e3, e4, e5, e6, e7, h1, h2, h3]
  rfl

/-- In floats a quotient raises exactly when the divisor is zero, so when two finite readings coincide. -/
theorem C106_zero_time {fp : FP} (hs : fp.Sound) (t u v : ℝ) : ((.fin u -ₚ .fin v) /ₚ ((.fin t : XR fp) -ₚ .fin t) : Py (XR fp)) = .error .zeroDivisionError := by
  have : (.fin t : XR fp) -ₚ .fin t = .fin 0 := by
    show XR.round (t + -t) = _
    rw [add_neg_cancel]
    exact XR.round_rep hs.zero
  rw [this]
  cases (.fin u : XR fp) -ₚ .fin v <;> simp [Arith.div, XR.div]

/-- **C106**: only the first record is used. -/
theorem C106_first_record (s : Setting F) (X Y : Given F) (h : X.first = Y.first) : performanceComparison s X = performanceComparison s Y := by
  simp only [performanceComparison, Setting.predicting, h]

/-- **C106**: both estimators get the same record: from a numpy array scikit-learn gets its first row as an array and
pure-predict the same row as a list; from a list both get the same one-record list. -/
theorem C106_same_record (r : List F) (rest : List (List F)) (x : Row F) (xs : List (Row F)) :
    (Given.ndarray (r :: rest)).first = .ndarray [r] ∧ (Given.ndarray (r :: rest)).first.toPure = .ok (.ofMat [r]) ∧
    (Given.list (x :: xs)).first = .list [x] ∧ (Given.list (x :: xs)).first.toPure = .ok (.list [x]) := ⟨rfl, rfl, rfl, rfl⟩

/-- **C106**: an exception of a prediction is passed on; a table without `tolist` is refused with AttributeError before any
prediction, six lines having been printed. -/
theorem C106_exceptions {s : Setting F} {X : Given F} {a b : Nat} (hd : s.dumpSk = .ok a) (hd' : s.dumpPure = .ok b) (hl : s.loadSk = .ok ())
    (hl' : s.loadPure = .ok ()) {q1 q2 : F} (h1 : (ofInt b /ₚ ofInt a : Py F) = .ok q1)
    (h2 : (s.clock 3 -ₚ s.clock 2) /ₚ (s.clock 1 -ₚ s.clock 0) = .ok q2) (x : Arr F) (e : PyErr) :
    let six := [.sizeSk a, .sizePure b, .difference q1, .loadSk (s.clock 1 -ₚ s.clock 0), .loadPure (s.clock 3 -ₚ s.clock 2), .difference q2]
    (∀ rows, X = .table rows → performanceComparison s X = (.error .attributeError, six)) ∧
    (X.first.toPure = .ok x → s.predictSk X.first = .error e → performanceComparison s X = (.error e, six)) ∧
    (X.first.toPure = .ok x → s.predictSk X.first = .ok () → s.predictPure x = .error e →
      performanceComparison s X = (.error e, six ++ [.predictSk (s.clock 5 -ₚ s.clock 4)])) := by
  intro six
  refine ⟨?_, fun e5 e6 => ?_, fun e5 e6 e7 => ?_⟩
  · rintro rows rfl
    have e5 : (Given.table rows).first.toPure = .error .attributeError := rfl
    simp only [performanceComparison, Setting.sizes, Setting.loading, Setting.predicting, prof_assoc, quiet_ok_bind, quiet_error_bind, hd, hd', hl, hl', e5, h1, h2]
    rfl
  · simp only [performanceComparison, Setting.sizes, Setting.loading, Setting.predicting, prof_assoc, quiet_ok_bind, quiet_error_bind, hd, hd', hl, hl', e5, e6, h1, h2]
    rfl
  · simp only [performanceComparison, Setting.sizes, Setting.loading, Setting.predicting, prof_assoc, quiet_ok_bind, quiet_error_bind, hd, hd', hl, hl', e5, e6, e7, h1, h2]
    rfl

/-- **C106**: an exception of pickling ends the comparison before anything is printed, one of loading after the sizes (and,
for the second object, the first loading time); later steps are not reached. -/
theorem C106_early_exceptions (s : Setting F) (X : Given F) (e : PyErr) :
    (s.dumpSk = .error e → performanceComparison s X = (.error e, [])) ∧
    ∀ a, s.dumpSk = .ok a → (s.dumpPure = .error e → performanceComparison s X = (.error e, [])) ∧
    ∀ b, s.dumpPure = .ok b → ((ofInt b /ₚ ofInt a : Py F) = .error e → performanceComparison s X = (.error e, [.sizeSk a, .sizePure b])) ∧
    ∀ q, (ofInt b /ₚ ofInt a : Py F) = .ok q →
      (s.loadSk = .error e → performanceComparison s X = (.error e, [.sizeSk a, .sizePure b, .difference q])) ∧
      (s.loadSk = .ok () → s.loadPure = .error e →
        performanceComparison s X = (.error e, [.sizeSk a, .sizePure b, .difference q, .loadSk (s.clock 1 -ₚ s.clock 0)])) := by
  refine ⟨fun h1 => ?_, fun a h1 => ⟨fun h2 => ?_, fun b h2 => ⟨fun h3 => ?_, fun q h3 => ⟨fun h4 => ?_, fun h4 h5 => ?_⟩⟩⟩⟩
  · simp only [performanceComparison, Setting.sizes, Setting.loading, Setting.predicting, prof_assoc, quiet_ok_bind, quiet_error_bind, h1]
    rfl
  · simp only [performanceComparison, Setting.sizes, Setting.loading, Setting.predicting, prof_assoc, quiet_ok_bind, quiet_error_bind, h1, h2]
    rfl
  · simp only [performanceComparison, Setting.sizes, Setting.loading, Setting.predicting, prof_assoc, quiet_ok_bind, quiet_error_bind, h1, h2, h3]
    rfl
  · simp only [performanceComparison, Setting.sizes, Setting.loading, Setting.predicting, prof_assoc, quiet_ok_bind, quiet_error_bind, h1, h2, h3, h4]
    rfl
  · simp only [performanceComparison, Setting.sizes, Setting.loading, Setting.predicting, prof_assoc, quiet_ok_bind, quiet_error_bind, h1, h2, h3, h4, h5]
    rfl

/-! ### Sparse requests -/

/-- A slice of a sparse request is no sparse request. -/
theorem C106_slice (rows : List (Dict Int F)) (size : Option Nat) (dt : DType) :
    (Given.sparseList rows size dt).first.toPure = .ok (.list ((rows.take 1).map .dict)) := rfl

/-- **C106**: what a linear model makes of a slice: the number of entries the first record stores is taken for the number of
columns.  If it is the right number the answer is the one for the sparse request, otherwise ValueError. -/
theorem C106_sliced_linear {C : Type} (m : Linear F C) {c : List F} {cs : List (List F)} (hc : m.coef = c :: cs) (d : Dict Int F) (ds : List (Dict Int F)) (dt : DType) :
    m.decisionFunction (.list ((d :: ds).map .dict)) =
      if d.length = c.length then m.decisionFunction (.sparse (d :: ds) (some c.length) dt) else .error .valueError := by
  have w1 : (Arr.ofMat m.coef).width = .ok (some c.length) := by rw [hc]; rfl
  have w2 : (Arr.list ((d :: ds).map Row.dict) : Arr F).width = .ok (some d.length) := rfl
  have w3 : (Arr.sparse (d :: ds) (some c.length) dt : Arr F).width = .ok (some c.length) := rfl
  have c1 : checkArray (.list ((d :: ds).map Row.dict) : Arr F) .allow = .ok (.list ((d :: ds).map Row.dict)) := rfl
  have c2 : checkArray (.sparse (d :: ds) (some c.length) dt : Arr F) .allow = .ok (.sparse (d :: ds) (some c.length) dt) := rfl
  have r1 : (Arr.list ((d :: ds).map Row.dict) : Arr F).rows = .ok ((d :: ds).map Row.dict) := rfl
  have r2 : (Arr.sparse (d :: ds) (some c.length) dt : Arr F).rows = .ok ((d :: ds).map Row.dict) := rfl
  simp only [Linear.decisionFunction, Linear.checkWidth, w1, w2, w3, c1, c2, r1, r2, py_ok_bind]
  by_cases h : d.length = c.length
  · simp [h]
  · rw [if_neg h, if_pos (by simpa using h)]
    rfl

/-- **C106 is false of sparse requests**: a linear model that answers a sparse request makes the comparison on the same request
raise ValueError. -/
theorem C106_sparse_false (s : Setting F) {C : Type} (m : Linear F C) {c : List F} {cs : List (List F)} (hc : m.coef = c :: cs)
    (d : Dict Int F) (ds : List (Dict Int F)) (dt : DType) (hd : d.length ≠ c.length) (hp : ∀ X, s.predictPure X = (m.predict X).map fun _ => ()) {a b : Nat} {q1 q2 : F}
    (h1 : s.dumpSk = .ok a) (h2 : s.dumpPure = .ok b) (h3 : s.loadSk = .ok ()) (h4 : s.loadPure = .ok ()) (h5 : (ofInt b /ₚ ofInt a : Py F) = .ok q1)
    (h6 : (s.clock 3 -ₚ s.clock 2) /ₚ (s.clock 1 -ₚ s.clock 0) = .ok q2) (h7 : s.predictSk (Given.sparseList (d :: ds) (some c.length) dt).first = .ok ()) :
    (performanceComparison s (.sparseList (d :: ds) (some c.length) dt)).1 = .error .valueError := by
  have hv : s.predictPure (.list [.dict d]) = .error .valueError := by
    have := C106_sliced_linear m hc d [] dt
    rw [if_neg hd] at this
    rw [hp]
    have e : ([d].map Row.dict : List (Row F)) = [.dict d] := rfl
    rw [e] at this
    simp only [Linear.predict, this]
    rfl
  have := (C106_exceptions (X := .sparseList (d :: ds) (some c.length) dt) h1 h2 h3 h4 h5 h6 (.list [.dict d]) .valueError).2.2 rfl h7 hv
  rw [this]

/-! ### Cases that meet the hypotheses -/

/-- Sizes 200 and 100, every reading one second later, two rows. -/
noncomputable def demoSetting : Setting Ex := ⟨.ok 200, .ok 100, .ok (), .ok (), fun _ => .ok (), fun _ => .ok (), fun (i : Nat) => .fin i⟩

example : demoSetting.Works (.ndarray [[.fin 1], [.fin 2]]) 200 100 (.ofMat [[.fin 1]]) ∧
    (ofInt (100 : Nat) /ₚ ofInt (200 : Nat) : Py Ex) = .ok (.fin (1 / 2)) ∧
    (demoSetting.clock 3 -ₚ demoSetting.clock 2) /ₚ (demoSetting.clock 1 -ₚ demoSetting.clock 0) = .ok (.fin 1) := by
  refine ⟨⟨rfl, rfl, rfl, rfl, rfl, rfl, rfl⟩, ?_, ?_⟩
  · rw [XR.ofInt_exact, XR.ofInt_exact, XR.div_exact _ (by norm_num)]
    norm_num
  · show (((.fin ((3 : ℕ) : ℝ) : Ex) -ₚ .fin ((2 : ℕ) : ℝ)) /ₚ ((.fin ((1 : ℕ) : ℝ) : Ex) -ₚ .fin ((0 : ℕ) : ℝ)) : Py Ex) = _
    rw [XR.sub_exact, XR.sub_exact, XR.div_exact _ (by norm_num)]
    norm_num

/-- The second object cannot be unpickled. -/
example : (performanceComparison { demoSetting with loadPure := .error .valueError } (.ndarray [[.fin 1]])).1 = .error .valueError := by
  have h : (ofInt (100 : Nat) /ₚ ofInt (200 : Nat) : Py Ex) = .ok (.fin (1 / 2)) := by
    rw [XR.ofInt_exact, XR.ofInt_exact, XR.div_exact _ (by norm_num)]
    norm_num
  rw [((((C106_early_exceptions { demoSetting with loadPure := .error .valueError } (.ndarray [[.fin 1]]) .valueError).2 200 rfl).2 100 rfl).2 _ h).2 rfl rfl]

/-- A model of three columns answers a sparse record with one entry; the slice of the request is refused. -/
example : let m : Linear Ex String := ⟨[[.fin 1, .fin 1, .fin 1]], ["no", "yes"], some [.fin 0], none, none, none⟩
    m.decisionFunction (.sparse [[(1, .fin 5)]] (some 3) .float) = .ok (.flat [.fin 5]) ∧
    m.decisionFunction (.list ([[(1, .fin 5)]].map .dict)) = .error .valueError := by
  intro m
  constructor
  · show (Except.ok (Scores.flat [((ofInt 0 +ₚ (.fin 5 *ₚ .fin 1)) +ₚ .fin 0)]) : Py (Scores Ex)) = _
    rw [XR.ofInt_exact, XR.mul_exact, XR.add_exact, XR.add_exact]
    norm_num
  · exact (C106_sliced_linear m rfl [(1, .fin 5)] [] .float).trans (if_neg (by simp))

end PurePredict
