import Verif.Model.FastText
import Verif.Lemmas.XR
import Verif.Lemmas.Basic
/-
C52: fastText prediction on a list of texts.  False of the code: it always raises AttributeError.
-/
namespace PurePredict
variable {F : Type} [Arith F]

/-- The full claim for one model: on a list of texts the predictions are those of the texts. -/
def BatchPredicts (ws : Char → Bool) (m : FT.Model F) : Prop :=
  ∀ (ts : List Str) (k : Int) (t : F), m.predict ws (.many ts) k t = ts.mapM fun s => m.predict_ ws s k t

/-- A list of texts — even an empty one — makes a supervised model raise `AttributeError`
(`self.f` does not exist). -/
theorem C52_list_raises (ws : Char → Bool) (m : FT.Model F) (h : m.supervised = true) (ts : List Str)
    (k : Int) (t : F) : m.predict ws (.many ts) k t = .error .attributeError := by
  simp [FT.Model.predict, h]

/-- **C52 is false** of every supervised model. -/
theorem C52_false (ws : Char → Bool) (m : FT.Model F) (h : m.supervised = true) (z : F) :
    ¬ BatchPredicts ws m := by
  intro hb
  have := hb [] 1 z
  rw [C52_list_raises ws m h] at this
  cases this

/-- **C52**, what holds: a single text gives its own prediction; an unsupervised model rejects both
forms with `ValueError`.  Missing: lists of texts, for which the claim is false. -/
theorem C52_single_partial (ws : Char → Bool) (m : FT.Model F) (s : Str) (k : Int) (t : F) :
    (m.supervised = true → m.predict ws (.one s) k t = [s].mapM fun s => m.predict_ ws s k t) ∧
    (m.supervised = false → ∀ x, m.predict ws x k t = .error .valueError) := by
  constructor
  · intro h
    rw [mapM_cons', mapM_nil']
    simp [FT.Model.predict, h]
  · intro h x
    simp [FT.Model.predict, h]

example : ¬ BatchPredicts (fun c => c == ' ') (⟨true, [], [], 1, [], [], true⟩ : FT.Model Ex) :=
  C52_false _ _ rfl (.fin 0)

end PurePredict
