import Verif.Spec.SameMatrix
import Verif.Props.C02
import Verif.Props.C11
import Verif.Props.C22
import Verif.Props.C24
import Verif.Props.C26
import Verif.Props.C42
/-
Single estimators on dense and sparse presentations of one matrix.
-/
namespace PurePredict
open Spec
variable {fp : FP} {g : Regime}

theorem Spec.Regime.Holds.sound (h : g.Holds fp) : fp.Sound := by
  cases g with
  | exact => rw [show fp = FP.exact from h]; exact FP.exact_sound
  | rounded => exact h

/-! ### Outcomes of two calls -/

theorem Spec.Meet.bind {α β γ δ : Type} {R : α → β → Prop} {S : γ → δ → Prop} {a : Py α} {b : Py β} {f : α → Py γ}
    {f' : β → Py δ} (h : Meet R a b) (hf : ∀ x y, R x y → Meet S (f x) (f' y)) : Meet S (a >>= f) (b >>= f') := by
  cases a with
  | error e =>
    cases b with
    | error e' => exact h
    | ok y => exact h.elim
  | ok x =>
    cases b with
    | error e' => exact h.elim
    | ok y => exact hf x y h

theorem Spec.Meet.bind_eq {α β γ : Type} {R : α → β → Prop} {a : Py α} {b : Py β} {f : α → Py γ} {f' : β → Py γ}
    (h : Meet R a b) (hf : ∀ x y, R x y → f x = f' y) : (a >>= f) = (b >>= f') := by
  cases a with
  | error e =>
    cases b with
    | error e' => rw [show e = e' from h]; rfl
    | ok y => exact h.elim
  | ok x =>
    cases b with
    | error e' => exact h.elim
    | ok y => exact hf x y h

theorem Spec.Meet.of_eq {α β : Type} {R : α → β → Prop} {S : α → β → Prop} {a : Py α} {b : Py β} (h : Meet R a b)
    (hi : ∀ x y, a = .ok x → b = .ok y → R x y → S x y) : Meet S a b := by
  cases a <;> cases b <;> first | exact h | exact h.elim | exact hi _ _ rfl rfl h

theorem Spec.Meet.mapM {ι α β : Type} {R : ι → α → β → Prop} {f : ι → Py α} {f' : ι → Py β} (l : List ι)
    (h : ∀ i ∈ l, Meet (R i) (f i) (f' i)) :
    Meet (fun xs ys => List.Forall₂ (fun i (p : α × β) => R i p.1 p.2) l (xs.zip ys) ∧ xs.length = l.length ∧ ys.length = l.length)
      (l.mapM f) (l.mapM f') := by
  induction l with
  | nil => exact ⟨.nil, rfl, rfl⟩
  | cons i l ih =>
    rw [mapM_cons', mapM_cons']
    refine (h i (by simp)).bind fun x y hxy => ?_
    refine (ih fun j hj => h j (by simp [hj])).bind fun xs ys hs => ?_
    exact ⟨.cons hxy hs.1, by simp [hs.2.1], by simp [hs.2.2]⟩

/-! ### Presentations -/

theorem Spec.Shows.rect {A : Arr (XR fp)} {w : Nat} {M : List (List (XR fp))} (h : Shows g A w M) : M ≠ [] ∧ Rect w M := by
  cases h with
  | dense h1 h2 => exact ⟨h1, fun r hr => (h2 r hr).1⟩
  | sparse h1 h2 =>
    refine ⟨by simpa using h1, fun r hr => ?_⟩
    obtain ⟨d, -, rfl⟩ := List.mem_map.1 hr
    exact dense_length _ _ _

theorem Spec.Shows.check {A : Arr (XR fp)} {w : Nat} {M : List (List (XR fp))} (h : Shows g A w M) :
    checkArray A .allow = .ok A ∧ A.len = .ok M.length := by
  cases h with
  | dense h1 h2 => exact ⟨checkArray_ofMat h1 _, len_ofMat _⟩
  | sparse h1 h2 => exact ⟨rfl, by simp [Arr.len, Arr.rows]⟩

theorem entry_mem {z : XR fp} {d : Dict Int (XR fp)} {i : Nat} {P : XR fp → Prop} (hz : P z) (h : ∀ kv ∈ d, P kv.2) :
    P (entry z d i) := by
  unfold entry
  cases hf : d.find? fun p => p.1 = (i : Int) with
  | none => exact hz
  | some p => exact h p (List.mem_of_find?_eq_some hf)

theorem Spec.Regime.entry_zero : g.Entry (.fin 0 : XR fp) := by
  cases g with
  | exact => exact ⟨0, rfl⟩
  | rounded => trivial

theorem Spec.Shows.entries {A : Arr (XR fp)} {w : Nat} {M : List (List (XR fp))} (h : Shows g A w M) :
    ∀ r ∈ M, ∀ x ∈ r, g.Entry x := by
  cases h with
  | dense h1 h2 => exact fun r hr => (h2 r hr).2
  | sparse h1 h2 =>
    intro r hr x hx
    obtain ⟨d, hd, rfl⟩ := List.mem_map.1 hr
    obtain ⟨i, -, rfl⟩ := List.mem_map.1 hx
    exact entry_mem g.entry_zero (h2 d hd).2.2

/-- A function of column and number that keeps zeros and the numbers of the regime, applied to the entries. -/
theorem shows_columns {q : Nat → XR fp → XR fp} (hq0 : ∀ j, q j (.fin 0) = .fin 0) (hq : ∀ j x, g.Entry x → g.Entry (q j x))
    {w : Nat} :
    (∀ M : List (List (XR fp)), Shows g (.ofMat M) w M → Shows g (.ofMat (onColumns (.fin 0) w q M)) w (onColumns (.fin 0) w q M)) ∧
    ∀ (ds : List (Dict Int (XR fp))) dt, ds ≠ [] → (∀ d ∈ ds, ValidRow w d ∧ g.Order d ∧ ∀ kv ∈ d, g.Entry kv.2) →
      Shows g (.sparse (ds.map fun d => d.map fun kv => (kv.1, q kv.1.toNat kv.2)) (some w) dt) w
        (onColumns (.fin 0) w q (ds.map (dense (.fin 0) w))) := by
  constructor
  · intro M h
    have hr := h.rect
    have he := h.entries
    refine Shows.dense (by simpa [onColumns] using hr.1) fun r hm => ?_
    obtain ⟨x, hx, rfl⟩ := List.mem_map.1 hm
    refine ⟨by simp, fun y hy => ?_⟩
    obtain ⟨j, -, rfl⟩ := List.mem_map.1 hy
    refine hq _ _ ?_
    rw [List.getD_eq_getElem?_getD]
    cases hj : x[j]? with
    | none => exact g.entry_zero
    | some a => exact he x hx a (List.mem_of_getElem? hj)
  · intro ds dt hne hd
    have : onColumns (.fin 0) w q (ds.map (dense (.fin 0) w)) =
        (ds.map fun d => d.map fun kv => (kv.1, q kv.1.toNat kv.2)).map (dense (.fin 0) w) := by
      unfold onColumns
      rw [List.map_map, List.map_map]
      apply List.map_congr_left
      intro d _
      simp only [Function.comp]
      unfold dense
      apply List.map_congr_left
      intro i hi
      have hi := List.mem_range.1 hi
      rw [entry_mapKV (g := fun k v => q k.toNat v) d i (by simpa using hq0 i)]
      simp [List.getD_eq_getElem?_getD, hi]
    rw [this]
    refine .sparse (by simpa using hne) fun d' hd' => ?_
    obtain ⟨d, hm, rfl⟩ := List.mem_map.1 hd'
    obtain ⟨h1, h2, h3⟩ := hd d hm
    refine ⟨validRow_mapKV (g := fun k v => q k.toNat v) h1, ?_, ?_⟩
    · cases g with
      | exact => trivial
      | rounded =>
        show List.Pairwise _ _
        rw [List.map_map]
        exact h2
    · intro kv hkv
      obtain ⟨kv', hkv', rfl⟩ := List.mem_map.1 hkv
      exact hq _ _ (h3 _ hkv')

/-! ### Transformers -/

/-- What a transformer does to every presentation of a matrix. -/
def Maps (g : Regime) (w w' : Nat) (t : Arr (XR fp) → Py (Arr (XR fp))) : Prop :=
  ∀ A B M, Shows g A w M → Shows g B w M → ∃ A' B' M', t A = .ok A' ∧ t B = .ok B' ∧ Shows g A' w' M' ∧ Shows g B' w' M' ∧
    M'.length = M.length

theorem Maps.of_fun {w w' : Nat} {t : Arr (XR fp) → Py (Arr (XR fp))} (φ : List (List (XR fp)) → List (List (XR fp)))
    (hl : ∀ M, (φ M).length = M.length) (h : ∀ A M, Shows g A w M → ∃ A', t A = .ok A' ∧ Shows g A' w' (φ M)) : Maps g w w' t := by
  intro A B M hA hB
  obtain ⟨A', h1, h2⟩ := h A M hA
  obtain ⟨B', h3, h4⟩ := h B M hB
  exact ⟨A', B', _, h1, h3, h2, h4, hl M⟩

theorem entry_quot (hg : g.Holds fp) (b : ℝ) (x : XR fp) (h : g.Entry x) : g.Entry (XR.quot x b) := by
  cases g with
  | rounded => trivial
  | exact =>
    obtain rfl : fp = FP.exact := hg
    obtain ⟨r, rfl⟩ := h
    exact ⟨_, XR.quot_exact r b⟩

theorem scale_range {w : Nat} {S : List ℝ} (hS : S.length = w) :
    S.map (XR.fin : ℝ → XR fp) = (List.range w).map fun j => .fin (S.getD j 1) := by
  subst hS
  apply List.ext_getElem
  · simp
  · intro i h1 h2
    simp at h1
    simp [List.getD_eq_getElem?_getD, h1]

theorem StandardScaler.maps (hg : g.Holds fp) {s : StandardScaler (XR fp)} {w : Nat} (hm : s.withMean = false)
    (hw : s.withStd = true) (hs : GoodScale s.scale w) : Maps g w w s.transform := by
  obtain ⟨S, hsc, hS, hne⟩ := hs
  refine .of_fun (onColumns (.fin 0) w fun j x => XR.quot x (S.getD j 1)) (fun _ => by simp [onColumns]) fun A M h => ?_
  obtain ⟨c1, c2⟩ := shows_columns (g := g) (q := fun j x => XR.quot x (S.getD j 1)) (w := w)
    (fun _ => XR.quot_zero hg.sound _) fun j x => entry_quot hg _ x
  cases h with
  | dense h1 h2 =>
    refine ⟨_, ?_, c1 M (.dense h1 h2)⟩
    rw [C22_transform_rounded fp s w (fun _ => 0) (fun j => S.getD j 1)
      (fun h => by rw [hm] at h; cases h) (fun _ => ⟨by rw [hsc, scale_range hS], fun j hj => by
        rw [List.getD_eq_getElem?_getD, List.getElem?_eq_getElem (by rw [hS]; exact hj)]
        exact hne _ (List.getElem_mem _)⟩) _ h1 fun r hr => (h2 r hr).1]
    congr 2
    rw [hm, hw]
    rfl
  | @sparse ds w dt h1 h2 =>
    refine ⟨_, ?_, c2 ds dt h1 h2⟩
    simp only [StandardScaler.transform, checkArray, py_ok_bind, hm, Bool.false_eq_true, if_false,
      hsc, scaleDicts_ok hS hne fun d hd => (h2 d hd).1]
    exact sparseList_dicts (by simpa using h1) _ _

theorem StandardScaler.maps_unscaled {s : StandardScaler (XR fp)} {w : Nat} (hm : s.withMean = false)
    (hw : s.withStd = false) (hs : s.scale = none) : Maps g w w s.transform := by
  refine .of_fun id (fun _ => rfl) fun A M h => ⟨A, ?_, h⟩
  cases h with
  | dense h1 h2 =>
    obtain ⟨r, M, rfl⟩ := List.exists_cons_of_ne_nil h1
    simp [StandardScaler.transform, checkArray, Arr.ofMat, hm, hw, Arr.rows]
  | @sparse ds w dt h1 h2 =>
    simp [StandardScaler.transform, checkArray, hm, hs]

theorem MaxAbsScaler.maps (hg : g.Holds fp) {s : MaxAbsScaler (XR fp)} {w : Nat} (hs : GoodScale s.scale w) :
    Maps g w w s.transform := by
  obtain ⟨S, hsc, hS, hne⟩ := hs
  obtain ⟨sc, ma⟩ := s
  simp only at hsc
  subst hsc
  refine .of_fun (onColumns (.fin 0) w fun j x => XR.quot x (S.getD j 1)) (fun _ => by simp [onColumns]) fun A M h => ?_
  obtain ⟨c1, c2⟩ := shows_columns (g := g) (q := fun j x => XR.quot x (S.getD j 1)) (w := w)
    (fun _ => XR.quot_zero hg.sound _) fun j x => entry_quot hg _ x
  cases h with
  | dense h1 h2 =>
    refine ⟨_, ?_, c1 M (.dense h1 h2)⟩
    rw [scale_range hS]
    exact C24_transform_rounded fp w (fun j => S.getD j 1) (fun j hj => by
      rw [List.getD_eq_getElem?_getD, List.getElem?_eq_getElem (by rw [hS]; exact hj)]
      exact hne _ (List.getElem_mem _)) ma M h1 fun r hr => (h2 r hr).1
  | @sparse ds w dt h1 h2 =>
    refine ⟨_, ?_, c2 ds dt h1 h2⟩
    simp only [MaxAbsScaler.transform, checkArray, py_ok_bind, scaleDicts_ok hS hne fun d hd => (h2 d hd).1]
    exact sparseList_dicts (by simpa using h1) _ _

/-- Finite matrices come from real ones. -/
theorem exists_fins {M : List (List Ex)} (h : ∀ r ∈ M, ∀ x ∈ r, ∃ a, x = XR.fin a) : ∃ R : List (List ℝ), M = R.map fins := by
  have h1 : ∀ r : List Ex, (∀ x ∈ r, ∃ a, x = XR.fin a) → ∃ l : List ℝ, r = fins l := by
    intro r
    induction r with
    | nil => exact fun _ => ⟨[], rfl⟩
    | cons x r ih =>
      intro h
      obtain ⟨l, rfl⟩ := ih fun y hy => h y (by simp [hy])
      obtain ⟨a, rfl⟩ := h x (by simp)
      exact ⟨a :: l, rfl⟩
  induction M with
  | nil => exact ⟨[], rfl⟩
  | cons r M ih =>
    obtain ⟨R, rfl⟩ := ih fun y hy => h y (by simp [hy])
    obtain ⟨l, rfl⟩ := h1 r (h r (by simp))
    exact ⟨l :: R, rfl⟩

theorem exists_finD {ds : List (Dict Int Ex)} (h : ∀ d ∈ ds, ∀ kv ∈ d, ∃ a, kv.2 = XR.fin a) :
    ∃ es : List (Dict Int ℝ), ds = es.map finD := by
  have h1 : ∀ r : Dict Int Ex, (∀ x ∈ r, ∃ a, x.2 = XR.fin a) → ∃ l : Dict Int ℝ, r = finD l := by
    intro r
    induction r with
    | nil => exact fun _ => ⟨[], rfl⟩
    | cons x r ih =>
      intro h
      obtain ⟨l, rfl⟩ := ih fun y hy => h y (by simp [hy])
      obtain ⟨k, v⟩ := x
      obtain ⟨a, ha⟩ := h (k, v) (by simp)
      simp only at ha
      subst ha
      exact ⟨(k, a) :: l, rfl⟩
  induction ds with
  | nil => exact ⟨[], rfl⟩
  | cons r M ih =>
    obtain ⟨R, rfl⟩ := ih fun y hy => h y (by simp [hy])
    obtain ⟨l, rfl⟩ := h1 r (h r (by simp))
    exact ⟨l :: R, rfl⟩

theorem fins_injective : Function.Injective fins := by
  intro a b h
  exact List.map_injective_iff.2 (fun x y h => by cases h; rfl) h

theorem finD_row {w : Nat} {d : Dict Int ℝ} (h : ValidRow w d) :
    ValidRow w (finD d) ∧ Regime.exact.Order (finD d) ∧ ∀ kv ∈ finD d, Regime.exact.Entry kv.2 := by
  refine ⟨finD_valid h, trivial, fun kv hkv => ?_⟩
  obtain ⟨p, -, rfl⟩ := List.mem_map.1 hkv
  exact ⟨_, rfl⟩

theorem finD_valid_iff {w : Nat} {d : Dict Int ℝ} (h : ValidRow w (finD d)) : ValidRow w d := by
  constructor
  · have := h.1
    unfold finD at this
    rw [List.map_map] at this
    exact this
  · intro p hp
    exact h.2 (p.1, .fin p.2) (List.mem_map.2 ⟨p, hp, rfl⟩)

theorem normalizer_maps {n : Norm} (hn : n = .l1 ∨ n = .l2) {w : Nat} :
    Maps Regime.exact w w (normalizerTransform n : Arr Ex → Py (Arr Ex)) := by
  intro A B M hA hB
  obtain ⟨R, rfl⟩ := exists_fins hA.entries
  have key : ∀ A : Arr Ex, Shows .exact A w (R.map fins) → ∃ A', normalizerTransform n A = .ok A' ∧
      Shows .exact A' w ((R.map (unitBy (normOf n))).map fins) := by
    intro A h
    generalize hM : R.map fins = M at h
    cases h with
    | dense h1 h2 =>
      subst hM
      have hw : Rect w R := fun r hr => by
        have := (h2 (fins r) (List.mem_map.2 ⟨r, hr, rfl⟩)).1
        rwa [fins_length] at this
      refine ⟨_, C26_dense n hn w R (by simpa using h1) hw, .dense (by simpa using h1) fun r hr => ?_⟩
      obtain ⟨r', hr', rfl⟩ := List.mem_map.1 hr
      obtain ⟨x, hx, rfl⟩ := List.mem_map.1 hr'
      refine ⟨by rw [fins_length, unitBy_eq]; simp [hw x hx], fun y hy => ?_⟩
      obtain ⟨a, -, rfl⟩ := List.mem_map.1 hy
      exact ⟨a, rfl⟩
    | @sparse ds w dt h1 h2 =>
      obtain ⟨es, rfl⟩ := exists_finD fun d hd => (h2 d hd).2.2
      have hv : ∀ d ∈ es, ValidRow w d := fun d hd => finD_valid_iff (h2 _ (List.mem_map.2 ⟨d, hd, rfl⟩)).1
      obtain ⟨ds', e1, e2, e3⟩ := C26_sparse_agrees n hn w es (by simpa using h1) hv dt
      refine ⟨_, e1, ?_⟩
      have hR : R = es.map (dense 0 w) := by
        apply List.map_injective_iff.2 fins_injective
        rw [hM, List.map_map, List.map_map]
        apply List.map_congr_left
        intro d _
        exact dense_finD w d
      have : (R.map (unitBy (normOf n))).map fins = (ds'.map finD).map (dense (.fin 0) w) := by
        rw [hR, List.map_map (f := dense 0 w), show (es.map (unitBy (normOf n) ∘ dense 0 w)) = ds'.map (dense 0 w) from e3.symm,
          List.map_map, List.map_map]
        apply List.map_congr_left
        intro d _
        exact (dense_finD w d).symm
      rw [this]
      refine .sparse ?_ ?_
      · intro e
        have hl := congrArg List.length e3
        have : ds' = [] := by simpa using e
        subst this
        simp at hl
        exact h1 (by simpa using hl.symm)
      · intro d hd
        obtain ⟨d', hd', rfl⟩ := List.mem_map.1 hd
        exact finD_row (e2 d' hd')
  obtain ⟨A', h1, h2⟩ := key A hA
  obtain ⟨B', h3, h4⟩ := key B hB
  exact ⟨A', B', _, h1, h3, h2, h4, by simp⟩

/-! ### Predictors -/

theorem Linear.same (hg : g.Holds fp) {C : Type} {m : Linear (XR fp) C} {w : Nat}
    (h : ∀ b ∈ m.coef, b.length = w ∧ ∀ x ∈ b, ∃ r, x = .fin r) {A : Arr (XR fp)} {M : List (List (XR fp))}
    (hA : Shows g A w M) : m.SameOutputs A (.ofMat M) := by
  cases hA with
  | dense h1 h2 => exact Linear.sameOutputs_of_decision rfl
  | @sparse ds w dt h1 h2 =>
    refine Linear.sameOutputs_of_decision (Linear.sparse_dense_of_dot (fun b hb => (h b hb).1) h1 dt fun d hd b hb => ?_)
    obtain ⟨hv, ho, he⟩ := h2 d hd
    cases g with
    | rounded => exact dotDict_eq_dotList_rounded hg.sound hv ho (h b hb).1 (h b hb).2
    | exact =>
      obtain rfl : fp = FP.exact := hg
      obtain ⟨ds', hds⟩ := exists_finD (ds := [d]) fun d' hd' => by
        obtain rfl := List.mem_singleton.1 hd'
        exact he
      obtain ⟨B, hB⟩ := exists_fins (M := [b]) fun b' hb' => by
        rw [List.mem_singleton.1 hb']
        exact (h b hb).2
      obtain ⟨d', rfl⟩ : ∃ d', d = finD d' := by
        cases ds' with
        | nil => cases hds
        | cons d' l => exact ⟨d', by simpa using (List.cons.inj hds).1⟩
      obtain ⟨b', rfl⟩ : ∃ b', b = fins b' := by
        cases B with
        | nil => cases hB
        | cons b' l => exact ⟨b', by simpa using (List.cons.inj hB).1⟩
      exact dotDict_exact (finD_valid_iff hv) (by have := (h _ hb).1; rwa [fins_length] at this)

theorem Tree.same (hg : g.Holds fp) {C : Type} {t : Tree (XR fp) C} {w : Nat} (h : TestsBelow t w) {A : Arr (XR fp)}
    {M : List (List (XR fp))} (hA : Shows g A w M) :
    t.predict A = t.predict (.ofMat M) ∧ t.predictProba A = t.predictProba (.ofMat M) ∧
      t.predictLogProba A = t.predictLogProba (.ofMat M) ∧ t.predictReg A = t.predictReg (.ofMat M) := by
  cases hA with
  | dense h1 h2 => exact ⟨rfl, rfl, rfl, rfl⟩
  | @sparse ds w dt h1 h2 =>
    obtain ⟨D, hD, e⟩ := C11_tree_sparse_dense_agree t w h ds h1 .float rfl
    have hz : castTo .float (ofInt 0 : XR fp) = .ok (.fin 0) := by rw [XR.ofInt_zero hg.sound]; rfl
    rw [todense_sparse hz] at hD
    cases hD
    exact e

theorem Dummy.same {d : Dummy (XR fp)} {A : Arr (XR fp)} {w : Nat} {M : List (List (XR fp))} (hA : Shows g A w M) :
    d.predict A = d.predict (.ofMat M) ∧ d.predictProba A = d.predictProba (.ofMat M) ∧
      d.predictLogProba A = d.predictLogProba (.ofMat M) := by
  have h1 := hA.check.2
  have h2 : (Arr.ofMat M).len = .ok M.length := len_ofMat _
  simp only [Dummy.predict, Dummy.predictProba, Dummy.predictLogProba, h1, h2, and_self]

/-! ### Vectorizers and encoders -/

theorem dense_of_todense {ds : List (Dict Int Ex)} {w : Nat} {dt : DType} (h : Shows .exact (.sparse ds (some w) dt) w
    (ds.map (dense (.fin 0) w))) :
    todense (.sparse ds (some w) dt) = .ok (.ofMat (ds.map (dense (.fin 0) w))) ∧
      Shows .exact (.ofMat (ds.map (dense (.fin 0) w))) w (ds.map (dense (.fin 0) w)) := by
  refine ⟨todense_sparse (castTo_zero_exact dt), .dense h.rect.1 fun r hr => ⟨h.rect.2 r hr, h.entries r hr⟩⟩

theorem castTo_fin {dt : DType} {x y : Ex} (hx : ∃ r, x = .fin r) (h : castTo dt x = .ok y) : ∃ r, y = .fin r := by
  obtain ⟨r, rfl⟩ := hx
  cases dt with
  | int =>
    simp only [castTo] at h
    cases h
    exact ⟨_, rfl⟩
  | float => cases h; exact ⟨r, rfl⟩
  | bool =>
    simp only [castTo] at h
    cases h
    unfold ofBool
    split
    · exact ⟨1, XR.ofInt_exact 1 ▸ by simp⟩
    · exact ⟨0, XR.ofInt_exact 0 ▸ by simp⟩

end PurePredict
