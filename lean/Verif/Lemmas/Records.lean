import Verif.Lemmas.Basic
import Verif.Lemmas.Linear
import Verif.Model.Object
/-
Every transformer keeps the number of records; every classifier answers once per record.
-/
namespace PurePredict
variable {F C : Type} [Arith F]

theorem arr_len_iff {G : Type} {X : Arr G} {n : Nat} : X.len = .ok n ↔ ∃ rs, X.rows = .ok rs ∧ rs.length = n := by
  unfold Arr.len
  rw [bind_ok_iff]
  constructor
  · rintro ⟨rs, h, h'⟩; cases h'; exact ⟨rs, h, rfl⟩
  · rintro ⟨rs, h, rfl⟩; exact ⟨rs, h, rfl⟩

theorem len_rows {G : Type} {X : Arr G} {n : Nat} {rs : List (Row G)} (h : X.len = .ok n) (hr : X.rows = .ok rs) :
    rs.length = n := by
  obtain ⟨rs', h', hl⟩ := arr_len_iff.1 h
  rw [hr] at h'; cases h'; exact hl

theorem rows_mapM_length {G H : Type} {X : Arr G} {n : Nat} (h : X.len = .ok n) {g : Row G → Py H} {ys : List H}
    (hy : (X.rows >>= fun rs => rs.mapM g) = .ok ys) : ys.length = n := by
  obtain ⟨rs, hr, hy⟩ := bind_ok_iff.1 hy
  rw [mapM_length hy, len_rows h hr]

@[simp] theorem len_list {G : Type} (rs : List (Row G)) : (Arr.list rs).len = .ok rs.length := rfl
@[simp] theorem len_sparse {G : Type} (rs : List (Dict Int G)) (s dt) : (Arr.sparse rs s dt).len = .ok rs.length := by
  simp [Arr.len, Arr.rows]

theorem checkArray_len {G : Type} {X Y : Arr G} {h : HandleSparse} {n : Nat} (hn : n ≠ 0) (hl : X.len = .ok n)
    (hc : checkArray X h = .ok Y) : Y = X := by
  unfold checkArray at hc
  cases X with
  | list rs =>
    rw [len_list] at hl
    cases hl
    simp only [if_neg hn] at hc
    cases hc; rfl
  | sparse rs s dt => cases h <;> cases hc <;> rfl
  | errObj => cases hc
  | other => cases hc

theorem asDicts_length {rs : List (Row F)} {ds : List (Dict Int F)} (h : asDicts rs = .ok ds) : ds.length = rs.length :=
  mapM_length h

theorem sparseList_len {A Y : Arr F} {s dt} {n : Nat} (hl : A.len = .ok n) (h : sparseList A s dt = .ok Y) :
    Y.len = .ok n := by
  unfold sparseList at h
  obtain ⟨r, hr, h⟩ := bind_ok_iff.1 h
  have hn : n ≠ 0 := by
    rintro rfl
    obtain ⟨rs, h1, h2⟩ := arr_len_iff.1 hl
    rw [List.length_eq_zero_iff] at h2
    subst h2
    rw [Arr.first, h1] at hr
    cases hr
  have key : ∀ A', checkArray A .error = .ok A' → A' = A := fun A' h => checkArray_len hn hl h
  cases r with
  | dict d =>
    obtain ⟨rs, h1, h⟩ := bind_ok_iff.1 h
    obtain ⟨ds, h2, h⟩ := bind_ok_iff.1 h
    cases h
    rw [len_sparse, asDicts_length h2, len_rows hl h1]
  | list xs =>
    obtain ⟨A', h1, h⟩ := bind_ok_iff.1 h
    cases key _ h1
    obtain ⟨w, h2, h⟩ := bind_ok_iff.1 h
    cases w with
    | none => cases h
    | some w =>
    simp only [py_pure, py_ok_bind] at h
    obtain ⟨r, h4, h⟩ := bind_ok_iff.1 h
    obtain ⟨x, h5, h⟩ := bind_ok_iff.1 h
    obtain ⟨rs, h6, h⟩ := bind_ok_iff.1 h
    obtain ⟨ds, h7, h⟩ := bind_ok_iff.1 h
    cases h
    rw [len_sparse, mapM_length h7, len_rows hl h6]
  | scalar x =>
    obtain ⟨A', h1, h⟩ := bind_ok_iff.1 h
    cases key _ h1
    obtain ⟨w, h2, h⟩ := bind_ok_iff.1 h
    cases w with
    | none => cases h
    | some w =>
    simp only [py_pure, py_ok_bind] at h
    obtain ⟨r, h4, h⟩ := bind_ok_iff.1 h
    obtain ⟨x, h5, h⟩ := bind_ok_iff.1 h
    obtain ⟨rs, h6, h⟩ := bind_ok_iff.1 h
    obtain ⟨ds, h7, h⟩ := bind_ok_iff.1 h
    cases h
    rw [len_sparse, mapM_length h7, len_rows hl h6]

theorem sparseList_dicts_len {ds : List (Dict Int F)} {Y : Arr F} {s dt}
    (h : sparseList (.list (ds.map Row.dict)) s dt = .ok Y) : Y.len = .ok ds.length :=
  sparseList_len (by simp) h

theorem todense_len {A Y : Arr F} {n : Nat} (hl : A.len = .ok n) (h : todense A = .ok Y) : Y.len = .ok n := by
  cases A with
  | sparse rs s dt =>
    rw [len_sparse] at hl
    cases hl
    unfold todense at h
    obtain ⟨z, -, h⟩ := bind_ok_iff.1 h
    cases s with
    | none =>
      cases rs with
      | nil => cases h; rfl
      | cons => cases h
    | some m =>
      cases h
      simp
  | _ => cases h

theorem apply2d_length {G : Type} {A : Arr F} {f : F → Py G} {M : List (List G)} {n : Nat} (hl : A.len = .ok n)
    (h : apply2d A f = .ok M) : M.length = n := by
  unfold apply2d at h
  split at h
  · cases h
  · exact rows_mapM_length hl h

theorem applyAxis2d_length {G : Type} {A : Arr F} {f : List F → Py G} {M : List G} {n : Nat} (hl : A.len = .ok n)
    (h : applyAxis2d A f = .ok M) : M.length = n := by
  unfold applyAxis2d at h
  simp only [show ((1 : Int) == 0) = false from rfl, Bool.and_false, Bool.false_eq_true, if_false, beq_self_eq_true,
    if_true] at h
  cases A with
  | sparse rs s dt =>
    rw [len_sparse] at hl; cases hl
    exact mapM_length h
  | list rs => exact rows_mapM_length hl h
  | errObj => cases hl
  | other => cases hl

theorem ravel_length {M : List (List F)} {s : List F} (h : ravel (.ofMat M) = .ok s) : s.length = M.length := by
  unfold ravel at h
  simp only [issparse_ofMat, Bool.false_eq_true, if_false] at h
  obtain ⟨T, hT, h⟩ := bind_ok_iff.1 h
  unfold transpose at hT
  simp only [issparse_ofMat, Bool.false_eq_true, if_false, rows_ofMat, py_ok_bind] at hT
  obtain ⟨rs, hr, hT⟩ := bind_ok_iff.1 hT
  cases hT
  have : rs.length = M.length := by rw [mapM_length hr]; simp
  rw [← this]
  exact zipStar_rect rs s (pyGet_ok_mem h)

theorem transpose_length {M T : List (List F)} {n : Nat} (hM : M ≠ []) (hr : ∀ r ∈ M, r.length = n)
    (h : transpose (.ofMat M) = .ok T) : T.length = n := by
  unfold transpose at h
  simp only [issparse_ofMat, Bool.false_eq_true, if_false, rows_ofMat, py_ok_bind] at h
  rw [mapM_map', show (fun a : List F => (Row.list a).iter) = fun a => .ok a from rfl, mapM_ok_fun, List.map_id'] at h
  cases h
  exact zipStar_length hM hr

theorem shape_ofMat_len {M : List (List F)} {s : Shape} (h : (Arr.ofMat M).shape = .ok s) :
    ∃ w, s = .d2 M.length (some w) := by
  cases M with
  | nil => cases h
  | cons r M => rw [shape_ofMat_cons] at h; cases h; exact ⟨_, rfl⟩

theorem operate2d_length {A B R : List (List F)} {f : F → F → F} (h : operate2d (.ofMat A) (.ofMat B) f = .ok R) :
    R.length = A.length ∧ R.length = B.length := by
  unfold operate2d at h
  simp only [issparse_ofMat, Bool.or_self, Bool.false_eq_true, if_false] at h
  obtain ⟨sa, ha, h⟩ := bind_ok_iff.1 h
  obtain ⟨sb, hb, h⟩ := bind_ok_iff.1 h
  obtain ⟨wa, rfl⟩ := shape_ofMat_len ha
  obtain ⟨wb, rfl⟩ := shape_ofMat_len hb
  split at h
  · cases h
  · rename_i hne
    simp only [bne_iff_ne, ne_eq, Shape.d2.injEq, not_not] at hne
    simp only [rows_ofMat, py_ok_bind] at h
    have := mapM_length h
    simp only [List.length_zip, List.length_map, hne.1, Nat.min_self] at this
    rw [this, hne.1]; exact ⟨rfl, rfl⟩

/-! ### Classifiers -/

theorem decision_length {m : Linear F C} {X : Arr F} {n : Nat} (hn : n ≠ 0) (hl : X.len = .ok n) {s : Scores F}
    (h : m.decisionFunction X = .ok s) : (∀ v, s = .flat v → v.length = n) ∧ ∀ M, s = .mat M → M.length = n := by
  unfold Linear.decisionFunction at h
  obtain ⟨Y, hY, h⟩ := bind_ok_iff.1 h
  cases checkArray_len hn hl hY
  obtain ⟨-, -, h⟩ := bind_ok_iff.1 h
  obtain ⟨rs, hr, h⟩ := bind_ok_iff.1 h
  obtain ⟨M, hM, h⟩ := bind_ok_iff.1 h
  have hlen : M.length = n := by rw [mapM_length hM, len_rows hl hr]
  obtain ⟨w, hw, h⟩ := bind_ok_iff.1 h
  split at h
  · obtain ⟨v, hv, h⟩ := bind_ok_iff.1 h
    cases h
    refine ⟨fun _ e => ?_, fun _ e => ?_⟩
    · cases e; rw [ravel_length hv, hlen]
    · cases e
  · cases h
    refine ⟨fun _ e => ?_, fun _ e => ?_⟩
    · cases e
    · cases e; exact hlen

theorem linear_predict_length {m : Linear F C} {X : Arr F} {n : Nat} (hn : n ≠ 0) (hl : X.len = .ok n) {ls : List C}
    (h : m.predict X = .ok ls) : ls.length = n ∧ ∀ c ∈ ls, c ∈ m.classes := by
  unfold Linear.predict at h
  obtain ⟨s, hs, h⟩ := bind_ok_iff.1 h
  obtain ⟨h1, h2⟩ := decision_length hn hl hs
  cases s with
  | flat v =>
    refine ⟨by rw [mapM_length h, h1 v rfl], fun c hc => ?_⟩
    obtain ⟨x, -, hx⟩ := mapM_mem h hc
    exact pyGet_ok_mem hx
  | mat M =>
    refine ⟨by rw [mapM_length h, h2 M rfl], fun c hc => ?_⟩
    obtain ⟨x, -, hx⟩ := mapM_mem h hc
    obtain ⟨i, -, hx⟩ := bind_ok_iff.1 hx
    exact pyGet_ok_mem hx

theorem probaLr_length {m : Linear F C} {X : Arr F} {n : Nat} (hn : n ≠ 0) (hl : X.len = .ok n) {P : List (List F)}
    (h : m.predictProbaLr X = .ok P) : P.length = n := by
  unfold Linear.predictProbaLr at h
  obtain ⟨s, hs, h⟩ := bind_ok_iff.1 h
  obtain ⟨h1, h2⟩ := decision_length hn hl hs
  cases s with
  | flat v => rw [mapM_length h, h1 v rfl]
  | mat M =>
    obtain ⟨Q, hQ, h⟩ := bind_ok_iff.1 h
    rw [mapM_length h, mapM_length hQ, h2 M rfl]

theorem logistic_proba_length {m : Linear F C} {X : Arr F} {n : Nat} (hn : n ≠ 0) (hl : X.len = .ok n)
    {P : List (List F)} (h : m.predictProba X = .ok P) : P.length = n := by
  unfold Linear.predictProba at h
  obtain ⟨b, -, h⟩ := bind_ok_iff.1 h
  split at h
  · exact probaLr_length hn hl h
  · obtain ⟨s, hs, h⟩ := bind_ok_iff.1 h
    obtain ⟨h1, h2⟩ := decision_length hn hl hs
    cases s with
    | flat v => rw [mapM_length h, h1 v rfl]
    | mat M => rw [mapM_length h, h2 M rfl]

theorem sgd_proba_length {m : Linear F C} {X : Arr F} {n : Nat} (hn : n ≠ 0) (hl : X.len = .ok n)
    {P : List (List F)} (h : m.sgdPredictProba X = .ok P) : P.length = n := by
  unfold Linear.sgdPredictProba Linear.sgdPredictProba_ at h
  obtain ⟨-, -, h⟩ := bind_ok_iff.1 h
  obtain ⟨l, -, h⟩ := bind_ok_iff.1 h
  split at h
  · exact probaLr_length hn hl h
  · cases h

theorem tree_leaves {t : Tree F C} {X : Arr F} {n : Nat} (hn : n ≠ 0) (hl : X.len = .ok n) {β : Type} {g : List Int → Py β}
    {b : β} (h : (do let X ← checkArray X .allow
                     let leaves ← (← X.rows).mapM t.getLeafNode
                     g leaves : Py β) = .ok b) : ∃ leaves, leaves.length = n ∧ g leaves = .ok b := by
  obtain ⟨Y, hY, h⟩ := bind_ok_iff.1 h
  cases checkArray_len hn hl hY
  obtain ⟨rs, hr, h⟩ := bind_ok_iff.1 h
  obtain ⟨ls, hls, h⟩ := bind_ok_iff.1 h
  exact ⟨ls, by rw [mapM_length hls, len_rows hl hr], h⟩

theorem tree_predict_length {t : Tree F C} {X : Arr F} {n : Nat} (hn : n ≠ 0) (hl : X.len = .ok n) {ls : List C}
    (h : t.predict X = .ok ls) : ls.length = n ∧ ∀ c ∈ ls, c ∈ t.classes := by
  obtain ⟨leaves, hlen, h⟩ := tree_leaves hn hl (g := fun leaves => do
    let preds ← leaves.mapM t.predFromLeaf
    preds.mapM fun (p : Nat) => pyGet t.classes (p : Int)) h
  obtain ⟨ps, hp, h⟩ := bind_ok_iff.1 h
  refine ⟨by rw [mapM_length h, mapM_length hp, hlen], fun c hc => ?_⟩
  obtain ⟨x, -, hx⟩ := mapM_mem h hc
  exact pyGet_ok_mem hx

theorem tree_proba_length {t : Tree F C} {X : Arr F} {n : Nat} (hn : n ≠ 0) (hl : X.len = .ok n) {P : List (List F)}
    (h : t.predictProba X = .ok P) : P.length = n := by
  obtain ⟨leaves, hlen, h⟩ := tree_leaves hn hl (g := fun leaves => leaves.mapM t.probaFromLeaf) h
  rw [mapM_length h, hlen]

theorem tree_reg_length {t : Tree F C} {X : Arr F} {n : Nat} (hn : n ≠ 0) (hl : X.len = .ok n) {ys : List F}
    (h : t.predictReg X = .ok ys) : ys.length = n := by
  obtain ⟨leaves, hlen, h⟩ := tree_leaves hn hl (g := fun leaves => leaves.mapM fun nd => do pyGet (← pyGet t.value nd) 0) h
  rw [mapM_length h, hlen]

/-- one joint log likelihood row per record -/
def JllLen (jll : Arr F → Py (List (List F))) : Prop :=
  ∀ X n M, n ≠ 0 → X.len = .ok n → jll X = .ok M → M.length = n

theorem gaussian_jllLen (m : GaussianNB F C) (hc : m.classes ≠ []) : JllLen m.jll := by
  intro X n M hn hl h
  unfold GaussianNB.jll at h
  obtain ⟨cols, hcols, h⟩ := bind_ok_iff.1 h
  have hlen := mapM_length hcols
  refine transpose_length ?_ (fun col hcol => ?_) h
  · rintro rfl
    simp only [List.length_nil, List.length_range] at hlen
    exact hc (List.length_eq_zero_iff.1 hlen.symm)
  · obtain ⟨i, -, hi⟩ := mapM_mem hcols hcol
    obtain ⟨rs, hr, hi⟩ := bind_ok_iff.1 hi
    unfold GaussianNB.column at hi
    obtain ⟨_, -, hi⟩ := bind_ok_iff.1 hi
    obtain ⟨_, -, hi⟩ := bind_ok_iff.1 hi
    obtain ⟨_, -, hi⟩ := bind_ok_iff.1 hi
    obtain ⟨_, -, hi⟩ := bind_ok_iff.1 hi
    obtain ⟨J, hJ, hi⟩ := bind_ok_iff.1 hi
    cases hi
    simp only [List.length_map]
    rw [mapM_length hJ, len_rows hl hr]

theorem multinomial_jllLen (m : DiscreteNB F C) : JllLen m.jllMultinomial := by
  intro X n M _ hl h
  exact rows_mapM_length hl h

theorem complement_jllLen (m : DiscreteNB F C) : JllLen m.jllComplement := by
  intro X n M _ hl h
  unfold DiscreteNB.jllComplement at h
  obtain ⟨rs, hr, h⟩ := bind_ok_iff.1 h
  obtain ⟨J, hJ, h⟩ := bind_ok_iff.1 h
  have hJ' : J.length = n := by rw [mapM_length hJ, len_rows hl hr]
  split at h
  · rw [mapM_length h, hJ']
  · cases h; exact hJ'

theorem nb_predict_length {jll : Arr F → Py (List (List F))} (hj : JllLen jll) {cs : List C} {X : Arr F} {n : Nat}
    (hn : n ≠ 0) (hl : X.len = .ok n) {ls : List C} (h : nbPredict jll cs X = .ok ls) :
    ls.length = n ∧ ∀ c ∈ ls, c ∈ cs := by
  unfold nbPredict at h
  obtain ⟨Y, hY, h⟩ := bind_ok_iff.1 h
  cases checkArray_len hn hl hY
  obtain ⟨J, hJ, h⟩ := bind_ok_iff.1 h
  refine ⟨by rw [mapM_length h, hj _ _ _ hn hl hJ], fun c hc => ?_⟩
  obtain ⟨x, -, hx⟩ := mapM_mem h hc
  obtain ⟨i, -, hx⟩ := bind_ok_iff.1 hx
  exact pyGet_ok_mem hx

theorem nb_log_length {jll : Arr F → Py (List (List F))} (hj : JllLen jll) {X : Arr F} {n : Nat}
    (hn : n ≠ 0) (hl : X.len = .ok n) {P : List (List F)} (h : nbPredictLogProba jll X = .ok P) : P.length = n := by
  unfold nbPredictLogProba at h
  obtain ⟨Y, hY, h⟩ := bind_ok_iff.1 h
  cases checkArray_len hn hl hY
  obtain ⟨J, hJ, h⟩ := bind_ok_iff.1 h
  rw [mapM_length h, hj _ _ _ hn hl hJ]

theorem nb_proba_length {jll : Arr F → Py (List (List F))} (hj : JllLen jll) {X : Arr F} {n : Nat}
    (hn : n ≠ 0) (hl : X.len = .ok n) {P : List (List F)} (h : nbPredictProba jll X = .ok P) : P.length = n := by
  unfold nbPredictProba at h
  obtain ⟨L, hL, h⟩ := bind_ok_iff.1 h
  rw [mapM_length h, nb_log_length hj hn hl hL]

theorem dummy_predict_length {d : Dummy F} {X : Arr F} {n : Nat} (hl : X.len = .ok n) {ls : List Nat}
    (h : d.predict X = .ok ls) : ls.length = n := by
  unfold Dummy.predict at h
  obtain ⟨i, -, h⟩ := bind_ok_iff.1 h
  rw [hl, py_ok_bind] at h
  cases h; simp

theorem dummy_proba_length {d : Dummy F} {X : Arr F} {n : Nat} (hl : X.len = .ok n) {P : List (List F)}
    (h : d.predictProba X = .ok P) : P.length = n := by
  unfold Dummy.predictProba at h
  rw [hl, py_ok_bind] at h
  cases h; simp

theorem apply2d_bind_length {x : Py (List (List F))} {f : F → Py F} {n : Nat} (hx : ∀ P, x = .ok P → P.length = n)
    {L : List (List F)} (h : (x >>= fun P => apply2d (.ofMat P) f) = .ok L) : L.length = n := by
  obtain ⟨P, hP, h⟩ := bind_ok_iff.1 h
  exact apply2d_length (by rw [len_ofMat, hx P hP]) h

theorem mapM_bind_length {α : Type} {x : Py (List α)} {β : Type} {g : α → Py β} {n : Nat} (hx : ∀ P, x = .ok P → P.length = n)
    {L : List β} (h : (x >>= fun P => P.mapM g) = .ok L) : L.length = n := by
  obtain ⟨P, hP, h⟩ := bind_ok_iff.1 h
  rw [mapM_length h, hx P hP]

/-! ### Boosters -/

theorem addTrees_length {X : Arr F} {n : Nat} (hn : n ≠ 0) (hl : X.len = .ok n) (ts : List (Tree F C)) {acc ys : List F}
    (ha : acc.length = n) (h : ts.foldlM (Xgb.addTree X) acc = .ok ys) : ys.length = n := by
  induction ts generalizing acc with
  | nil => cases h; exact ha
  | cons t ts ih =>
    rw [List.foldlM_cons] at h
    obtain ⟨acc', h1, h⟩ := bind_ok_iff.1 h
    refine ih ?_ h
    obtain ⟨r, hr, h1⟩ := bind_ok_iff.1 h1
    cases h1
    rw [List.length_zipWith, ha, tree_reg_length hn hl hr, Nat.min_self]

theorem xgb_proba_length {m : Xgb F C} {X : Arr F} {n : Nat} (hn : n ≠ 0) (hl : X.len = .ok n) {P : List (List F)}
    (h : m.predictProba X = .ok P) : P.length = n := by
  unfold Xgb.predictProba at h
  obtain ⟨Y, hY, h⟩ := bind_ok_iff.1 h
  cases checkArray_len hn hl hY
  cases hob : m.objective with
  | multiSoftprob =>
    rw [hob] at h
    obtain ⟨preds, -, h⟩ := bind_ok_iff.1 h
    rw [hl, py_ok_bind] at h
    rw [mapM_length h, List.length_range]
  | binaryLogistic =>
    rw [hob] at h
    obtain ⟨preds, hp, h⟩ := bind_ok_iff.1 h
    obtain ⟨out, ho, h⟩ := bind_ok_iff.1 h
    cases h
    rw [List.length_map, mapM_length ho]
    unfold Xgb.predictBinary at hp
    rw [hl, py_ok_bind] at hp
    split at hp
    · exact addTrees_length hn hl _ (by simp) hp
    · split at hp
      · cases hp; simp
      · cases hp

theorem xgb_predict_length {m : Xgb F C} {X : Arr F} {n : Nat} (hn : n ≠ 0) (hl : X.len = .ok n) {ls : List C}
    (h : m.predict X = .ok ls) : ls.length = n ∧ ∀ c ∈ ls, c ∈ m.classes := by
  unfold Xgb.predict at h
  obtain ⟨P, hP, h⟩ := bind_ok_iff.1 h
  refine ⟨by rw [mapM_length h, xgb_proba_length hn hl hP], fun c hc => ?_⟩
  obtain ⟨a, -, ha⟩ := mapM_mem h hc
  obtain ⟨i, -, ha⟩ := bind_ok_iff.1 ha
  exact pyGet_ok_mem ha

/-! ### Ensembles -/

/-- `predict_proba` gives one row per record -/
def ProbaLen (p : Arr F → Py (List (List F))) : Prop := ∀ X n P, n ≠ 0 → X.len = .ok n → p X = .ok P → P.length = n

theorem featSlice_len {X Y : Arr F} {n : Nat} (hl : X.len = .ok n) {fs : Option (List Int)} (h : featSlice X fs = .ok Y) :
    Y.len = .ok n := by
  cases fs with
  | none => cases h; exact hl
  | some fs =>
    unfold featSlice at h
    obtain ⟨rs, hr, h⟩ := bind_ok_iff.1 h
    obtain ⟨M, hM, h⟩ := bind_ok_iff.1 h
    cases h
    rw [len_ofMat, mapM_length hM, len_rows hl hr]

theorem member_length {b : Bagging F C} (hb : ∀ e ∈ b.estimators, ProbaLen e.predictProba) {X : Arr F} {n : Nat}
    (hn : n ≠ 0) (hl : X.len = .ok n) {i : Nat} {P : List (List F)} (h : b.memberProba X i = .ok P) : P.length = n := by
  unfold Bagging.memberProba at h
  obtain ⟨e, he, h⟩ := bind_ok_iff.1 h
  obtain ⟨fs, -, h⟩ := bind_ok_iff.1 h
  obtain ⟨Y, hY, h⟩ := bind_ok_iff.1 h
  exact hb e (pyGet_ok_mem he) Y n P hn (featSlice_len hl hY) h

theorem accumulate_length {b : Bagging F C} {X : Arr F} {n : Nat} {is : List Nat} {P Q : List (List F)}
    (hP : P.length = n) (h : b.accumulate X is P = .ok Q) : Q.length = n := by
  induction is generalizing P with
  | nil => cases h; exact hP
  | cons i is ih =>
    rw [Bagging.accumulate] at h
    obtain ⟨p, -, h⟩ := bind_ok_iff.1 h
    obtain ⟨s, hs, h⟩ := bind_ok_iff.1 h
    exact ih (by rw [(operate2d_length hs).1, hP]) h

theorem bagging_proba_length {b : Bagging F C} (hb : ∀ e ∈ b.estimators, ProbaLen e.predictProba) :
    ProbaLen b.predictProba := by
  intro X n P hn hl h
  unfold Bagging.predictProba at h
  obtain ⟨p0, h0, h⟩ := bind_ok_iff.1 h
  obtain ⟨Q, hQ, h⟩ := bind_ok_iff.1 h
  exact apply2d_length (by rw [len_ofMat, accumulate_length (member_length hb hn hl h0) hQ]) h

theorem bagging_predict_length {b : Bagging F C} (hb : ∀ e ∈ b.estimators, ProbaLen e.predictProba) {X : Arr F} {n : Nat}
    (hn : n ≠ 0) (hl : X.len = .ok n) {ls : List C} (h : b.predict X = .ok ls) : ls.length = n ∧ ∀ c ∈ ls, c ∈ b.classes := by
  unfold Bagging.predict at h
  obtain ⟨P, hP, h⟩ := bind_ok_iff.1 h
  obtain ⟨am, ham, h⟩ := bind_ok_iff.1 h
  refine ⟨by rw [mapM_length h, mapM_length ham, bagging_proba_length hb _ _ _ hn hl hP], fun c hc => ?_⟩
  obtain ⟨x, -, hx⟩ := mapM_mem h hc
  exact pyGet_ok_mem hx

theorem initRaw_length {l : Loss} {P R : List (List F)} (h : l.initRaw P = .ok R) : R.length = P.length := by
  cases l with
  | multinomial k => exact apply2d_length (by rw [len_ofMat]) h
  | binomial => exact mapM_length h
  | exponential => exact mapM_length h

theorem twoColumns_length {R P : List (List F)} {g : F → Py F}
    (h : (do
      let proba1 ← (← ravel (.ofMat R)).mapM g
      transpose (.ofMat [proba1.map fun x => ofInt 1 -ₚ x, proba1]) : Py (List (List F))) = .ok P) : P.length = R.length := by
  obtain ⟨v, hv, h⟩ := bind_ok_iff.1 h
  obtain ⟨p, hp, h⟩ := bind_ok_iff.1 h
  have hpl : p.length = R.length := by rw [mapM_length hp, ravel_length hv]
  refine transpose_length (by simp) (fun r hr => ?_) h
  simp only [List.mem_cons, List.not_mem_nil, or_false] at hr
  rcases hr with rfl | rfl
  · rw [List.length_map, hpl]
  · exact hpl

theorem rawToProba_length {l : Loss} {R P : List (List F)} (h : l.rawToProba R = .ok P) : P.length = R.length := by
  cases l with
  | multinomial k =>
    unfold Loss.rawToProba at h
    obtain ⟨E, hE, h⟩ := bind_ok_iff.1 h
    obtain ⟨s, hs, h⟩ := bind_ok_iff.1 h
    obtain ⟨lse, hlse, h⟩ := bind_ok_iff.1 h
    have h1 := apply2d_length (n := R.length) (by rw [len_ofMat]) hE
    have h2 := applyAxis2d_length (n := R.length) (by rw [len_ofMat, h1]) hs
    rw [mapM_length h, List.length_zip, mapM_length hlse, h2, Nat.min_self]
  | binomial =>
    unfold Loss.rawToProba at h
    obtain ⟨w, -, h⟩ := bind_ok_iff.1 h
    split at h
    · exact twoColumns_length h
    · cases h
  | exponential =>
    unfold Loss.rawToProba at h
    obtain ⟨w, -, h⟩ := bind_ok_iff.1 h
    split at h
    · exact twoColumns_length h
    · cases h

theorem gb_proba_length {g : GB F C} (hi : ProbaLen g.initProba) : ProbaLen g.predictProba := by
  intro X n P hn hl h
  unfold GB.predictProba at h
  obtain ⟨R, hR, h⟩ := bind_ok_iff.1 h
  rw [rawToProba_length h]
  unfold GB.rawPredict at hR
  obtain ⟨I, hI, hR⟩ := bind_ok_iff.1 hR
  obtain ⟨_, -, hR⟩ := bind_ok_iff.1 hR
  obtain ⟨_, -, hR⟩ := bind_ok_iff.1 hR
  obtain ⟨_, -, hR⟩ := bind_ok_iff.1 hR
  rw [(operate2d_length hR).1]
  unfold GB.rawPredictInit at hI
  obtain ⟨Y, hY, hI⟩ := bind_ok_iff.1 hI
  cases checkArray_len hn hl hY
  obtain ⟨w, -, hI⟩ := bind_ok_iff.1 hI
  cases w with
  | none => cases hI
  | some w =>
    simp only at hI
    split at hI
    · cases hI
    · obtain ⟨P0, h0, hI⟩ := bind_ok_iff.1 hI
      rw [initRaw_length hI, hi _ _ _ hn hl h0]

theorem gb_predict_length {g : GB F C} (hi : ProbaLen g.initProba) {X : Arr F} {n : Nat} (hn : n ≠ 0)
    (hl : X.len = .ok n) {ls : List C} (h : g.predict X = .ok ls) : ls.length = n ∧ ∀ c ∈ ls, c ∈ g.classes := by
  unfold GB.predict at h
  obtain ⟨P, hP, h⟩ := bind_ok_iff.1 h
  refine ⟨by rw [mapM_length h, gb_proba_length hi _ _ _ hn hl hP], fun c hc => ?_⟩
  obtain ⟨x, -, hx⟩ := mapM_mem h hc
  obtain ⟨i, -, hx⟩ := bind_ok_iff.1 hx
  exact pyGet_ok_mem hx

/-! ### Transformers -/

/-- the transformer keeps the number of records -/
def KeepsLen (t : Arr F → Py (Arr F)) : Prop := ∀ X n Y, n ≠ 0 → X.len = .ok n → t X = .ok Y → Y.len = .ok n

theorem columnwise_length {p : List F} {f : F → F → Py F} {rs rs' : List (Row F)} (h : columnwise p f rs = .ok rs') :
    rs'.length = rs.length := mapM_length h

theorem scaleDicts_length {sc : Option (List F)} {rs rs' : List (Dict Int F)} (h : scaleDicts sc rs = .ok rs') :
    rs'.length = rs.length := mapM_length h

theorem standard_len (s : StandardScaler F) : KeepsLen s.transform := by
  intro X n Y hn hl h
  unfold StandardScaler.transform at h
  obtain ⟨Z, hZ, h⟩ := bind_ok_iff.1 h
  cases checkArray_len hn hl hZ
  cases X with
  | sparse rs sz dt =>
    rw [len_sparse] at hl; cases hl
    simp only at h
    split at h
    · cases h
    · cases hs : s.scale with
      | none => rw [hs] at h; cases h; rw [len_sparse]
      | some sc =>
        rw [hs] at h
        obtain ⟨ds, hd, h⟩ := bind_ok_iff.1 h
        rw [sparseList_dicts_len h, scaleDicts_length hd]
  | errObj => cases hl
  | other => cases hl
  | list rs =>
    cases hl
    simp only [Arr.rows, py_ok_bind] at h
    have h1 : ∀ rs', (if s.withStd then (do
        let p ← notNone s.scale
        columnwise p Arith.div rs') else pure rs') >>= (fun rs => pure (Arr.list rs)) = .ok Y →
        Y.len = .ok rs'.length := by
      intro rs' h
      obtain ⟨q, hq, h⟩ := bind_ok_iff.1 h
      cases h
      rw [len_list]
      split at hq
      · obtain ⟨p, -, hq⟩ := bind_ok_iff.1 hq
        rw [columnwise_length hq]
      · cases hq; rfl
    cases hm : s.withMean with
    | true =>
      simp only [hm, if_true] at h
      obtain ⟨p, -, h⟩ := bind_ok_iff.1 h
      obtain ⟨rs', hr, h⟩ := bind_ok_iff.1 h
      rw [← columnwise_length hr]
      refine h1 rs' ?_
      cases hs : s.withStd <;> simpa [hs] using h
    | false =>
      simp only [hm, Bool.false_eq_true, if_false, py_pure, py_ok_bind] at h
      refine h1 rs ?_
      cases hs : s.withStd <;> simpa [hs] using h

theorem minMax_len (s : MinMaxScaler F) : KeepsLen s.transform := by
  intro X n Y hn hl h
  unfold MinMaxScaler.transform at h
  split at h
  · cases h
  · obtain ⟨Z, hZ, h⟩ := bind_ok_iff.1 h
    cases checkArray_len hn hl hZ
    obtain ⟨rs, hr, h⟩ := bind_ok_iff.1 h
    obtain ⟨M, hM, h⟩ := bind_ok_iff.1 h
    cases h
    rw [len_ofMat, mapM_length hM, len_rows hl hr]

theorem maxAbs_len (s : MaxAbsScaler F) : KeepsLen s.transform := by
  intro X n Y hn hl h
  unfold MaxAbsScaler.transform at h
  obtain ⟨Z, hZ, h⟩ := bind_ok_iff.1 h
  cases checkArray_len hn hl hZ
  cases X with
  | sparse rs sz dt =>
    rw [len_sparse] at hl; cases hl
    obtain ⟨ds, hd, h⟩ := bind_ok_iff.1 h
    rw [sparseList_dicts_len h, scaleDicts_length hd]
  | errObj => cases hl
  | other => cases hl
  | list rs =>
    cases hl
    obtain ⟨sc, -, h⟩ := bind_ok_iff.1 h
    obtain ⟨rs', hr, h⟩ := bind_ok_iff.1 h
    cases hr
    obtain ⟨rs'', hr', h⟩ := bind_ok_iff.1 h
    cases h
    rw [len_list, columnwise_length hr']

theorem matmultSameDim_len {A B Y : Arr F} {n : Nat} (ha : A.len = .ok n) (hb : B.len = .ok n)
    (h : matmultSameDim A B = .ok Y) : Y.len = .ok n := by
  unfold matmultSameDim at h
  obtain ⟨sa, -, h⟩ := bind_ok_iff.1 h
  obtain ⟨sb, -, h⟩ := bind_ok_iff.1 h
  split at h
  · cases h
  split at h
  · cases h
  split at h
  · rw [len_sparse] at ha hb
    cases ha
    rw [sparseList_dicts_len h]
    injection hb with hb
    simp [hb]
  · split at h
    · cases h
    · cases h
    · obtain ⟨ra, h1, h⟩ := bind_ok_iff.1 h
      obtain ⟨rb, h2, h⟩ := bind_ok_iff.1 h
      obtain ⟨M, hM, h⟩ := bind_ok_iff.1 h
      cases h
      rw [len_ofMat, mapM_length hM, List.length_zip, len_rows ha h1, len_rows hb h2, Nat.min_self]

theorem rowNorms_length {X : Arr F} {n : Nat} (hl : X.len = .ok n) {v : List F} (h : rowNorms X = .ok v) : v.length = n := by
  unfold rowNorms at h
  obtain ⟨Y, hY, h⟩ := bind_ok_iff.1 h
  have hY' := matmultSameDim_len hl hl hY
  cases Y with
  | sparse rs s dt =>
    rw [len_sparse] at hY'; cases hY'
    simp only [py_pure, py_ok_bind] at h
    rw [mapM_length h, List.length_map]
  | errObj => cases hY'
  | other => cases hY'
  | list rs =>
    obtain ⟨u, hu, h⟩ := bind_ok_iff.1 h
    rw [mapM_length h, applyAxis2d_length hY' hu]

theorem handleZeros_length (v : List F) : (handleZeros v).length = v.length := by simp [handleZeros]

theorem denseNorms_length {nm : Norm} {X : Arr F} {n : Nat} (hl : X.len = .ok n) {v : List F}
    (h : denseNorms nm X = .ok v) : v.length = n := by
  cases nm with
  | l1 =>
    obtain ⟨A, hA, h⟩ := bind_ok_iff.1 h
    exact applyAxis2d_length (by rw [len_ofMat, apply2d_length hl hA]) h
  | l2 => exact rowNorms_length hl h
  | max => exact applyAxis2d_length hl h
  | bad => cases h

theorem sparseNorms_length {nm : Norm} {rs : List (Dict Int F)} {s dt} {v : List F}
    (h : sparseNorms nm (.sparse rs s dt) rs = .ok v) : v.length = rs.length := by
  cases nm with
  | l1 => cases h; simp
  | l2 => exact rowNorms_length (len_sparse _ _ _) h
  | max => exact mapM_length h
  | bad => cases h

theorem normalizeRows_len {X Y : Arr F} {nm : Norm} {n : Nat} (hl : X.len = .ok n) {v : List F}
    (h : normalizeRows X nm = .ok (Y, v)) : Y.len = .ok n := by
  unfold normalizeRows at h
  cases X with
  | sparse rs s dt =>
    rw [len_sparse] at hl; cases hl
    obtain ⟨u, hu, h⟩ := bind_ok_iff.1 h
    obtain ⟨rs', hr, h⟩ := bind_ok_iff.1 h
    obtain ⟨Z, hZ, h⟩ := bind_ok_iff.1 h
    cases h
    rw [sparseList_dicts_len hZ, mapM_length hr, List.length_zip, handleZeros_length, sparseNorms_length hu, Nat.min_self]
  | errObj => cases hl
  | other => cases hl
  | list rs =>
    cases hl
    obtain ⟨u, hu, h⟩ := bind_ok_iff.1 h
    obtain ⟨rs', hr, h⟩ := bind_ok_iff.1 h
    cases hr
    obtain ⟨Z, hZ, h⟩ := bind_ok_iff.1 h
    cases h
    rw [len_ofMat, mapM_length hZ, List.length_zip, handleZeros_length, denseNorms_length (len_list rs) hu, Nat.min_self]

theorem normalizePure_len (nm : Norm) : KeepsLen (fun X : Arr F => normalizePure X nm) := by
  intro X n Y hn hl h
  unfold normalizePure normalizePure' at h
  obtain ⟨⟨Y', v⟩, h', hY⟩ := bind_ok_iff.1 h
  cases hY
  clear h
  rename' h' => h
  simp only [show ((1 : Int) == 0) = false from rfl, Bool.false_and, Bool.false_eq_true, if_false, beq_self_eq_true,
    Bool.or_true, Bool.not_true, Bool.and_false] at h
  split at h
  · cases h
  · obtain ⟨Z, hZ, h⟩ := bind_ok_iff.1 h
    cases checkArray_len hn hl hZ
    simp only [py_pure, py_ok_bind] at h
    obtain ⟨⟨W, u⟩, hW, h⟩ := bind_ok_iff.1 h
    cases h
    exact normalizeRows_len hl hW

theorem normalizer_len (nm : Norm) : KeepsLen (normalizerTransform (F := F) nm) := by
  intro X n Y hn hl h
  unfold normalizerTransform at h
  obtain ⟨Z, hZ, h⟩ := bind_ok_iff.1 h
  cases checkArray_len hn hl hZ
  exact normalizePure_len nm _ _ _ hn hl h

theorem withRows_len {X Y : Arr F} {rs : List (Row F)} (h : X.withRows rs = .ok Y) : Y.len = .ok rs.length := by
  cases X with
  | sparse ds s dt =>
    obtain ⟨ds', hd, h⟩ := bind_ok_iff.1 h
    cases h
    rw [len_sparse, asDicts_length hd]
  | list _ => cases h; rfl
  | _ => cases h

theorem tfidf_len (t : Tfidf F) : KeepsLen (fun X => do return (← t.transform X).1) := by
  intro X n Y hn hl h
  obtain ⟨⟨Y', X'⟩, h', hY⟩ := bind_ok_iff.1 h
  cases hY
  clear h
  rename' h' => h
  unfold Tfidf.transform at h
  obtain ⟨Z, hZ, h⟩ := bind_ok_iff.1 h
  cases checkArray_len hn hl hZ
  obtain ⟨s, -, h⟩ := bind_ok_iff.1 h
  cases s with
  | d1 => cases h
  | d2 k w =>
    simp only at h
    split at h
    · cases h
    · have key : ∀ W : Arr F, W.len = .ok n → ((match t.norm with
          | none => .ok (W, W)
          | some nm => do
            let __do_lift ← normalizePure W nm
            .ok (__do_lift, W)) : Py (Arr F × Arr F)) = .ok (Y', X') → Y'.len = .ok n := by
        intro W hW h
        cases ht : t.norm with
        | none => rw [ht] at h; cases h; exact hW
        | some nm =>
          rw [ht] at h
          obtain ⟨V, hV, h⟩ := bind_ok_iff.1 h
          cases h
          exact normalizePure_len nm _ _ _ hn hW hV
      cases hu : t.useIdf with
      | false =>
        simp only [hu, Bool.false_eq_true, if_false, py_pure, py_ok_bind] at h
        exact key X hl h
      | true =>
        simp only [hu, if_true] at h
        split at h
        · cases h
        · obtain ⟨rs, hr, h⟩ := bind_ok_iff.1 h
          obtain ⟨rs', hr', h⟩ := bind_ok_iff.1 h
          obtain ⟨W, hW, h⟩ := bind_ok_iff.1 h
          refine key W ?_ h
          rw [withRows_len hW, mapM_length hr', len_rows hl hr]

theorem indicator_length {m : MissingIndicator F} {X : Arr F} {n : Nat} (hn : n ≠ 0) (hl : X.len = .ok n)
    {M : List (List F)} (h : m.transform X = .ok M) : M.length = n := by
  unfold MissingIndicator.transform at h
  obtain ⟨Z, hZ, h⟩ := bind_ok_iff.1 h
  cases checkArray_len hn hl hZ
  obtain ⟨w, -, h⟩ := bind_ok_iff.1 h
  split at h
  · cases h
  · obtain ⟨⟨mask, fs⟩, hi, h⟩ := bind_ok_iff.1 h
    have hm : mask.length = n := by
      unfold MissingIndicator.info at hi
      split at hi
      · cases hi
      · obtain ⟨rs, hr, hi⟩ := bind_ok_iff.1 hi
        obtain ⟨k, hk, hi⟩ := bind_ok_iff.1 hi
        have hk' : k.length = n := by rw [mapM_length hk, len_rows hl hr]
        split at hi
        · cases hi; exact hk'
        · obtain ⟨w, -, hi⟩ := bind_ok_iff.1 hi
          cases w with
          | none => cases hi
          | some w => cases hi; exact hk'
    simp only at h
    split at h
    · split at h
      · cases h
      · split at h
        · cases h; rw [List.length_map, hm]
        · cases h; rw [List.length_map, hm]
    · cases h; rw [List.length_map, hm]

theorem imputer_len (s : SimpleImputer F) : KeepsLen s.transform := by
  intro X n Y hn hl h
  unfold SimpleImputer.transform at h
  obtain ⟨Z, hZ, h⟩ := bind_ok_iff.1 h
  cases checkArray_len hn hl hZ
  obtain ⟨ind, -, h⟩ := bind_ok_iff.1 h
  obtain ⟨w, -, h⟩ := bind_ok_iff.1 h
  split at h
  · cases h
  split at h
  · cases h
  obtain ⟨rs, hr, h⟩ := bind_ok_iff.1 h
  obtain ⟨es, he, h⟩ := bind_ok_iff.1 h
  obtain ⟨im, hi, h⟩ := bind_ok_iff.1 h
  have h1 : im.length = n := by
    rw [mapM_length hi]
    have : es.length = n := by rw [mapM_length he, len_rows hl hr]
    repeat' split
    all_goals simp [this]
  split at h
  · cases h; rw [len_ofMat, h1]
  · cases ind with
    | none => cases h
    | some M =>
      obtain ⟨out, ho, h⟩ := bind_ok_iff.1 h
      cases h
      rw [len_ofMat, mapM_length ho, List.length_zipIdx, h1]

theorem fromkeysOne_len {X Y : Arr F} {n : Nat} (hl : X.len = .ok n) (h : fromkeysOne X = .ok Y) : Y.len = .ok n := by
  unfold fromkeysOne at h
  obtain ⟨rs, hr, h⟩ := bind_ok_iff.1 h
  obtain ⟨ds, hd, h⟩ := bind_ok_iff.1 h
  cases h
  rw [len_list, List.length_map, asDicts_length hd, len_rows hl hr]

theorem count_len {lib : TextLib} {v : CountVectorizer} {ds : List Str} {Y : Arr F}
    (h : v.transform lib (some ds) = .ok Y) : Y.len = .ok ds.length := by
  unfold CountVectorizer.transform at h
  obtain ⟨X, hX, h⟩ := bind_ok_iff.1 h
  have hX' : X.len = .ok ds.length := by
    unfold CountVectorizer.countVocab at hX
    obtain ⟨a, -, hX⟩ := bind_ok_iff.1 hX
    exact sparseList_len (by simp) hX
  split at h
  · exact fromkeysOne_len hX' h
  · cases h; exact hX'

theorem tfidfVec_len {lib : TextLib} {v : CountVectorizer} {t : Tfidf F} {ds : List Str} (hn : ds.length ≠ 0) {Y : Arr F}
    (h : tfidfVectorizerTransform lib v t (some ds) = .ok Y) : Y.len = .ok ds.length := by
  unfold tfidfVectorizerTransform at h
  obtain ⟨X, hX, h⟩ := bind_ok_iff.1 h
  exact tfidf_len t X _ Y hn (count_len hX) h

theorem hashing_len {lib : TextLib} {encode : Str → List Nat} {v : HashingVectorizer} {ds : List Str}
    (hn : ds.length ≠ 0) {Y : Arr F} (h : v.transform lib encode (some ds) = .ok Y) : Y.len = .ok ds.length := by
  unfold HashingVectorizer.transform at h
  obtain ⟨a, -, h⟩ := bind_ok_iff.1 h
  obtain ⟨k, -, h⟩ := bind_ok_iff.1 h
  obtain ⟨X, hX, h⟩ := bind_ok_iff.1 h
  have hX' : X.len = .ok ds.length := by
    unfold featureHasher hashingTransform at hX
    simp only at hX
    split at hX
    · cases hX
    · refine sparseList_len ?_ hX
      simp
  have key : ∀ W : Arr F, W.len = .ok ds.length → (match v.norm with
          | some nm => normalizePure W nm
          | none => pure W) = .ok Y → Y.len = .ok ds.length := by
    intro W hW h
    cases hv : v.norm with
    | none => rw [hv] at h; cases h; exact hW
    | some nm => rw [hv] at h; exact normalizePure_len nm _ _ _ hn hW h
  cases hb : v.binary with
  | false =>
    simp only [hb, Bool.false_eq_true, if_false, py_pure, py_ok_bind] at h
    exact key X hX' h
  | true =>
    simp only [hb, if_true] at h
    obtain ⟨W, hW, h⟩ := bind_ok_iff.1 h
    exact key W (fromkeysOne_len hX' hW) h

/-- the number of mappings -/
def DictInput.count : DictInput F → Nat
  | .one _ => 1
  | .many xs => xs.length

theorem dictVec_len {v : DictVectorizer} {X : DictInput F} {Y : Arr F} (h : v.transform X = .ok Y) :
    Y.len = .ok X.count := by
  unfold DictVectorizer.transform at h
  obtain ⟨data, hd, h⟩ := bind_ok_iff.1 h
  obtain ⟨R, hR, h⟩ := bind_ok_iff.1 h
  have h1 : R.len = .ok X.count := by
    rw [sparseList_dicts_len hR, mapM_length hd]
    cases X <;> rfl
  split at h
  · exact todense_len h1 h
  · cases h; exact h1

theorem setColumn_length {α : Type} {M R : List (List α)} {i w n : Nat} {col : List α} (h : setColumn M i w n col = .ok R) :
    R.length = n := by
  unfold setColumn at h
  rw [mapM_length h, List.length_range]

theorem transformLoop_length {D : Type} [DecidableEq D] {e : Encoder D} {u : Bool} {cols : List (List D)} {n w : Nat} {is : List Nat}
    {xi : List (List Nat)} {xm : List (List Bool)} {r} (hi : xi.length = n)
    (h : e.transformLoop u cols n w is xi xm = .ok r) : r.1.length = n := by
  induction is generalizing xi xm with
  | nil => cases h; exact hi
  | cons i is ih =>
    rw [Encoder.transformLoop] at h
    obtain ⟨Xi, -, h⟩ := bind_ok_iff.1 h
    obtain ⟨cats, -, h⟩ := bind_ok_iff.1 h
    have key : ∀ (Y : List D) (xm' : List (List Bool)), (do
        let encoded ← encodeValues Y cats
        let xInt ← setColumn xi i w n encoded
        e.transformLoop u cols n w is xInt xm') = .ok r → r.1.length = n := by
      intro Y xm' h
      obtain ⟨en, -, h⟩ := bind_ok_iff.1 h
      obtain ⟨x', hx, h⟩ := bind_ok_iff.1 h
      exact ih (setColumn_length hx) h
    simp only at h
    split at h
    · exact key _ _ h
    · split at h
      · cases h
      · obtain ⟨a, -, h⟩ := bind_ok_iff.1 h
        obtain ⟨b, -, h⟩ := bind_ok_iff.1 h
        exact key _ _ h

theorem shape_len {G : Type} {X : Arr G} {n k : Nat} {w : Option Nat} (hl : X.len = .ok n) (h : X.shape = .ok (.d2 k w)) :
    k = n := by
  unfold Arr.shape at h
  obtain ⟨d, -, h⟩ := bind_ok_iff.1 h
  split at h
  · obtain ⟨_, -, h⟩ := bind_ok_iff.1 h
    cases h
  · cases X with
    | sparse rs s dt => rw [len_sparse] at hl; cases hl; cases h; rfl
    | list rs =>
      obtain ⟨a, ha, h⟩ := bind_ok_iff.1 h
      obtain ⟨r, -, h⟩ := bind_ok_iff.1 h
      obtain ⟨b, -, h⟩ := bind_ok_iff.1 h
      rw [hl] at ha
      cases ha; cases h; rfl
    | errObj => cases hl
    | other => cases hl

theorem transform__length {D : Type} [DecidableEq D] {e : Encoder D} {X : Arr D} {u : Bool} {n : Nat} (hn : n ≠ 0) (hl : X.len = .ok n) {r}
    (h : e.transform_ X u = .ok r) : r.1.length = n := by
  unfold Encoder.transform_ Encoder.checkX at h
  obtain ⟨⟨cols, k, w⟩, hx, h⟩ := bind_ok_iff.1 h
  obtain ⟨Y, hY, hx⟩ := bind_ok_iff.1 hx
  cases checkArray_len hn hl hY
  obtain ⟨s, hs, hx⟩ := bind_ok_iff.1 hx
  cases s with
  | d1 => cases hx
  | d2 k' w' =>
    cases w' with
    | none => cases hx
    | some w' =>
      obtain ⟨rs, -, hx⟩ := bind_ok_iff.1 hx
      obtain ⟨cs, -, hx⟩ := bind_ok_iff.1 hx
      cases hx
      cases shape_len hl hs
      simp only at h
      split at h
      · cases h
      · exact transformLoop_length (by simp) h

theorem ordinal_length {D : Type} [DecidableEq D] {e : Encoder D} {X : Arr D} {n : Nat} (hn : n ≠ 0) (hl : X.len = .ok n)
    {M : List (List F)} (h : e.ordinal X = .ok M) : M.length = n := by
  unfold Encoder.ordinal at h
  obtain ⟨⟨xi, xm⟩, hx, h⟩ := bind_ok_iff.1 h
  refine apply2d_length ?_ h
  have := transform__length hn hl hx
  simpa using this

theorem oneHot_len {D : Type} [DecidableEq D] {e : Encoder D} {X : Arr D} {n : Nat} (hn : n ≠ 0) (hl : X.len = .ok n)
    {Y : Arr F} (h : e.oneHot X = .ok Y) : Y.len = .ok n := by
  unfold Encoder.oneHot at h
  obtain ⟨⟨xi, xm⟩, hx, h⟩ := bind_ok_iff.1 h
  obtain ⟨one, -, h⟩ := bind_ok_iff.1 h
  obtain ⟨data, hd, h⟩ := bind_ok_iff.1 h
  obtain ⟨out, ho, h⟩ := bind_ok_iff.1 h
  have h1 : out.len = .ok n := by
    rw [sparseList_dicts_len ho, mapM_length hd, List.length_range, transform__length hn hl hx]
  split at h
  · exact todense_len h1 h
  · cases h; exact h1

theorem unionOf_len {len : Py Nat} {shape : Py Shape} {Xs : List (Arr F)} {n : Nat} (hl : len = .ok n)
    (hs : ∀ k w, shape = .ok (.d2 k w) → k = n) {Y : Arr F} (h : unionOf len shape Xs = .ok Y) : Y.len = .ok n := by
  subst hl
  unfold unionOf at h
  split at h
  · obtain ⟨s, hsh, h⟩ := bind_ok_iff.1 h
    cases s with
    | d1 => cases h
    | d2 k w =>
      cases w with
      | none => cases h
      | some w => cases h; rw [len_ofMat, List.length_replicate, hs _ _ hsh]
  · split at h
    · obtain ⟨bs, -, h⟩ := bind_ok_iff.1 h
      simp only [py_ok_bind] at h
      obtain ⟨rs, hr, h⟩ := bind_ok_iff.1 h
      rw [sparseList_dicts_len h, mapM_length hr, List.length_range]
    · obtain ⟨ms, -, h⟩ := bind_ok_iff.1 h
      simp only [py_ok_bind] at h
      obtain ⟨rs, hr, h⟩ := bind_ok_iff.1 h
      cases h
      rw [len_ofMat, mapM_length hr, List.length_range]

end PurePredict
