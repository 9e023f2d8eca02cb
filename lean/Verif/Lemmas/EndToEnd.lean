import Verif.Spec.EndToEnd
import Verif.Lemmas.Construct
/-
Helper lemmas for C89: reading the attributes of a converted object gives back what was learned.
-/
set_option linter.unusedSectionVars false
namespace PurePredict
open Spec
variable {F : Type} [Arith F]

/-- a converted object with the given attributes -/
def mkObj (d : String) (l : Attrs F) : PVal F := .pure d (l.map (·.1)) (l.map (·.2))

theorem zip_names_values {α β : Type} (l : List (α × β)) : (l.map (·.1)).zip (l.map (·.2)) = l := by
  induction l with
  | nil => rfl
  | cons a l ih => simp [ih]

theorem attr?_mk (d : String) (l : Attrs F) (n : String) : (mkObj d l).attr? n = List.lookup n l := by
  simp only [mkObj, PVal.attr?, zip_names_values, Dict.get?]

theorem attr_mk (d : String) (l : Attrs F) (n : String) : (mkObj d l).attr n =
    match List.lookup n l with
    | some v => .ok v
    | none => .error .attributeError := by
  simp only [mkObj, PVal.attr, zip_names_values, Dict.get?]
  cases List.lookup n l <;> rfl

/-! ### Lists of values -/

theorem mapM_map_ok {α β γ : Type} (f : α → β) (g : β → Py γ) (h : α → γ) (hg : ∀ x, g (f x) = .ok (h x))
    (l : List α) : (l.map f).mapM g = .ok (l.map h) := by
  induction l with
  | nil => rfl
  | cons a l ih => rw [List.map_cons, List.mapM_cons, hg, py_ok_bind, ih]; rfl

theorem nums_vnums (xs : List F) : (vnums xs).nums = .ok xs := by
  have := mapM_map_ok (PVal.float) PVal.num id (fun x : F => rfl) xs
  rw [List.map_id] at this
  exact this

theorem nums_replicate (n : Nat) (v : PVal F) (x : F) (h : v.num = .ok x) :
    (PVal.list (List.replicate n v)).nums = .ok (List.replicate n x) := by
  have := mapM_map_ok (fun _ : Nat => v) PVal.num (fun _ => x) (fun _ => h) (List.range n)
  rw [List.map_const', List.map_const', List.length_range] at this
  exact this

theorem mat_vmat (M : List (List F)) : (vmat M).mat = .ok M := by
  have := mapM_map_ok vnums PVal.nums id nums_vnums M
  rw [List.map_id] at this
  exact this

theorem ints_vints (l : List Int) : (vints l : PVal F).ints = .ok l := by
  have := mapM_map_ok (PVal.int : Int → PVal F) PVal.int' id (fun x => rfl) l
  rw [List.map_id] at this
  exact this

theorem nats_vints (l : List Nat) : (vints (l.map fun (i : Nat) => (i : Int)) : PVal F).nats = .ok l := by
  have := mapM_map_ok (fun i : Nat => (PVal.int (i : Int) : PVal F)) PVal.nat id (fun x => rfl) l
  rw [List.map_id] at this
  unfold vints
  rw [List.map_map]
  exact this

theorem texts_vstrs (l : List Str) : (vstrs l : PVal F).texts = .ok l := by
  have := mapM_map_ok (fun s : Str => (PVal.str (String.ofList s) : PVal F))
    (fun s => do return (← s.text).toList) id (fun x => by simp [PVal.text]) l
  rw [List.map_id] at this
  exact this

theorem plain_list_map {α : Type} (f : α → PVal F) (h : ∀ x, Plain (f x)) (l : List α) : Plain (.list (l.map f)) := by
  refine .list _ ?_
  intro v hv
  obtain ⟨x, -, rfl⟩ := List.mem_map.1 hv
  exact h x

theorem plain_vnums (xs : List F) : Plain (vnums xs) := plain_list_map _ (fun _ => .float _) xs
theorem plain_vmat (M : List (List F)) : Plain (vmat M) := plain_list_map _ plain_vnums M
theorem plain_vints (l : List Int) : Plain (vints l : PVal F) := plain_list_map _ (fun _ => .int _) l
theorem plain_vstrs (l : List Str) : Plain (vstrs l : PVal F) := plain_list_map _ (fun _ => .str _) l

/-! ### Fields -/

theorem rows_nil (e : Attrs F) : Rows [] e [] := rfl
theorem rows_cons {f : FieldSpec F} {fs : List (FieldSpec F)} {e l1 l2 : Attrs F} (h1 : f e l1) (h2 : Rows fs e l2) :
    Rows (f :: fs) e (l1 ++ l2) := ⟨l1, l2, h1, h2, rfl⟩

theorem copied {e : Attrs F} {n : String} {v : PVal F} (h : HasAttr e n v) : Copied n e [(n, v)] := ⟨v, h, rfl⟩
theorem listed {e : Attrs F} {n : String} {v : PVal F} (h : HasAttr e n (.ndarray v)) : Listed n e [(n, v)] :=
  ⟨_, v, h, .array v, rfl⟩

/-- an optional array or None as stored -/
def vnums? : Option (List F) → PVal F
  | none => .none
  | some xs => vnums xs

theorem listedOrNone {e : Attrs F} {n : String} {o : Option (List F)} (h : HasVecOrNone e n o) :
    ListedOrNone n e [(n, vnums? o)] := by
  cases o with
  | none => exact .inl ⟨h, rfl⟩
  | some xs => exact .inr (listed h)

theorem plain_vnums? (o : Option (List F)) : Plain (vnums? o) := by
  cases o with
  | none => exact .none
  | some xs => exact plain_vnums xs

theorem nums?_vnums? (o : Option (List F)) : (vnums? o).nums? = .ok o := by
  cases o with
  | none => rfl
  | some xs =>
    show (do return some (← (vnums xs).nums)) = _
    rw [nums_vnums]; rfl

/-- an optional string as stored -/
def strAttr (n : String) : Option String → Attrs F
  | none => []
  | some s => [(n, .str s)]

theorem ifPresent {e : Attrs F} {n : String} {o : Option String} (h : HasStrOrNot e n o) :
    IfPresent n e (strAttr n o) := by
  cases o with
  | none => exact .inl ⟨h, rfl⟩
  | some s => exact .inr (copied h)

/-- a number as stored -/
theorem number {e : Attrs F} {n : String} {x : F} (h : HasNum e n x) :
    ∃ v, Number n e [(n, v)] ∧ v.num = .ok x ∧ Plain v := by
  rcases h with h | h | ⟨i, h, rfl⟩
  · exact ⟨.float x, .inr ⟨_, h, by simp, rfl⟩, rfl, .float x⟩
  · exact ⟨.float x, .inl ⟨_, h, rfl⟩, rfl, .float x⟩
  · exact ⟨.int i, .inr ⟨_, h, by simp, rfl⟩, rfl, .int i⟩

theorem dtype_cases {nm : String} {t : DType} (h : (nm, t) ∈ dtypes) :
    (PVal.cls (.plain nm) : PVal F).dtype = .ok t := by
  simp only [dtypes, List.mem_cons, Prod.mk.injEq, List.not_mem_nil, or_false] at h
  rcases h with ⟨rfl, rfl⟩ | ⟨rfl, rfl⟩ | ⟨rfl, rfl⟩ <;> simp [PVal.dtype]

theorem dtyped {e : Attrs F} {t : DType} (h : HasDType e t) :
    ∃ v, DTyped e [("dtype", v)] ∧ v.dtype = .ok t ∧ Plain v := by
  obtain ⟨nm, hm, h⟩ := h
  refine ⟨.cls (.plain nm), ?_, dtype_cases hm, .cls _ (by simp)⟩
  rcases h with h | ⟨n, hn, h⟩
  · exact ⟨_, _, h, rfl, rfl⟩
  · exact ⟨_, _, h, rfl, by simp [Ne.symm hn]⟩

/-! ### Objects -/

theorem built {d : String} {fs : List (FieldSpec F)} {v : Option (List Char)} {e l : Attrs F}
    (hv : ReadableVersion v) (hr : Rows fs e l) (hp : ∀ p ∈ l, Plain p.2) : Built d fs v e (mkObj d l) :=
  ⟨hv, l, hr, hp, rfl⟩

theorem lookup_append {α β : Type} [BEq α] (n : α) (l l' : List (α × β)) :
    List.lookup n (l ++ l') = (List.lookup n l).or (List.lookup n l') := by
  induction l with
  | nil => simp
  | cons a l ih =>
    rw [List.cons_append, List.lookup_cons, List.lookup_cons]
    cases n == a.1 <;> simp [ih]

theorem lookup_strAttr (n m : String) (o : Option String) :
    List.lookup n (strAttr m o : Attrs F) = if n = m then o.map PVal.str else none := by
  cases o with
  | none => simp [strAttr]
  | some s =>
    rw [strAttr, List.lookup_cons]
    by_cases h : n = m
    · simp [h]
    · rw [beq_false_of_ne h]; simp [h]

theorem plain_strAttr {n : String} {o : Option String} {p : String × PVal F} (h : p ∈ (strAttr n o : Attrs F)) :
    Plain p.2 := by
  cases o with
  | none => cases h
  | some s =>
    rw [strAttr, List.mem_singleton] at h
    subst h; exact .str s

/-- what conversion stores as intercept -/
theorem interceptField {e : Attrs F} {b : Option (FittedIntercept F)} {cs : List (PVal F)}
    (hl : HasLabels e cs) (h : HasIntercept e b) :
    ∃ o : Option (PVal F), Intercept e (match o with | none => [] | some v => [("intercept_", v)]) ∧
      o.mapM PVal.nums = .ok (b.map fun i => match i with
        | .scalar x => List.replicate cs.length x
        | .vector xs => xs) ∧ ∀ v, o = some v → Plain v := by
  rcases b with _ | ⟨x⟩ | ⟨xs⟩
  · exact ⟨none, .inl ⟨h, rfl⟩, rfl, by simp⟩
  · have key : ∀ v : PVal F, HasAttr e "intercept_" v → ((∃ x, v = .float x) ∨ ∃ x, v = .npFloat x) →
        v.num = .ok x → Plain v → ∃ o : Option (PVal F),
        Intercept e (match o with | none => [] | some v => [("intercept_", v)]) ∧
        o.mapM PVal.nums = .ok (some (List.replicate cs.length x)) ∧ ∀ v, o = some v → Plain v := by
      intro v hv hf hn hp
      refine ⟨some (.list (List.replicate cs.length v)), .inr (.inl ⟨v, .list cs, cs.length, hv, hf,
        listed hl.1, .inl ⟨cs, rfl, rfl⟩, rfl⟩), ?_, ?_⟩
      · show (some <$> _ : Py _) = _
        rw [nums_replicate _ _ _ hn]; rfl
      · rintro _ ⟨⟩
        exact .list _ fun w hw => by rw [(List.mem_replicate.1 hw).2]; exact hp
    rcases h with h | h
    · exact key _ h (.inl ⟨x, rfl⟩) rfl (.float x)
    · exact key _ h (.inr ⟨x, rfl⟩) rfl (.npFloat x)
  · refine ⟨some (vnums xs), .inr (.inr ⟨?_, listed h⟩), ?_, ?_⟩
    · intro x hx
      have := h.symm.trans hx
      simp at this
    · show (some <$> _ : Py _) = _
      rw [nums_vnums]; rfl
    · rintro _ ⟨⟩; exact plain_vnums xs

theorem linear_built (d : String) {v : Option (List Char)} (hv : ReadableVersion v) {e : Attrs F} {coef cs b mc so lo}
    (hc : HasMat e "coef_" coef) (hl : HasLabels e cs) (hb : HasIntercept e b) (hm : HasStrOrNot e "multi_class" mc)
    (hs : HasStrOrNot e "solver" so) (ho : HasStrOrNot e "loss" lo) :
    ∃ r, Built d linearFields v e r ∧ readLinear r = .ok (Linear.ofFitted coef cs b mc so lo) := by
  obtain ⟨o, hi, hn, hp⟩ := interceptField hl hb
  refine ⟨_, built hv (rows_cons (listed hc) (rows_cons (listed hl.1) (rows_cons hi (rows_cons (ifPresent hm)
    (rows_cons (ifPresent hs) (rows_cons (ifPresent ho) (rows_nil e))))))) ?_, ?_⟩
  · intro p hmem
    simp only [List.mem_append, List.mem_singleton, List.not_mem_nil, or_false] at hmem
    rcases hmem with rfl | rfl | h | h | h | h
    · exact plain_vmat _
    · exact .list _ hl.2
    · cases o with
      | none => cases h
      | some w =>
        rw [List.mem_singleton] at h
        subst h; exact hp w rfl
    · exact plain_strAttr h
    · exact plain_strAttr h
    · exact plain_strAttr h
  · have hso : ∀ o : Option String, (o.map (PVal.str (F := F))).bind PVal.text? = o := by
      intro o; cases o <;> rfl
    have ho : ∀ n, List.lookup n (match (motive := _ → Attrs F) o with | none => [] | some v => [("intercept_", v)]) =
        if n = "intercept_" then o else none := by
      intro n
      cases o with
      | none => simp
      | some w =>
        simp only [List.lookup_cons, List.lookup_nil]
        by_cases h : n = "intercept_"
        · simp [h]
        · rw [beq_false_of_ne h]; simp [h]
    unfold readLinear
    simp only [attr_mk, attr?_mk, lookup_append, lookup_strAttr, ho]
    simp [List.lookup_cons, mat_vmat, PVal.items, hn, hso, py_ok_bind]
    rfl

/-! ### The other classes -/

/-- the fields give these attributes, all of them plain -/
def RowsP (fs : List (FieldSpec F)) (e l : Attrs F) : Prop := Rows fs e l ∧ ∀ p ∈ l, Plain p.2

theorem rp_nil (e : Attrs F) : RowsP [] e [] := ⟨rfl, by simp⟩
theorem rp_cons {f : FieldSpec F} {fs : List (FieldSpec F)} {e l : Attrs F} {n : String} {v : PVal F}
    (h : f e [(n, v)]) (hp : Plain v) (h2 : RowsP fs e l) : RowsP (f :: fs) e ((n, v) :: l) := by
  refine ⟨rows_cons h h2.1, ?_⟩
  intro p hm
  rcases List.mem_cons.1 hm with rfl | hm
  · exact hp
  · exact h2.2 p hm
theorem rp_skip {f : FieldSpec F} {fs : List (FieldSpec F)} {e l : Attrs F}
    (h : f e []) (h2 : RowsP fs e l) : RowsP (f :: fs) e l := ⟨rows_cons h h2.1, h2.2⟩
theorem rp_append {fs gs : List (FieldSpec F)} {e l1 l2 : Attrs F} (h1 : RowsP fs e l1) (h2 : RowsP gs e l2) :
    RowsP (fs ++ gs) e (l1 ++ l2) := by
  refine ⟨?_, ?_⟩
  · obtain ⟨h1, -⟩ := h1
    induction fs generalizing l1 with
    | nil =>
      have : l1 = [] := h1
      subst this
      exact h2.1
    | cons f fs ih =>
      obtain ⟨a, b, ha, hb, rfl⟩ := h1
      rw [List.cons_append, List.append_assoc]
      exact rows_cons ha (ih hb)
  · intro p hm
    rcases List.mem_append.1 hm with hm | hm
    · exact h1.2 p hm
    · exact h2.2 p hm

theorem builtP {d : String} {fs : List (FieldSpec F)} {v : Option (List Char)} {e l : Attrs F}
    (hv : ReadableVersion v) (hr : RowsP fs e l) : Built d fs v e (mkObj d l) := built hv hr.1 hr.2

theorem gaussian_built (d : String) {v : Option (List Char)} (hv : ReadableVersion v) {e : Attrs F}
    {m : GaussianNB F (PVal F)} (h1 : HasVec e "class_prior_" m.classPrior) (h2 : HasLabels e m.classes)
    (h3 : HasMat e "sigma_" m.sigma) (h4 : HasMat e "theta_" m.theta) :
    ∃ r, Built d [Listed "class_prior_", Listed "classes_", Listed "sigma_", Listed "theta_"] v e r ∧
      readGaussianNB r = .ok m := by
  refine ⟨_, builtP hv (rp_cons (listed h1) (plain_vnums _) (rp_cons (listed h2.1) (.list _ h2.2)
    (rp_cons (listed h3) (plain_vmat _) (rp_cons (listed h4) (plain_vmat _) (rp_nil e))))), ?_⟩
  unfold readGaussianNB
  simp [attr_mk, List.lookup_cons, nums_vnums, mat_vmat, PVal.items, py_ok_bind]

theorem discrete_built (d : String) {v : Option (List Char)} (hv : ReadableVersion v) {e : Attrs F}
    {m : DiscreteNB F (PVal F)} (h1 : HasVec e "class_log_prior_" m.classLogPrior) (h2 : HasLabels e m.classes)
    (h3 : HasMat e "feature_log_prob_" m.featureLogProb) :
    ∃ r, Built d discreteNBFields v e r ∧ readDiscreteNB r = .ok m := by
  refine ⟨_, builtP hv (rp_cons (listed h1) (plain_vnums _) (rp_cons (listed h2.1) (.list _ h2.2)
    (rp_cons (listed h3) (plain_vmat _) (rp_nil e)))), ?_⟩
  unfold readDiscreteNB
  simp [attr_mk, List.lookup_cons, nums_vnums, mat_vmat, PVal.items, py_ok_bind]

theorem dummy_built (dd : String) {v : Option (List Char)} (hv : ReadableVersion v) {e : Attrs F}
    {d : Dummy F} (h0 : HasAttr e "_strategy" (.str "prior") ∨
        NoAttr e "_strategy" ∧ HasAttr e "strategy" (.str "prior"))
    (h1 : HasVec e "class_prior_" d.classPrior) (h2 : HasPlain e "n_classes_") (h3 : HasPlain e "n_outputs_") :
    ∃ r, Built dd [Strategy, Listed "class_prior_", Copied "n_classes_", Copied "n_outputs_"] v e r ∧
      readDummy r = .ok d := by
  obtain ⟨w2, h2, p2⟩ := h2
  obtain ⟨w3, h3, p3⟩ := h3
  refine ⟨_, builtP hv (rp_cons ⟨.str "prior", .inl rfl, h0, rfl⟩ (.str _) (rp_cons (listed h1) (plain_vnums _)
    (rp_cons (copied h2) p2 (rp_cons (copied h3) p3 (rp_nil e))))), ?_⟩
  unfold readDummy
  simp [attr_mk, List.lookup_cons, nums_vnums, py_ok_bind]

theorem standard_built (d : String) {v : Option (List Char)} (hv : ReadableVersion v) {e : Attrs F}
    {s : StandardScaler F} (h1 : HasAttr e "with_mean" (.bool s.withMean)) (h2 : HasAttr e "with_std" (.bool s.withStd))
    (h3 : HasVecOrNone e "scale_" s.scale) (h4 : HasVecOrNone e "mean_" s.mean) :
    ∃ r, Built d [Copied "with_mean", Copied "with_std", ListedOrNone "scale_", ListedOrNone "mean_"] v e r ∧
      readStandard r = .ok s := by
  refine ⟨_, builtP hv (rp_cons (copied h1) (.bool _) (rp_cons (copied h2) (.bool _)
    (rp_cons (listedOrNone h3) (plain_vnums? _) (rp_cons (listedOrNone h4) (plain_vnums? _) (rp_nil e))))), ?_⟩
  unfold readStandard
  simp [attr_mk, List.lookup_cons, nums?_vnums?, PVal.truth, py_ok_bind]

theorem minMax_built (d : String) {v : Option (List Char)} (hv : ReadableVersion v) {e : Attrs F}
    {s : MinMaxScaler F} (h2 : HasPlain e "feature_range")
    (h3 : HasVecOrNone e "scale_" s.scale) (h4 : HasVecOrNone e "min_" s.min) :
    ∃ r, Built d [Copied "feature_range", ListedOrNone "scale_", ListedOrNone "min_"] v e r ∧
      readMinMax r = .ok s := by
  obtain ⟨w2, h2, p2⟩ := h2
  refine ⟨_, builtP hv (rp_cons (copied h2) p2
    (rp_cons (listedOrNone h3) (plain_vnums? _) (rp_cons (listedOrNone h4) (plain_vnums? _) (rp_nil e)))), ?_⟩
  unfold readMinMax
  simp [attr_mk, List.lookup_cons, nums?_vnums?, py_ok_bind]

theorem maxAbs_built (d : String) {v : Option (List Char)} (hv : ReadableVersion v) {e : Attrs F}
    {s : MaxAbsScaler F} (h2 : HasPlain e "copy")
    (h3 : HasVecOrNone e "scale_" s.scale) (h4 : HasVecOrNone e "max_abs_" s.maxAbs) :
    ∃ r, Built d [Copied "copy", ListedOrNone "scale_", ListedOrNone "max_abs_"] v e r ∧
      readMaxAbs r = .ok s := by
  obtain ⟨w2, h2, p2⟩ := h2
  refine ⟨_, builtP hv (rp_cons (copied h2) p2
    (rp_cons (listedOrNone h3) (plain_vnums? _) (rp_cons (listedOrNone h4) (plain_vnums? _) (rp_nil e)))), ?_⟩
  unfold readMaxAbs
  simp [attr_mk, List.lookup_cons, nums?_vnums?, py_ok_bind]

theorem norm_str {s : String} {n : Norm} (h : (s, n) ∈ norms) : (PVal.str s : PVal F).norm = n := by
  simp only [norms, List.mem_cons, Prod.mk.injEq, List.not_mem_nil, or_false] at h
  rcases h with ⟨rfl, rfl⟩ | ⟨rfl, rfl⟩ | ⟨rfl, rfl⟩ <;> simp [PVal.norm, PVal.eqStr]

theorem normalizer_built (d : String) {v : Option (List Char)} (hv : ReadableVersion v) {e : Attrs F}
    {n : Norm} {s : String} (h2 : HasPlain e "copy") (h3 : HasAttr e "norm" (.str s)) (h4 : (s, n) ∈ norms) :
    ∃ r, Built d [Copied "norm", Copied "copy"] v e r ∧ (do return (← r.attr "norm").norm) = .ok n := by
  obtain ⟨w2, h2, p2⟩ := h2
  refine ⟨_, builtP hv (rp_cons (copied h3) (.str _) (rp_cons (copied h2) p2 (rp_nil e))), ?_⟩
  simp [attr_mk, List.lookup_cons, py_ok_bind, norm_str h4]

theorem hasNorm {e : Attrs F} {o : Option Norm} (h : HasNorm e o) :
    ∃ v, HasAttr e "norm" v ∧ v.norm? = o ∧ Plain v := by
  cases o with
  | none => exact ⟨.none, h, rfl, .none⟩
  | some n =>
    obtain ⟨s, h, hn⟩ := h
    refine ⟨.str s, h, ?_, .str s⟩
    unfold PVal.norm?
    rw [norm_str hn]; rfl

theorem tfidf_built (d : String) {v : Option (List Char)} (hv : ReadableVersion v) {e : Attrs F}
    {t : Tfidf F} (h : HasTfidf e t) : ∃ r, Built d tfidfFields v e r ∧ readTfidf r = .ok t := by
  obtain ⟨h1, h2, ⟨w3, h3, p3⟩, h4, h5, s, h6⟩ := h
  obtain ⟨w1, h1, hw1, p1⟩ := hasNorm h1
  refine ⟨_, builtP hv (rp_cons (copied h1) p1 (rp_cons (copied h2) (.bool _) (rp_cons (copied h3) p3
    (rp_cons (copied h4) (.bool _) (rp_cons (listed h5) (plain_vnums _)
    (rp_cons ⟨_, _, h6, .inl ⟨s, rfl⟩, rfl⟩ (.int _) (rp_nil e))))))), ?_⟩
  unfold readTfidf
  simp [attr_mk, List.lookup_cons, nums_vnums, PVal.truth, PVal.nat, PVal.int', py_ok_bind, hw1]

theorem indicator_rows {e : Attrs F} {m : MissingIndicator F} (h : HasIndicator e m) :
    ∃ l, RowsP indicatorFields e l ∧ ∀ b d, readIndicator (mkObj d (l ++ [("error_on_new", .bool b)])) =
      .ok { m with errorOnNew := b } := by
  obtain ⟨⟨s, h1, hs⟩, h2, h3, h4, -⟩ := h
  obtain ⟨w4, h4, hw4, p4⟩ := number h4
  refine ⟨_, rp_cons (copied h1) (.str _) (rp_cons (listed h2) (plain_vints _) (rp_cons (copied h3) (.int _)
    (rp_cons h4 p4 (rp_nil e)))), ?_⟩
  intro b d
  have h0 : (PVal.str s : PVal F).eqStr "missing-only" = m.missingOnly := by
    rw [Bool.eq_iff_iff, hs]
    simp [PVal.eqStr]
  unfold readIndicator
  simp [attr_mk, List.lookup_cons, nats_vints, PVal.truth, PVal.nat, PVal.int', py_ok_bind, hw4, h0]

theorem indicator_built (d : String) {v : Option (List Char)} (hv : ReadableVersion v) {e : Attrs F}
    {m : MissingIndicator F} (h : HasIndicator e m) :
    ∃ r, Built d (indicatorFields ++ [Copied "error_on_new"]) v e r ∧ readIndicator r = .ok m := by
  obtain ⟨l, hl, hr⟩ := indicator_rows h
  refine ⟨_, builtP hv (rp_append hl (rp_cons (copied h.2.2.2.2) (.bool _) (rp_nil e))), ?_⟩
  rw [hr]

theorem imputer_built (d : String) {v : Option (List Char)} (hv : ReadableVersion v) {e : Attrs F}
    {stats : List F} {strategy : String} {add : Bool} {missing : F} {ind : Option (MissingIndicator F)}
    (h1 : HasVec e "statistics_" stats) (h2 : HasAttr e "strategy" (.str strategy))
    (h3 : HasAttr e "add_indicator" (.bool add) ∨ NoAttr e "add_indicator" ∧ add = false)
    (h4 : HasNum e "missing_values" missing) (h5 : HasIndicatorOrNot e ind) :
    ∃ r, Built d [Listed "statistics_", Copied "strategy", OrDefault "add_indicator" (.bool false),
      Number "missing_values", Indicator] v e r ∧
      readImputer r = .ok (.ofFitted stats (strategy = "constant") add missing ind) := by
  obtain ⟨w4, h4, hw4, p4⟩ := number h4
  have h3' : OrDefault "add_indicator" (.bool false) e [("add_indicator", .bool add)] := by
    rcases h3 with h | ⟨h, rfl⟩
    · exact .inr (copied h)
    · exact .inl ⟨h, rfl⟩
  have hc : (PVal.str strategy : PVal F).eqStr "constant" = decide (strategy = "constant") := by
    rw [Bool.eq_iff_iff]; simp [PVal.eqStr]
  cases ind with
  | none =>
    refine ⟨_, builtP hv (rp_cons (listed h1) (plain_vnums _) (rp_cons (copied h2) (.str _) (rp_cons h3' (.bool _)
      (rp_cons h4 p4 (rp_skip (.inl ⟨h5, rfl⟩) (rp_nil e)))))), ?_⟩
    unfold readImputer
    simp [attr_mk, attr?_mk, List.lookup_cons, nums_vnums, PVal.truth, py_ok_bind, hw4, hc, SimpleImputer.ofFitted]
  | some m =>
    obtain ⟨c, w, ns, vs, h5, hw, hi⟩ := h5
    obtain ⟨l, hl, hr⟩ := indicator_rows hi
    have hp : Plain (mkObj "impute._base.MissingIndicatorPure" (l ++ [("error_on_new", .bool false)])) := by
      refine .pure _ _ _ ?_
      intro x hx
      obtain ⟨p, hp, rfl⟩ := List.mem_map.1 hx
      rcases List.mem_append.1 hp with hp | hp
      · exact hl.2 p hp
      · rw [List.mem_singleton.1 hp]; exact .bool _
    have hI : Indicator e [("indicator_", mkObj "impute._base.MissingIndicatorPure"
        (l ++ [("error_on_new", .bool false)]))] := by
      refine .inr ⟨c, w, ns, vs, l, .bool m.errorOnNew, h5, hw, hl.1, hl.2, hi.2.2.2.2, .bool _, ?_⟩
      simp [mkObj]
    refine ⟨_, builtP hv (rp_cons (listed h1) (plain_vnums _) (rp_cons (copied h2) (.str _) (rp_cons h3' (.bool _)
      (rp_cons h4 p4 (rp_cons hI hp (rp_nil e)))))), ?_⟩
    unfold readImputer
    simp [attr_mk, attr?_mk, List.lookup_cons, nums_vnums, PVal.truth, py_ok_bind, hw4, hc, SimpleImputer.ofFitted, hr]

theorem tree_built (d : String) {v : Option (List Char)} (hv : ReadableVersion v) {e : Attrs F}
    {l r f : List Int} {th : List F} {value : List (List (List F))} {cs : Option (List (PVal F))} {t : Tree F (PVal F)}
    (h1 : HasTree e l r f th value) (h2 : HasLabelsOrNot e cs)
    (h3 : Tree.ofSklearn l r f th value cs [.int 0, .int 1] = .ok t) :
    ∃ o, Built d treeFields v e o ∧ readTree o = .ok t := by
  obtain ⟨c, w, ns, vs, h0, hl, hr, hf, hth, hval⟩ := h1
  unfold Tree.ofSklearn at h3
  obtain ⟨vals, hvals, h3⟩ := bind_ok_iff.1 h3
  cases h3
  have hc : TreeClasses e [("classes_", .list (cs.getD [.int 0, .int 1]))] ∧
      Plain (.list (cs.getD [.int 0, .int 1])) := by
    cases cs with
    | none =>
      refine ⟨.inl ⟨h2, rfl⟩, .list _ ?_⟩
      intro x hx
      simp only [Option.getD_none, List.mem_cons, List.not_mem_nil, or_false] at hx
      rcases hx with rfl | rfl <;> exact .int _
    | some cs => exact ⟨.inr (listed h2.1), .list _ h2.2⟩
  have hV : TreeValues e [("value_", vmat vals)] := by
    refine ⟨c, w, ns, vs, _, _, value.map vmat, vals.map vnums, h0, hval, .array _, .list _, ?_, rfl⟩
    rw [List.forall₂_map_left_iff, List.forall₂_map_right_iff]
    refine ((mapM_forall₂ (R := fun (a : List (List F)) b => pyGet a 0 = .ok b) (fun _ _ => Iff.rfl) _ _).1 hvals).imp ?_
    intro a b hab
    cases a with
    | nil => cases hab
    | cons x xs =>
      cases hab
      exact ⟨xs.map vnums, rfl⟩
  refine ⟨_, builtP hv (rp_cons ⟨c, w, ns, vs, _, _, h0, hl, .array _, rfl⟩ (plain_vints _)
    (rp_cons ⟨c, w, ns, vs, _, _, h0, hr, .array _, rfl⟩ (plain_vints _)
    (rp_cons ⟨c, w, ns, vs, _, _, h0, hf, .array _, rfl⟩ (plain_vints _)
    (rp_cons ⟨c, w, ns, vs, _, _, h0, hth, .array _, rfl⟩ (plain_vnums _)
    (rp_cons hV (plain_vmat _) (rp_cons hc.1 hc.2 (rp_nil e))))))), ?_⟩
  unfold readTree
  simp [attr_mk, List.lookup_cons, nums_vnums, mat_vmat, ints_vints, PVal.items, py_ok_bind]

theorem stops_ok (w : StopWords) : (stops w : PVal F).stopWords = .ok w ∧ Plain (stops w : PVal F) := by
  cases w with
  | none => exact ⟨rfl, .none⟩
  | str s => exact ⟨rfl, .str s⟩
  | list ws =>
    refine ⟨?_, plain_vstrs ws⟩
    show (do return StopWords.list (← (vstrs ws : PVal F).texts)) = _
    rw [texts_vstrs]; rfl

theorem accents_ok {v : PVal F} {a : StripAccents} (h : (v, a) ∈ accents) : v.stripAccents = a ∧ Plain v := by
  simp only [accents, List.mem_cons, Prod.mk.injEq, List.not_mem_nil, or_false] at h
  rcases h with ⟨rfl, rfl⟩ | ⟨rfl, rfl⟩ | ⟨rfl, rfl⟩
  · exact ⟨rfl, .none⟩
  · exact ⟨by simp [PVal.stripAccents, PVal.isNone, PVal.eqStr], .str _⟩
  · exact ⟨by simp [PVal.stripAccents, PVal.isNone, PVal.eqStr], .str _⟩

theorem analyzers_ok {s : String} {a : AnalyzerKind} (h : (s, a) ∈ analyzers) : (PVal.str s : PVal F).analyzer = a := by
  simp only [analyzers, List.mem_cons, Prod.mk.injEq, List.not_mem_nil, or_false] at h
  rcases h with ⟨rfl, rfl⟩ | ⟨rfl, rfl⟩ | ⟨rfl, rfl⟩ <;> simp [PVal.analyzer, PVal.eqStr]

/-- The options of a vectorizer survive, among other attributes. -/
theorem text_rows {e : Attrs F} {p : String} {o : VectorizerOpts} (h : HasOpts e p o) :
    ∃ l, RowsP textFields e l ∧ (∀ n, n ∉ ["analyzer", "preprocessor", "tokenizer", "stop_words", "token_pattern",
        "ngram_range", "strip_accents", "decode_error", "encoding", "lowercase", "input"] → List.lookup n l = none) ∧
      ∀ d l0 l1, (∀ n ∈ ["analyzer", "stop_words", "token_pattern", "ngram_range", "strip_accents", "lowercase"],
          List.lookup n l0 = none) →
        readOpts (mkObj d (l0 ++ (l ++ l1))) = .ok o ∧ readPattern (mkObj d (l0 ++ (l ++ l1))) = .ok p := by
  obtain ⟨⟨a, h1, ha⟩, h2, h3, ⟨w4, h4, hw4⟩, h5, h6, h7, h8, ⟨w9, h9, p9⟩, ⟨w10, h10, p10⟩, ⟨w11, h11, p11⟩⟩ := h
  refine ⟨_, rp_cons (copied h1) (.str _) (rp_cons (copied h7) .none (rp_cons (copied h8) .none
    (rp_cons (copied h3) (stops_ok _).2 (rp_cons (copied h6) (.str _) (rp_cons (copied h2) ?_
    (rp_cons (copied h4) (accents_ok hw4).2 (rp_cons (copied h9) p9 (rp_cons (copied h10) p10
    (rp_cons (copied h5) (.bool _) (rp_cons (copied h11) p11 (rp_nil e))))))))))), ?_, ?_⟩
  · refine .tuple _ ?_
    intro x hx
    simp only [List.mem_cons, List.not_mem_nil, or_false] at hx
    rcases hx with rfl | rfl <;> exact .int _
  · intro n hn
    simp only [List.mem_cons, List.not_mem_nil, or_false, not_or] at hn
    simp [List.lookup_cons, beq_false_of_ne, hn]
  · intro d l0 l1 hl
    have k1 := hl "analyzer" (by simp)
    have k2 := hl "stop_words" (by simp)
    have k3 := hl "token_pattern" (by simp)
    have k4 := hl "ngram_range" (by simp)
    have k5 := hl "strip_accents" (by simp)
    have k6 := hl "lowercase" (by simp)
    constructor
    · unfold readOpts
      simp [attr_mk, lookup_append, k1, k2, k4, k5, k6, List.lookup_cons, PVal.ngrams, PVal.nat, PVal.int',
        PVal.truth, (stops_ok (F := F) _).1, (accents_ok hw4).1, analyzers_ok (F := F) ha, py_ok_bind]
    · unfold readPattern
      simp [attr_mk, lookup_append, k3, List.lookup_cons, PVal.text, py_ok_bind]

theorem isInt_index (trunc : F → Py Int) {is : List (PVal F)} {l : List Int} (h : List.Forall₂ IsInt is l) :
    List.Forall₂ (IndexOf trunc) is (l.map .int) := by
  induction h with
  | nil => exact .nil
  | cons h _ ih =>
    refine .cons ?_ ih
    rcases h with rfl | rfl
    · exact .int _
    · exact .npInt _

theorem vocabulary_ok (vo : Dict Str Int) :
    (PVal.dict (vo.map fun p => .str (String.ofList p.1)) ((vo.map (·.2)).map .int) : PVal F).vocabulary = .ok vo ∧
      Plain (PVal.dict (vo.map fun p => .str (String.ofList p.1)) ((vo.map (·.2)).map .int) : PVal F) := by
  constructor
  · unfold PVal.vocabulary
    have h1 := mapM_map_ok (fun p : Str × Int => (PVal.str (String.ofList p.1) : PVal F))
      (fun k => do return (← k.text).toList) (·.1) (fun x => by simp [PVal.text]) vo
    have h2 := mapM_map_ok (fun p : Str × Int => (PVal.int p.2 : PVal F)) PVal.int' (·.2) (fun x => rfl) vo
    rw [List.map_map]
    simp only
    rw [h1, py_ok_bind]
    erw [h2]
    rw [py_ok_bind]
    exact congrArg Except.ok (zip_names_values vo)
  · refine .dict _ _ ?_ ?_
    · intro x hx
      obtain ⟨p, -, rfl⟩ := List.mem_map.1 hx
      exact .str _
    · intro x hx
      obtain ⟨p, -, rfl⟩ := List.mem_map.1 hx
      exact .int _

/-- All a CountVectorizer has, among other attributes. -/
theorem count_rows (trunc : F → Py Int) {e : Attrs F} {p : String} {v : CountVectorizer} (h : HasCount e p v) :
    ∃ l, RowsP (countFields trunc) e l ∧ List.lookup "_tfidf" l = none ∧
      ∀ d l0, (∀ n ∈ ["analyzer", "stop_words", "token_pattern", "ngram_range", "strip_accents", "lowercase",
          "vocabulary_", "binary", "dtype"], List.lookup n l0 = none) →
        readPattern (mkObj d (l0 ++ l)) = .ok p ∧ readCount (mkObj d (l0 ++ l)) = .ok v := by
  obtain ⟨h1, h2, h3, is, h4, his⟩ := h
  obtain ⟨l, hl, hn, hr⟩ := text_rows h1
  obtain ⟨w, h2, hw, pw⟩ := dtyped h2
  refine ⟨_, rp_append (rp_cons h2 pw (rp_cons (copied h3) (.bool _) (rp_cons
    ⟨_, _, _, h4, isInt_index trunc his, rfl⟩ (vocabulary_ok _).2 (rp_nil e)))) hl, ?_, ?_⟩
  · have := hn "_tfidf" (by simp)
    simp [List.lookup_cons, this]
  · intro d l0 h0
    have := hr d (l0 ++ [("dtype", w), ("binary", .bool v.binary), ("vocabulary_",
      .dict (v.vocabulary.map fun p => .str (String.ofList p.1)) ((v.vocabulary.map (·.2)).map .int))]) [] (by
        intro n hn
        have hn' := hn
        have := h0 n (by
          simp only [List.mem_cons, List.not_mem_nil, or_false] at hn ⊢
          rcases hn with h | h | h | h | h | h <;> simp [h])
        rw [lookup_append, this]
        simp only [List.mem_cons, List.not_mem_nil, or_false] at hn
        rcases hn with rfl | rfl | rfl | rfl | rfl | rfl <;> simp [List.lookup_cons])
    rw [List.append_nil, List.append_assoc] at this
    refine ⟨this.2, ?_⟩
    have k1 := h0 "vocabulary_" (by simp)
    have k2 := h0 "binary" (by simp)
    have k3 := h0 "dtype" (by simp)
    unfold readCount
    rw [this.1, py_ok_bind]
    simp only [attr_mk, lookup_append, k1, k2, k3, List.lookup_cons]
    simp [PVal.truth, hw, py_ok_bind]
    simp only [← List.map_map]
    rw [(vocabulary_ok (F := F) v.vocabulary).1]
    rfl

theorem count_built (trunc : F → Py Int) (d : String) {w : Option (List Char)} (hw : ReadableVersion w) {e : Attrs F}
    {p : String} {v : CountVectorizer} (h : HasCount e p v) :
    ∃ r, Built d (countFields trunc) w e r ∧ readPattern r = .ok p ∧ readCount r = .ok v := by
  obtain ⟨l, hl, -, hr⟩ := count_rows trunc h
  refine ⟨_, builtP hw hl, ?_⟩
  have := hr d [] (by simp)
  rwa [List.nil_append] at this

theorem tfidfVec_built (trunc : F → Py Int) (d : String) {u : Option (List Char)} (hu : ReadableVersion u)
    {e : Attrs F} {p : String} {v : CountVectorizer} {t : Tfidf F} {w : Option (List Char)} {ns : List String}
    {vs : List (PVal F)} (h : HasCount e p v) (h1 : HasAttr e "_tfidf" (.obj "TfidfTransformer" w ns vs))
    (hw : ReadableVersion w) (h2 : HasTfidf (ns.zip vs) t) :
    ∃ r, Built d (TfidfPart :: countFields trunc) u e r ∧ readPattern r = .ok p ∧ readCount r = .ok v ∧
      ∃ r', r.attr "_tfidf" = .ok r' ∧ readTfidf r' = .ok t := by
  obtain ⟨l, hl, -, hr⟩ := count_rows trunc h
  obtain ⟨b, hb, hrb⟩ := tfidf_built "feature_extraction.text.TfidfTransformerPure" hw h2
  have hp : Plain b := by
    obtain ⟨-, l, -, hp, rfl⟩ := hb
    refine .pure _ _ _ ?_
    intro x hx
    obtain ⟨p, hp', rfl⟩ := List.mem_map.1 hx
    exact hp p hp'
  refine ⟨_, builtP hu (rp_cons ⟨w, ns, vs, b, h1, hb, rfl⟩ hp hl), ?_⟩
  have := hr d [("_tfidf", b)] (by simp [List.lookup_cons])
  refine ⟨this.1, this.2, b, ?_, hrb⟩
  simp [attr_mk, List.lookup_cons]

theorem hashing_built (d : String) {w : Option (List Char)} (hw : ReadableVersion w) {e : Attrs F}
    {p : String} {v : HashingVectorizer} (h : HasHashing e p v) :
    ∃ r, Built d ([DTyped, Copied "norm", Copied "binary"] ++ textFields ++
        [Copied "n_features", Copied "alternate_sign"]) w e r ∧
      readPattern r = .ok p ∧ readHashing r = .ok v := by
  obtain ⟨h1, h2, h3, h4, h5, h6⟩ := h
  obtain ⟨l, hl, hn, hr⟩ := text_rows h1
  obtain ⟨w2, h2, hw2, pw2⟩ := dtyped h2
  obtain ⟨w4, h4, hw4, pw4⟩ := hasNorm h4
  refine ⟨_, builtP hw (rp_append (rp_append (rp_cons h2 pw2 (rp_cons (copied h4) pw4 (rp_cons (copied h3) (.bool _)
    (rp_nil e)))) hl) (rp_cons (copied h5) (.int _) (rp_cons (copied h6) (.bool _) (rp_nil e)))), ?_⟩
  rw [List.append_assoc]
  have := hr d [("dtype", w2), ("norm", w4), ("binary", .bool v.binary)]
    [("n_features", .int v.nFeatures), ("alternate_sign", .bool v.alternateSign)] (by simp [List.lookup_cons])
  refine ⟨this.2, ?_⟩
  unfold readHashing
  rw [this.1, py_ok_bind]
  simp [attr_mk, lookup_append, List.lookup_cons, hn, PVal.truth, PVal.int', hw2, hw4, py_ok_bind]

theorem dictVec_built (d : String) {w : Option (List Char)} (hw : ReadableVersion w) {e : Attrs F}
    {v : DictVectorizer} (h : HasDictVec e v) :
    ∃ r, Built d [Copied "vocabulary_", Copied "feature_names_", Copied "sparse", DTyped, Copied "separator"] w e r ∧
      readDictVec r = .ok v := by
  obtain ⟨h1, ⟨w2, h2, p2⟩, h3, h4, h5⟩ := h
  obtain ⟨w4, h4, hw4, pw4⟩ := dtyped h4
  have hv := vocabulary_ok (F := F) v.vocabulary
  rw [List.map_map] at hv
  refine ⟨_, builtP hw (rp_cons (copied h1) hv.2 (rp_cons (copied h2) p2 (rp_cons (copied h3) (.bool _)
    (rp_cons h4 pw4 (rp_cons (copied h5) (.str _) (rp_nil e)))))), ?_⟩
  have h0 := hv.1
  unfold Function.comp at h0
  unfold readDictVec
  simp [attr_mk, List.lookup_cons, PVal.truth, PVal.text, hw4, h0, py_ok_bind]

theorem encoder_rows {e : Attrs F} {cats : List (List Str)} {t : DType} (h : HasCategories e cats t)
    {fs : List (FieldSpec F)} :
    ∃ w : PVal F, w.dtype = .ok t ∧ Plain w ∧ DTyped e [("dtype", w)] ∧
      ListedEach "categories_" e [("categories_", .list (cats.map vstrs))] ∧ NothingDropped e [] := by
  obtain ⟨h1, h2, h3⟩ := h
  obtain ⟨w, h2, hw, pw⟩ := dtyped h2
  refine ⟨w, hw, pw, h2, ⟨_, _, _, h1, .list _, ?_, rfl⟩, h3, rfl⟩
  rw [List.forall₂_map_left_iff, List.forall₂_map_right_iff]
  exact List.forall₂_same.2 fun c _ => .array _

theorem categories_ok (cats : List (List Str)) :
    (PVal.list (cats.map vstrs) : PVal F).items = .ok (cats.map vstrs) ∧
    (cats.map vstrs : List (PVal F)).mapM PVal.texts = .ok cats ∧ Plain (PVal.list (cats.map vstrs) : PVal F) := by
  refine ⟨rfl, ?_, plain_list_map _ plain_vstrs cats⟩
  have := mapM_map_ok (vstrs (F := F)) PVal.texts id texts_vstrs cats
  rwa [List.map_id] at this

theorem ordinal_built (d : String) {v : Option (List Char)} (hv : ReadableVersion v) {e : Attrs F}
    {cats : List (List Str)} {t : DType} (h : HasCategories e cats t) (h1 : NoAttr e "sparse")
    (h2 : NoAttr e "handle_unknown") :
    ∃ r, Built d encoderFields v e r ∧ readEncoder r = .ok ⟨cats, t, true, true⟩ := by
  obtain ⟨w, hw, pw, k1, k2, k3⟩ := encoder_rows h (fs := [])
  obtain ⟨c1, c2, c3⟩ := categories_ok (F := F) cats
  refine ⟨_, builtP hv (rp_cons k1 pw (rp_cons k2 c3 (rp_skip (.inl ⟨h1, rfl⟩) (rp_skip k3
    (rp_skip (.inl ⟨h2, rfl⟩) (rp_nil e)))))), ?_⟩
  unfold readEncoder
  simp [attr_mk, attr?_mk, List.lookup_cons, c1, c2, hw, PVal.truth, PVal.eqStr, py_ok_bind]

theorem oneHot_built (d : String) {v : Option (List Char)} (hv : ReadableVersion v) {e : Attrs F}
    {cats : List (List Str)} {t : DType} {sparse : Bool} {s : String} (h : HasCategories e cats t)
    (h1 : HasAttr e "sparse" (.bool sparse)) (h2 : HasAttr e "handle_unknown" (.str s)) :
    ∃ r, Built d encoderFields v e r ∧ readEncoder r = .ok ⟨cats, t, sparse, s = "error"⟩ := by
  obtain ⟨w, hw, pw, k1, k2, k3⟩ := encoder_rows h (fs := [])
  obtain ⟨c1, c2, c3⟩ := categories_ok (F := F) cats
  refine ⟨_, builtP hv (rp_cons k1 pw (rp_cons k2 c3 (rp_cons (.inr (copied h1)) (.bool _) (rp_skip k3
    (rp_cons (.inr (copied h2)) (.str _) (rp_nil e)))))), ?_⟩
  have hs : (PVal.str s : PVal F).eqStr "error" = decide (s = "error") := by
    rw [Bool.eq_iff_iff]; simp [PVal.eqStr]
  unfold readEncoder
  simp [attr_mk, attr?_mk, List.lookup_cons, c1, c2, hw, PVal.truth, hs, py_ok_bind]

end PurePredict
