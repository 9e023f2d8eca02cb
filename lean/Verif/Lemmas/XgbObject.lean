import Verif.Lemmas.EndToEnd
/-
The constructor of XGBClassifierPure, from the table of the booster's trees to the attributes of the
converted object.
-/
namespace PurePredict
open Spec
variable {F : Type} [Arith F]

theorem finish_plain (d : String) (l : Attrs F) (h : ∀ p ∈ l, Plain p.2) : finish d l = .ok (mkObj d l) ∧ Plain (mkObj d l) := by
  have hp : Plain (mkObj d l) := .pure _ _ _ fun v hv => by
    obtain ⟨p, hp, rfl⟩ := List.mem_map.1 hv
    exact h p hp
  refine ⟨?_, hp⟩
  unfold finish
  simp only
  have := plain_check hp
  rw [mkObj] at this
  rw [this, py_ok_bind]
  rfl

/-- Entries of a column and rows of the table, restricted to one tree. -/
theorem treeColumn_rows {df : Attrs F} {rows : List (FrameRow F)} {R : PVal F → FrameRow F → Prop} {n : String}
    {col : List (PVal F)} (ht : HasAttr df "Tree" (.list (rows.map fun r => .int r.tree))) (hn : HasAttr df n (.list col))
    (hR : List.Forall₂ R col rows) (idx : Nat) :
    ∃ c, treeColumn df idx n = .ok c ∧ List.Forall₂ R c (rows.filter fun r => r.tree == idx) := by
  unfold HasAttr at ht hn
  refine ⟨(((rows.map fun r => (.int r.tree : PVal F)).zip col).filter fun p => p.1.isIndex idx).map Prod.snd,
    by simp only [treeColumn, frameColumn, Dict.get?, ht, hn, PVal.entries, py_ok_bind, py_pure], ?_⟩
  clear hn ht
  induction hR with
  | nil => exact .nil
  | @cons v r col rows h _ ih =>
    have hb : (PVal.int (r.tree : Int) : PVal F).isIndex idx = (r.tree == idx) := by
      simp only [PVal.isIndex]
      by_cases h : r.tree = idx <;> simp [h]
    simp only [List.map_cons, List.zip_cons_cons, List.filter_cons, hb]
    cases r.tree == idx with
    | true => exact .cons h ih
    | false => exact ih

theorem mapM_of_rel {α β γ : Type} {f : α → Py γ} {g : β → Py γ} {l : List α} {l' : List β}
    (h : List.Forall₂ (fun a b => f a = g b) l l') : l.mapM f = l'.mapM g := by
  induction h with
  | nil => rfl
  | cons h _ ih => simp only [List.mapM_cons, h, ih]

theorem mapM_int {β : Type} (g : β → Py Int) (l : List β) :
    (l.mapM fun b => g b >>= fun i => (.ok (.int i) : Py (PVal F))) = l.mapM g >>= fun is => .ok (is.map .int) := by
  induction l with
  | nil => rfl
  | cons b l ih =>
    simp only [List.mapM_cons, ih]
    cases g b with
    | error e => rfl
    | ok i =>
      simp only [py_ok_bind]
      cases l.mapM g with
      | error e => rfl
      | ok is => rfl

theorem childId_of {v : PVal F} {c : Option Str} (h : IsChild v c) : v.childId = parseChild c >>= fun i => .ok (.int i) := by
  cases c with
  | some s =>
    cases h
    simp only [PVal.childId, PVal.str?, String.toList_ofList]
    rfl
  | none =>
    obtain ⟨x, rfl⟩ := h
    rfl

/-- the columns of one tree -/
theorem xgbTree_built {df : Attrs F} {rows : List (FrameRow F)} (h : HasFrame df rows) {idx : Nat} {t : Tree F (PVal F)}
    (ht : Tree.ofXgb (treeFrame rows idx) = .ok t) :
    ∃ o, initXgbTree df idx = .ok o ∧ Plain o ∧ readXgbTree o = .ok t := by
  obtain ⟨h0, hf, hs, hg, ⟨ys, hy, hyR⟩, ns, hn, hnR⟩ := h
  unfold Tree.ofXgb at ht
  obtain ⟨left, hl, ht⟩ := bind_ok_iff.1 ht
  obtain ⟨right, hr, ht⟩ := bind_ok_iff.1 ht
  obtain ⟨feat, hfe, ht⟩ := bind_ok_iff.1 ht
  cases ht
  have self : ∀ (g : FrameRow F → PVal F), List.Forall₂ (fun v r => v = g r) (rows.map g) rows := fun g => by
    rw [List.forall₂_map_left_iff]
    exact List.forall₂_same.2 fun _ _ => rfl
  obtain ⟨cs, hcs, cR⟩ := treeColumn_rows h0 (n := "Split") (col := rows.map fun r => .float r.split)
    (by rw [vnums, List.map_map] at hs; exact hs) (self fun r => .float r.split) idx
  obtain ⟨cg, hcg, gR⟩ := treeColumn_rows h0 (n := "Gain") (col := rows.map fun r => .float r.gain)
    (by rw [vnums, List.map_map] at hg; exact hg) (self fun r => .float r.gain) idx
  obtain ⟨cf, hcf, fR⟩ := treeColumn_rows h0 (n := "Feature") (col := rows.map fun r => .str (String.ofList r.feature))
    (by rw [vstrs, List.map_map] at hf; exact hf) (self fun r => .str (String.ofList r.feature)) idx
  obtain ⟨cy, hcy, yR⟩ := treeColumn_rows h0 hy hyR idx
  obtain ⟨cn, hcn, nR⟩ := treeColumn_rows h0 hn hnR idx
  have e1 : cs.mapM PVal.splitValue = .ok ((rows.filter fun r => r.tree == idx).map fun r =>
      if Arith.isnan r.split then .int (-2) else .float r.split) := by
    rw [mapM_of_rel (g := fun r : FrameRow F => .ok (if Arith.isnan r.split then .int (-2) else .float r.split))
      (cR.imp fun v r h => by rw [h]; rfl)]
    have := mapM_map_ok (id : FrameRow F → FrameRow F) (fun r : FrameRow F =>
      (.ok (if Arith.isnan r.split then .int (-2) else .float r.split) : Py (PVal F))) _ (fun r => rfl)
      (rows.filter fun r => r.tree == idx)
    rwa [List.map_id] at this
  have e2 : cg = (rows.filter fun r => r.tree == idx).map fun r => .float r.gain := by
    have : ∀ {l : List (PVal F)} {l' : List (FrameRow F)}, List.Forall₂ (fun v r => v = .float r.gain) l l' →
        l = l'.map fun r => .float r.gain := by
      intro l l' h
      induction h with
      | nil => rfl
      | cons h _ ih => rw [h, ih]; rfl
    exact this gR
  have e3 : cy.mapM PVal.childId = .ok (left.map .int) := by
    rw [mapM_of_rel (g := fun r : FrameRow F => parseChild r.yes >>= fun i => .ok (.int i)) (yR.imp fun v r h => childId_of h),
      mapM_int (fun r : FrameRow F => parseChild r.yes)]
    have : (treeFrame rows idx).yes.mapM parseChild = (rows.filter fun r => r.tree == idx).mapM fun r => parseChild r.yes := by
      rw [treeFrame, List.mapM_map]; rfl
    rw [← this, hl]
    rfl
  have e4 : cn.mapM PVal.childId = .ok (right.map .int) := by
    rw [mapM_of_rel (g := fun r : FrameRow F => parseChild r.no >>= fun i => .ok (.int i)) (nR.imp fun v r h => childId_of h),
      mapM_int (fun r : FrameRow F => parseChild r.no)]
    have : (treeFrame rows idx).no.mapM parseChild = (rows.filter fun r => r.tree == idx).mapM fun r => parseChild r.no := by
      rw [treeFrame, List.mapM_map]; rfl
    rw [← this, hr]
    rfl
  have e5 : cf.mapM PVal.featureId = .ok (feat.map .int) := by
    rw [mapM_of_rel (g := fun r : FrameRow F => parseFeature r.feature >>= fun i => .ok (.int i)) (fR.imp fun v r h => by
        rw [h]; simp only [PVal.featureId, PVal.str?, String.toList_ofList]; rfl),
      mapM_int (fun r : FrameRow F => parseFeature r.feature)]
    have : (treeFrame rows idx).feature.mapM parseFeature = (rows.filter fun r => r.tree == idx).mapM fun r => parseFeature r.feature := by
      rw [treeFrame, List.mapM_map]; rfl
    rw [← this, hfe]
    rfl
  have hth : Plain (.list ((rows.filter fun r => r.tree == idx).map fun r =>
      if Arith.isnan r.split then .int (-2) else .float r.split) : PVal F) := plain_list_map _ (fun r => by
    split
    · exact .int _
    · exact .float _) _
  have hv : (.list (cg.map fun a => .list [a]) : PVal F) = vmat (((rows.filter fun r => r.tree == idx).map (·.gain)).map fun a => [a]) := by
    rw [e2, vmat, List.map_map, List.map_map, List.map_map]
    rfl
  obtain ⟨f1, f2⟩ := finish_plain "tree._classes.DecisionTreeRegressorPure" [("threshold_",
    (.list ((rows.filter fun r => r.tree == idx).map fun r => if Arith.isnan r.split then .int (-2) else .float r.split) : PVal F)),
    ("value_", vmat (((rows.filter fun r => r.tree == idx).map (·.gain)).map fun a => [a])), ("children_left_", vints left),
    ("children_right_", vints right), ("feature_", vints feat)] (by
      intro p hp
      simp only [List.mem_cons, List.not_mem_nil, or_false] at hp
      rcases hp with rfl | rfl | rfl | rfl | rfl
      · exact hth
      · exact plain_vmat _
      · exact plain_vints _
      · exact plain_vints _
      · exact plain_vints _)
  refine ⟨_, ?_, f2, ?_⟩
  · unfold initXgbTree
    simp only [hcs, hcg, hcf, hcy, hcn, e1, e3, e4, e5, py_ok_bind, hv]
    exact f1
  · have hnum : (.list ((rows.filter fun r => r.tree == idx).map fun r =>
        if Arith.isnan r.split then .int (-2) else .float r.split) : PVal F).nums =
        .ok ((treeFrame rows idx).split.map fun x => if Arith.isnan x then ofInt (-2) else x) := by
      rw [treeFrame, List.map_map]
      refine mapM_map_ok _ _ _ (fun r => ?_) _
      simp only [Function.comp]
      cases Arith.isnan r.split <;> rfl
    unfold readXgbTree
    simp [attr_mk, List.lookup_cons, hnum, mat_vmat, ints_vints, py_ok_bind, treeFrame]

theorem xgbTrees_built {df : Attrs F} {rows : List (FrameRow F)} (h : HasFrame df rows) (k : Nat) :
    ∀ (idx : Nat) {ts : List (Tree F (PVal F))}, xgbRound (treeFrame rows) idx k = .ok ts →
      ∃ os, initXgbTrees df idx k = .ok os ∧ (∀ o ∈ os, Plain o) ∧ os.mapM readXgbTree = .ok ts := by
  induction k with
  | zero =>
    intro idx ts ht
    cases ht
    exact ⟨[], rfl, by simp, rfl⟩
  | succ k ih =>
    intro idx ts ht
    unfold xgbRound at ht
    obtain ⟨t, h1, ht⟩ := bind_ok_iff.1 ht
    obtain ⟨ts', h2, ht⟩ := bind_ok_iff.1 ht
    cases ht
    obtain ⟨o, o1, o2, o3⟩ := xgbTree_built h h1
    obtain ⟨os, p1, p2, p3⟩ := ih (idx + 1) h2
    refine ⟨o :: os, ?_, ?_, ?_⟩
    · simp only [initXgbTrees, o1, p1, py_ok_bind, py_pure]
    · intro x hx
      rcases List.mem_cons.1 hx with rfl | hx
      · exact o2
      · exact p2 x hx
    · simp only [List.mapM_cons, o3, p3, py_ok_bind, py_pure]

theorem xgbRounds_built {df : Attrs F} {rows : List (FrameRow F)} (h : HasFrame df rows) (K k : Nat) :
    ∀ (idx : Nat) {ts : List (List (Tree F (PVal F)))}, xgbRounds (treeFrame rows) K idx k = .ok ts →
      ∃ os, initXgbRounds df K idx k = .ok os ∧ (∀ o ∈ os, Plain o) ∧
        (os.mapM fun r => r.items >>= fun l => l.mapM readXgbTree) = .ok ts := by
  induction k with
  | zero =>
    intro idx ts ht
    cases ht
    exact ⟨[], rfl, by simp, rfl⟩
  | succ k ih =>
    intro idx ts ht
    unfold xgbRounds at ht
    obtain ⟨t, h1, ht⟩ := bind_ok_iff.1 ht
    obtain ⟨ts', h2, ht⟩ := bind_ok_iff.1 ht
    cases ht
    obtain ⟨o, o1, o2, o3⟩ := xgbTrees_built h K idx h1
    obtain ⟨os, p1, p2, p3⟩ := ih (idx + K) h2
    refine ⟨.list o :: os, ?_, ?_, ?_⟩
    · simp only [initXgbRounds, o1, p1, py_ok_bind, py_pure]
    · intro x hx
      rcases List.mem_cons.1 hx with rfl | hx
      · exact .list _ o2
      · exact p2 x hx
    · have hi : (PVal.list o).items = .ok o := rfl
      simp only [List.mapM_cons, hi, o3, p3, py_ok_bind, py_pure]

/-- The constructor of XGBClassifierPure keeps what the booster says. -/
theorem xgb_built {v : Option (List Char)} {e : Attrs F} {ob : String} {cs : List (PVal F)} {rows : List (FrameRow F)}
    {m : Xgb F (PVal F)} {K n : Nat} (h1 : HasAttr e "objective" (.str ob)) (h2 : HasAttr e "booster" (.str "gbtree"))
    (h3 : HasLabels e cs) (h4 : HasAttr e "n_classes_" (.int K)) (h5 : HasAttr e "n_estimators" (.int n))
    (h6 : HasBooster e rows) (hm : Xgb.ofBooster ob "gbtree" cs K n (treeFrame rows) = .ok m) :
    ∃ o, initXgb ⟨"XGBClassifier", v, e⟩ = .ok o ∧ Plain o ∧ readXgb o = .ok m := by
  obtain ⟨c, w, ns, vs, c', w', cs', ds, hb, hd, hf⟩ := h6
  unfold Xgb.ofBooster at hm
  obtain ⟨obj, hob, hm⟩ := bind_ok_iff.1 hm
  obtain ⟨ts, hts, hm⟩ := bind_ok_iff.1 hm
  cases hm
  have hob' : ((PVal.str ob : PVal F).eqStr "binary:logistic" || (PVal.str ob : PVal F).eqStr "multi:softprob") = true := by
    unfold xgbCheck at hob
    simp only [PVal.eqStr]
    cases h : ob == "binary:logistic" with
    | true => rfl
    | false =>
      cases h' : ob == "multi:softprob" with
      | true => rfl
      | false => rw [h, h'] at hob; cases hob
  obtain ⟨es, he, hp, hr⟩ : ∃ es, (if (K : Int) == 2 then initXgbTrees (cs'.zip ds) 0 n
      else initXgbRounds (cs'.zip ds) K 0 n) = .ok es ∧ (∀ o ∈ es, Plain o) ∧ readXgbTrees K es = .ok ts := by
    unfold xgbBuild at hts
    unfold readXgbTrees
    by_cases hK : K = 2
    · subst hK
      simp only [beq_self_eq_true, if_true] at hts ⊢
      obtain ⟨tr, h, hts⟩ := bind_ok_iff.1 hts
      cases hts
      obtain ⟨os, a, b, c⟩ := xgbTrees_built hf n 0 h
      exact ⟨os, a, b, by rw [c]; rfl⟩
    · have k1 : (K == 2) = false := by simpa using hK
      have k2 : ((K : Int) == 2) = false := by
        simp only [beq_eq_false_iff_ne, ne_eq]
        omega
      rw [k1] at hts
      rw [k1, k2]
      simp only [Bool.false_eq_true, if_false] at hts ⊢
      obtain ⟨tr, h, hts⟩ := bind_ok_iff.1 hts
      cases hts
      obtain ⟨os, a, b, c⟩ := xgbRounds_built hf K n 0 h
      exact ⟨os, a, b, by rw [c]; rfl⟩
  obtain ⟨f1, f2⟩ := finish_plain "xgboost._classes.XGBClassifierPure" [("objective", (.str ob : PVal F)), ("booster", .str "gbtree"),
    ("classes_", .list cs), ("n_classes_", .int K), ("n_estimators", .int n), ("estimators_", .list es)] (by
      intro p hp'
      simp only [List.mem_cons, List.not_mem_nil, or_false] at hp'
      rcases hp' with rfl | rfl | rfl | rfl | rfl | rfl
      · exact .str _
      · exact .str _
      · exact .list _ h3.2
      · exact .int _
      · exact .int _
      · exact .list _ hp)
  have h3' := h3.1
  unfold HasAttr at h1 h2 h3' h4 h5 hb hd
  refine ⟨_, ?_, f2, ?_⟩
  · unfold initXgb
    simp only [Fitted.get, Fitted.array, Dict.get?, h1, h2, h3', h4, h5, hb, hd, py_ok_bind, hob', boosterFrame, PVal.index,
      PVal.tolist, Int.toNat_natCast]
    have hg : ((PVal.str "gbtree" : PVal F).eqStr "gbtree") = true := by simp [PVal.eqStr]
    simp only [hg, Bool.not_true, Bool.false_eq_true, if_false]
    cases hk : ((K : Int) == 2) with
    | true =>
      rw [hk, if_pos rfl] at he
      simp only [if_true, he, py_ok_bind]
      exact f1
    | false =>
      rw [hk, if_neg (by simp)] at he
      simp only [Bool.false_eq_true, if_false, he, py_ok_bind]
      exact f1
  · unfold readXgb
    simp [attr_mk, List.lookup_cons, PVal.text, PVal.nat, PVal.int', PVal.items, py_ok_bind, hob, hr]

end PurePredict
