import Verif.Lemmas.MemberOrderObject
import Verif.Spec.Regrouped
import Verif.Props.C89
/-
Ensembles of ensembles.
-/
namespace PurePredict
open Spec
variable {lib : String → TextLib} {encode : Str → List Nat}

namespace Regroup

/-! ### Piles of piles -/
section
variable {α : Type} (op : α → α → Py α)

abbrev put (a : α) (q : Py α) : Py α := q >>= op a

theorem assoc_of (hc : ∀ a b, Alongside Eq (op a b) (op b a)) (hr : ∀ a b c, Alongside Eq (op a b >>= fun s => op s c) (op a c >>= fun s => op s b)) (a b c : α) :
    Alongside Eq (op b c >>= op a) (op a b >>= fun s => op s c) := by
  refine Alongside.trans ?_ (((hc b a).next fun s => op s c))
  refine Alongside.trans ?_ (hr b a c).symm
  refine Alongside.trans (.after _ fun s _ => hc a s) ?_
  exact .same _

variable {op} (ha : ∀ a b c, Alongside Eq (op b c >>= op a) (op a b >>= fun s => op s c))
include ha

theorem fold_onto (ms : List (Py α)) (p a : α) :
    Alongside Eq (ms.foldlM (fun a q => q >>= op a) p >>= op a) (op a p >>= fun b => ms.foldlM (fun a q => q >>= op a) b) := by
  induction ms generalizing p a with
  | nil =>
    show Alongside Eq (op a p) (op a p >>= pure)
    rw [bind_pure]
    exact .same _
  | cons q ms ih =>
    simp only [foldlM_cons']
    cases q with
    | error e =>
      show Alongside Eq (Except.error e) (op a p >>= fun _ => Except.error e)
      cases op a p <;> exact .fail
    | ok x =>
      simp only [py_ok_bind]
      rw [bind_assoc]
      refine Alongside.trans (.after _ fun b _ => ih b a) ?_
      rw [← bind_assoc, ← bind_assoc]
      exact (ha a p x).next _

theorem pile_onto {g : List (Py α)} (hg : g ≠ []) (a : α) : Alongside Eq (pile op g >>= op a) (g.foldlM (fun a q => q >>= op a) a) := by
  cases g with
  | nil => exact absurd rfl hg
  | cons m ms =>
    unfold pile
    rw [foldlM_cons', bind_assoc, bind_assoc]
    exact .after _ fun p _ => fold_onto ha ms p a

theorem pile_flatten {gs : List (List (Py α))} (hg : ∀ g ∈ gs, g ≠ []) : Alongside Eq (pile op (gs.map (pile op))) (pile op gs.flatten) := by
  have fold : ∀ {gs : List (List (Py α))}, (∀ g ∈ gs, g ≠ []) → ∀ a, Alongside Eq ((gs.map (pile op)).foldlM (fun a q => q >>= op a) a) (gs.flatten.foldlM (fun a q => q >>= op a) a) := by
    intro gs hg
    induction gs with
    | nil => exact fun a => .same _
    | cons g gs ih =>
      intro a
      rw [List.map_cons, foldlM_cons', List.flatten_cons, List.foldlM_append]
      exact (pile_onto ha (hg g (by simp)) a).bind fun x y e => by cases e; exact ih (fun g h => hg g (by simp [h])) _
  cases gs with
  | nil => exact .fail
  | cons g gs =>
    rw [List.map_cons, List.flatten_cons]
    cases g with
    | nil => exact absurd rfl (hg [] (by simp))
    | cons m ms =>
      show Alongside Eq (pile op (m :: ms) >>= fun p => _) (pile op (m :: (ms ++ gs.flatten)))
      unfold pile
      rw [bind_assoc]
      refine .after _ fun p _ => ?_
      rw [List.foldlM_append]
      exact .after _ fun b _ => fold (fun g h => hg g (by simp [h])) b

omit ha in
theorem pile_hom (h : α → α) (hh : ∀ a b, Alongside Eq (op (h a) (h b)) (op a b >>= fun s => .ok (h s))) (l : List (Py α)) :
    Alongside Eq (pile op (l.map fun m => m >>= fun a => .ok (h a))) (pile op l >>= fun s => .ok (h s)) := by
  have fold : ∀ (l : List (Py α)) a, Alongside Eq ((l.map fun m => m >>= fun a => .ok (h a)).foldlM (fun a q => q >>= op a) (h a))
      (l.foldlM (fun a q => q >>= op a) a >>= fun s => .ok (h s)) := by
    intro l
    induction l with
    | nil => exact fun a => .same _
    | cons m l ih =>
      intro a
      rw [List.map_cons, foldlM_cons', foldlM_cons']
      simp only [bind_assoc]
      refine .after _ fun b _ => ?_
      rw [py_ok_bind]
      refine ((hh a b).next _).trans ?_
      rw [bind_assoc]
      refine .after _ fun s _ => ?_
      rw [py_ok_bind]
      exact ih s
  cases l with
  | nil => exact .fail
  | cons m l =>
    rw [List.map_cons]
    show Alongside Eq ((m >>= fun a => .ok (h a)) >>= fun p => _) ((m >>= fun p => _) >>= _)
    rw [bind_assoc, bind_assoc]
    exact .after _ fun p _ => fold l p

end

/-! ### Dividing sums -/

/-- division by a positive whole number -/
noncomputable def over (n : Nat) : Ex → Ex
  | .fin a => .fin (a / n)
  | .pinf => .pinf
  | .ninf => .ninf
  | .nan => .nan

theorem ofInt_ex (n : Nat) : (ofInt (n : Int) : Ex) = .fin (n : ℝ) := by
  show XR.round (((n : Int) : ℤ) : ℝ) = _
  rw [XR.round_exact]
  simp

theorem div_over {n : Nat} (hn : 0 < n) (x : Ex) : Arith.div x (ofInt (n : Int)) = .ok (over n x) := by
  have h0 : (n : ℝ) ≠ 0 := by exact_mod_cast hn.ne'
  have hp : (0 : ℝ) < n := by exact_mod_cast hn
  rw [ofInt_ex]
  show XR.div x _ = _
  cases x <;> simp [XR.div, over, XR.infMul, h0, hp, XR.round_exact, hp.not_gt]

theorem over_add (n : Nat) (a b : Ex) : (over n a +ₚ over n b) = over n (a +ₚ b) := by
  show XR.add _ _ = over n (XR.add a b)
  cases a <;> cases b <;> simp [over, XR.add, XR.round_exact, add_div]

theorem over_over (m n : Nat) (a : Ex) : over m (over n a) = over (m * n) a := by
  cases a <;> simp [over, div_div, mul_comm]

theorem over_one (a : Ex) : over 1 a = a := by cases a <;> simp [over]

/-- `j` times the same number -/
noncomputable def times (j : Nat) : Ex → Ex
  | .fin a => .fin (j * a)
  | .pinf => .pinf
  | .ninf => .ninf
  | .nan => .nan

theorem times_one (a : Ex) : times 1 a = a := by cases a <;> simp [times]

theorem times_add (j : Nat) (a : Ex) : (times j a +ₚ a) = times (j + 1) a := by
  show XR.add _ _ = _
  cases a <;> simp [times, XR.add, XR.round_exact, add_mul]

theorem over_times {j : Nat} (hj : 0 < j) (n : Nat) (a : Ex) : over (j * n) (times j a) = over n a := by
  have h0 : (j : ℝ) ≠ 0 := by exact_mod_cast hj.ne'
  cases a <;> simp [times, over]
  field_simp

/-- all entries -/
abbrev each (f : Ex → Ex) (M : List (List Ex)) : List (List Ex) := M.map fun r => r.map f

theorem apply_over {n : Nat} (hn : 0 < n) (M : List (List Ex)) : apply2d (.ofMat M) (fun x => x /ₚ ofInt (n : Int)) = .ok (each (over n) M) := by
  rw [apply2d_ofMat]
  have : ∀ r : List Ex, (r.mapM fun x => Arith.div x (ofInt (n : Int))) = .ok (r.map (over n)) := by
    intro r
    exact mapM_ok_iff.2 (by
      induction r with
      | nil => exact .nil
      | cons x r ih => exact .cons (div_over hn x) ih)
  exact mapM_ok_iff.2 (by
    induction M with
    | nil => exact .nil
    | cons r M ih => exact .cons (this r) ih)

theorem each_shape (f : Ex → Ex) (M : List (List Ex)) : (Arr.ofMat (each f M)).shape = (Arr.ofMat M).shape := by
  cases M with
  | nil => rfl
  | cons r M =>
    show (.ok (.d2 (List.map Row.list (each f (r :: M))).length (some (r.map f).length)) : Py Shape) = .ok (.d2 (List.map Row.list (r :: M)).length (some r.length))
    simp [each]

theorem zipZip_each {f : Ex → Ex} (h : ∀ a b, (f a +ₚ f b) = f (a +ₚ b)) (A B : List (List Ex)) :
    (each f A).zipWith (List.zipWith Arith.add) (each f B) = each f (A.zipWith (List.zipWith Arith.add) B) := by
  have row : ∀ a b : List Ex, List.zipWith Arith.add (a.map f) (b.map f) = (List.zipWith Arith.add a b).map f := by
    intro a
    induction a with
    | nil => simp
    | cons x a ih =>
      intro b
      cases b with
      | nil => simp
      | cons y b => simp only [List.map_cons, List.zipWith_cons_cons, ih, h]
  induction A generalizing B with
  | nil => simp
  | cons a A ih =>
    cases B with
    | nil => simp
    | cons b B =>
      simp only [each, List.map_cons, List.zipWith_cons_cons, row]
      exact congrArg _ (ih B)

noncomputable abbrev plus (A B : List (List Ex)) : Py (List (List Ex)) := operate2d (.ofMat A) (.ofMat B) Arith.add

theorem plus_over (n : Nat) (A B : List (List Ex)) : Alongside Eq (plus (each (over n) A) (each (over n) B)) (plus A B >>= fun s => .ok (each (over n) s)) := by
  unfold plus
  simp only [operate2d_shapes, each_shape, bind_assoc]
  refine .after _ fun a _ => .after _ fun b _ => ?_
  split
  · exact .fail
  · exact .done (zipZip_each (over_add n) A B)

theorem plus_assoc (a b c : List (List Ex)) : Alongside Eq (plus b c >>= plus a) (plus a b >>= fun s => plus s c) :=
  assoc_of plus sum_comm (sum_right anyOrder_exact) a b c

/-! ### Ensembles -/

theorem ensemble_proba (cs : List (PVal Ex)) (es : List (Methods Ex)) (X : Arr Ex) :
    (⟨none, cs, es.map fun m => ⟨m.runProba⟩⟩ : Bagging Ex (PVal Ex)).predictProba X =
      (pile plus (es.map fun m => m.runProba X) >>= fun p => apply2d (.ofMat p) fun x => x /ₚ ofInt (es.length : Int)) := by
  have e : (List.range (es.map fun m => (⟨m.runProba⟩ : Member Ex)).length).map
      ((⟨none, cs, es.map fun m => ⟨m.runProba⟩⟩ : Bagging Ex (PVal Ex)).memberProba X) = es.map fun m => m.runProba X := by
    rw [List.length_map]
    refine range_map_get es _ _ fun i a ha => ?_
    unfold Bagging.memberProba
    rw [pyGet_ok_nat.2 (by rw [List.getElem?_map, ha]; rfl)]
    rfl
  rw [predictProba_pile, e, List.length_map]

theorem agree_of {cs : List (PVal Ex)} {es es' : List (Methods Ex)}
    (h : ∀ X, Alongside Eq ((⟨none, cs, es.map fun m => ⟨m.runProba⟩⟩ : Bagging Ex (PVal Ex)).predictProba X) ((⟨none, cs, es'.map fun m => ⟨m.runProba⟩⟩ : Bagging Ex (PVal Ex)).predictProba X)) :
    AllAgree (ensembleEst none cs es) (ensembleEst none cs es') := by
  unfold ensembleEst
  refine classifier_agree (fun X => ?_) h fun X => (h X).next _
  exact (h X).next _

/-- what an ensemble of `n` members gives -/
theorem runProba_average {n : Nat} (hn : 0 < n) (cs : List (PVal Ex)) {es : List (Methods Ex)} (hl : es.length = n) (X : Arr Ex) :
    (ensembleEst none cs es).runProba X = (pile plus (es.map fun m => m.runProba X) >>= fun p => .ok (each (over n) p)) := by
  show (⟨none, cs, es.map fun m => ⟨m.runProba⟩⟩ : Bagging Ex (PVal Ex)).predictProba X = _
  rw [ensemble_proba, hl]
  simp only [apply_over hn]

theorem flat_agree {n : Nat} (hn : 0 < n) {gs : List (List (PVal Ex) × List (Methods Ex))} (hg : ∀ g ∈ gs, g.2.length = n) (cs : List (PVal Ex)) :
    AllAgree (ensembleEst none cs (gs.map fun g => ensembleEst none g.1 g.2)) (ensembleEst none cs (gs.map Prod.snd).flatten) := by
  refine agree_of fun X => ?_
  rw [ensemble_proba, ensemble_proba]
  have hlen : (gs.map Prod.snd).flatten.length = gs.length * n := by
    rw [List.length_flatten, List.map_map]
    have : (gs.map (List.length ∘ Prod.snd)) = List.replicate gs.length n := by
      refine List.eq_replicate_iff.2 ⟨by simp, fun b hb => ?_⟩
      obtain ⟨g, h1, rfl⟩ := List.mem_map.1 hb
      exact hg g h1
    rw [this, List.sum_replicate, smul_eq_mul]
  cases hgs : gs with
  | nil => exact .fail
  | cons g0 gs0 =>
    rw [← hgs]
    have hm : 0 < gs.length := by simp [hgs]
    have h1 : (gs.map fun g => ensembleEst none g.1 g.2).map (fun m => m.runProba X) =
        (gs.map fun g => pile plus (g.2.map fun m => m.runProba X)).map fun m => m >>= fun a => .ok (each (over n) a) := by
      rw [List.map_map, List.map_map]
      exact List.map_congr_left fun g hgm => runProba_average hn g.1 (hg g hgm) X
    have h2 : ((gs.map Prod.snd).flatten.map fun m => m.runProba X) = (gs.map fun g => g.2.map fun m => m.runProba X).flatten := by
      rw [List.map_flatten, List.map_map]
      rfl
    rw [h1, h2, hlen, List.length_map]
    have h3 := (pile_hom (op := plus) (each (over n)) (plus_over n) (gs.map fun g => pile plus (g.2.map fun m => m.runProba X)))
    have h4 : Alongside Eq (pile plus (gs.map fun g => pile plus (g.2.map fun m => m.runProba X))) (pile plus (gs.map fun g => g.2.map fun m => m.runProba X).flatten) := by
      have := pile_flatten plus_assoc (gs := gs.map fun g => g.2.map fun m => m.runProba X) (by
        intro g hgm
        obtain ⟨p, hp, rfl⟩ := List.mem_map.1 hgm
        have := hg p hp
        intro e
        rw [List.map_eq_nil_iff] at e
        rw [e] at this
        simp at this
        omega)
      rwa [List.map_map] at this
    refine ((h3.trans (h4.next _)).next _).trans ?_
    rw [bind_assoc]
    refine .after _ fun p _ => ?_
    rw [py_ok_bind, apply_over hm, apply_over (Nat.mul_pos hm hn)]
    refine .done ?_
    simp only [each, List.map_map, Function.comp_def, over_over]

theorem plus_times {S : List (List Ex)} {s : Shape} (hs : (Arr.ofMat S).shape = .ok s) (j : Nat) : plus (each (times j) S) S = .ok (each (times (j + 1)) S) := by
  unfold plus
  rw [operate2d_shapes, each_shape, hs]
  simp only [py_ok_bind, bne_self_eq_false, Bool.false_eq_true, if_false]
  have row : ∀ a : List Ex, List.zipWith Arith.add (a.map (times j)) a = a.map (times (j + 1)) := by
    intro a
    induction a with
    | nil => rfl
    | cons x a ih => simp only [List.map_cons, List.zipWith_cons_cons, ih, times_add]
  congr 1
  clear hs
  induction S with
  | nil => rfl
  | cons a S ih =>
    simp only [each, List.map_cons, List.zipWith_cons_cons, row]
    exact congrArg _ ih

theorem pile_copies {S : List (List Ex)} {s : Shape} (hs : (Arr.ofMat S).shape = .ok s) (j : Nat) :
    pile plus (List.replicate (j + 1) (.ok S)) = .ok (each (times (j + 1)) S) := by
  have fold : ∀ (j i : Nat), (List.replicate j (.ok S : Py (List (List Ex)))).foldlM (fun a q => q >>= plus a) (each (times i) S) = .ok (each (times (i + j)) S) := by
    intro j
    induction j with
    | zero => exact fun i => rfl
    | succ j ih =>
      intro i
      rw [List.replicate_succ, foldlM_cons', py_ok_bind, plus_times hs, py_ok_bind, ih, Nat.add_right_comm, Nat.add_assoc]
  have one : each (times 1) S = S := by simp [each, times_one, List.map_id'']
  have := fold j 1
  rw [one] at this
  rw [List.replicate_succ]
  show (List.replicate j (.ok S : Py (List (List Ex)))).foldlM (fun a q => q >>= plus a) S = _
  rw [this, Nat.add_comm]

theorem plus_shape {A B S : List (List Ex)} (h : plus A B = .ok S) : ∃ s, (Arr.ofMat S).shape = .ok s := by
  unfold plus at h
  rw [operate2d_shapes] at h
  obtain ⟨a, ha, h⟩ := bind_ok_iff.1 h
  obtain ⟨b, hb, h⟩ := bind_ok_iff.1 h
  split at h
  · cases h
  · rename_i hne
    cases h
    have : a = b := by simpa using hne
    subst this
    exact ⟨a, shape_sum _ ha hb⟩

theorem fold_shape {l : List (Py (List (List Ex)))} (hl : l ≠ []) {a S : List (List Ex)} (h : l.foldlM (fun a q => q >>= plus a) a = .ok S) : ∃ s, (Arr.ofMat S).shape = .ok s := by
  induction l generalizing a with
  | nil => exact absurd rfl hl
  | cons q l ih =>
    rw [foldlM_cons'] at h
    obtain ⟨b, hb, h⟩ := bind_ok_iff.1 h
    cases l with
    | nil =>
      cases h
      obtain ⟨x, -, hx⟩ := bind_ok_iff.1 hb
      exact plus_shape hx
    | cons q' l' => exact ih (by simp) h

theorem once_agree {j : Nat} (hj : 0 < j) {es : List (Methods Ex)} (h2 : 2 ≤ es.length) (cs : List (PVal Ex)) :
    AllAgree (ensembleEst none cs (List.replicate j es).flatten) (ensembleEst none cs es) := by
  refine agree_of fun X => ?_
  rw [ensemble_proba, ensemble_proba]
  obtain ⟨j, rfl⟩ : ∃ i, j = i + 1 := ⟨j - 1, by omega⟩
  have hlen : (List.replicate (j + 1) es).flatten.length = (j + 1) * es.length := by simp
  have h1 : ((List.replicate (j + 1) es).flatten.map fun m => m.runProba X) = (List.replicate (j + 1) (es.map fun m => m.runProba X)).flatten := by
    rw [List.map_flatten, List.map_replicate]
  rw [h1, hlen]
  have hne : (es.map fun m => m.runProba X) ≠ [] := by
    intro e
    rw [List.map_eq_nil_iff] at e
    rw [e] at h2
    simp at h2
  have h3 := pile_flatten plus_assoc (gs := List.replicate (j + 1) (es.map fun m => m.runProba X)) (fun g hg => by rw [List.eq_of_mem_replicate hg]; exact hne)
  rw [List.map_replicate] at h3
  refine (h3.symm.next _).trans ?_
  cases hS : pile plus (es.map fun m => m.runProba X) with
  | error e => exact .fail
  | ok S =>
    obtain ⟨s, hs⟩ : ∃ s, (Arr.ofMat S).shape = .ok s := by
      match es, h2, hS with
      | a :: b :: r, _, hS =>
        obtain ⟨p, -, hS⟩ := bind_ok_iff.1 hS
        exact fold_shape (by simp) hS
    have hpos : 0 < es.length := by omega
    rw [pile_copies hs, py_ok_bind, py_ok_bind, apply_over hpos, apply_over (Nat.mul_pos (Nat.succ_pos j) hpos)]
    refine .done ?_
    simp only [each, List.map_map, Function.comp_def, over_times (Nat.succ_pos j)]

/-! ### Whole objects -/

theorem groups_behave {n : Nat} {os : List (SkObj (Attrs Ex) (PVal Ex) Ex)} {mss : List (List (SkObj (Attrs Ex) (PVal Ex) Ex))} (h : List.Forall₂ (Averages n) os mss) {es : List (Methods Ex)}
    (he : List.Forall₂ (Behaves lib encode) os es) :
    ∃ gs : List (List (PVal Ex) × List (Methods Ex)), es = gs.map (fun g => ensembleEst none g.1 g.2) ∧ (∀ g ∈ gs, g.2.length = n) ∧
      List.Forall₂ (Behaves lib encode) mss.flatten (gs.map Prod.snd).flatten := by
  induction h generalizing es with
  | nil => cases he; exact ⟨[], rfl, by simp, .nil⟩
  | @cons o ms os mss ho _ ih =>
    cases he with
    | @cons _ e _ es hb hs =>
      obtain ⟨gs, h1, h2, h3⟩ := ih hs
      cases ho with
      | @mk k v cs ms hl =>
        cases hb with
        | @ensemble _ _ _ _ _ fs hv hpl hm =>
          refine ⟨(cs, fs) :: gs, by rw [h1]; rfl, ?_, ?_⟩
          · intro g hg
            rcases List.mem_cons.1 hg with rfl | hg
            · rw [← hl]; exact hm.length_eq.symm
            · exact h2 g hg
          · rw [List.flatten_cons, List.map_cons, List.flatten_cons]
            exact List.rel_append hm h3

theorem behaves_unique {o : SkObj (Attrs Ex) (PVal Ex) Ex} {f g : Methods Ex} (h : Behaves lib encode o f) (h' : Behaves lib encode o g) : f = g := by
  obtain ⟨c, hc, rfl⟩ := C89_converted_behaves (fun _ => .ok 0) lib encode o f h
  obtain ⟨c', hc', rfl⟩ := C89_converted_behaves (fun _ => .ok 0) lib encode o g h'
  rw [hc] at hc'
  cases hc'
  rfl

theorem behave_unique {os : List (SkObj (Attrs Ex) (PVal Ex) Ex)} {fs gs : List (Methods Ex)} (h : List.Forall₂ (Behaves lib encode) os fs) (h' : List.Forall₂ (Behaves lib encode) os gs) :
    fs = gs := by
  induction h generalizing gs with
  | nil => cases h'; rfl
  | cons h _ ih =>
    cases h' with
    | cons h1 h2 => rw [behaves_unique h h1, ih h2]

theorem flatten_behave {ms : List (SkObj (Attrs Ex) (PVal Ex) Ex)} {fs : List (Methods Ex)} (h : List.Forall₂ (Behaves lib encode) ms fs) (j : Nat) :
    List.Forall₂ (Behaves lib encode) (List.replicate j ms).flatten (List.replicate j fs).flatten := by
  induction j with
  | zero => exact .nil
  | succ j ih =>
    rw [List.replicate_succ, List.replicate_succ, List.flatten_cons, List.flatten_cons]
    exact List.rel_append h ih

theorem copies_behave {j : Nat} (hj : 0 < j) {ms : List (SkObj (Attrs Ex) (PVal Ex) Ex)} {es : List (Methods Ex)}
    (he : List.Forall₂ (Behaves lib encode) (List.replicate j ms).flatten es) : ∃ fs, List.Forall₂ (Behaves lib encode) ms fs ∧ es = (List.replicate j fs).flatten := by
  obtain ⟨i, rfl⟩ : ∃ i, j = i + 1 := ⟨j - 1, by omega⟩
  have h := he
  rw [List.replicate_succ, List.flatten_cons] at h
  have h1 := List.forall₂_take_append (R := fun b a => Behaves lib encode a b) es ms _ h.flip
  have h2 := h1.flip
  exact ⟨_, h2, behave_unique he (flatten_behave h2 (i + 1))⟩

theorem behaves_regrouped {o o' : SkObj (Attrs Ex) (PVal Ex) Ex} (h : Regrouped o o') {f : Methods Ex} (hb : Behaves lib encode o f) :
    ∃ f', Behaves lib encode o' f' ∧ AllAgree f f' := by
  induction h generalizing f with
  | same => exact ⟨f, hb, allAgree_refl f⟩
  | trans _ _ ih1 ih2 =>
    obtain ⟨g, h1, h2⟩ := ih1 hb
    obtain ⟨k, h3, h4⟩ := ih2 h1
    exact ⟨k, h3, allAgree_trans h2 h4⟩
  | flat hn hg =>
    cases hb with
    | ensemble hv hpl he =>
      obtain ⟨gs, rfl, h1, h2⟩ := groups_behave hg he
      exact ⟨_, .ensemble hv hpl h2, flat_agree hn h1 _⟩
  | once hj h2 =>
    cases hb with
    | ensemble hv hpl he =>
      obtain ⟨fs, h1, rfl⟩ := copies_behave hj he
      exact ⟨_, .ensemble hv hpl h1, once_agree hj (h1.length_eq ▸ h2) _⟩
  | @inPipeline v steps n o o' _ ih =>
    cases hb with
    | @pipeline _ _ es hv he =>
      rw [List.map_append] at he
      obtain ⟨zs, z, rfl, g1, g2⟩ := forall₂_snoc he
      obtain ⟨z', h1, h2⟩ := ih g2
      refine ⟨_, .pipeline (es := zs ++ [z']) hv ?_, ?_⟩
      · rw [List.map_append]
        exact forall₂_append_one g1 h1
      · have hl : (steps.map Prod.fst).length = zs.length := by rw [← g1.length_eq]; simp
        have e : ∀ x : SkObj (Attrs Ex) (PVal Ex) Ex, ∀ y : Methods Ex, ((steps ++ [(n, x)]).map Prod.fst).zip (zs ++ [y]) = (steps.map Prod.fst).zip zs ++ [(n, y)] := by
          intro x y
          rw [List.map_append, List.zip_append hl]
          rfl
        rw [e, e]
        exact pipe_agree h2 _ n
  | @inEnsemble k v fs cs ms ms' hlen _ ih =>
    cases hb with
    | @ensemble _ _ _ _ _ es hv hpl he =>
      obtain ⟨es', h1, h2⟩ := behaves_both he hlen fun p hp f hf => ih p hp hf
      exact ⟨_, .ensemble hv hpl h1, inEnsemble_agree h2 _ _⟩
  | @inStart v cs stages init init' loss args _ ih =>
    cases hb with
    | @boosting _ _ _ _ _ lr nf l es e hv hpl he h0 hl =>
      obtain ⟨e', h1, h2⟩ := ih h0
      exact ⟨_, .boosting hv hpl he h1 hl, inStart_agree h2 _ _ _ _ _⟩

end Regroup
end PurePredict
