import Verif.Lemmas.EnclosureArith
import Verif.Lemmas.RisingFit
import Verif.Lemmas.UnfailingFit
/-
Answers of single estimators are within the bounds of a certificate.
-/
namespace PurePredict
open Spec
variable {fp : FP}

/-! ### Requests -/

theorem inBox_length {B : List Span} {x : List (XR fp)} (h : InBox B x) : x.length = B.length := h.length_eq.symm

theorem Spec.Holding.rect {B : List Span} {M : List (List (XR fp))} (h : Holding B M) : Rect B.length M := fun x hx => inBox_length (h.2 x hx)

/-- An answer record by record. -/
theorem rows_answer {B : List Span} {M : List (List (XR fp))} (h : Holding B M) {β : Type} {f : List (XR fp) → Py β} {Q : β → Prop}
    (hf : ∀ x, InBox B x → ∃ y, f x = .ok y ∧ Q y) : ∃ N, M.mapM f = .ok N ∧ N.length = M.length ∧ ∀ y ∈ N, Q y :=
  mapM_all fun x hx => hf x (h.2 x hx)

theorem replicate_of_all {α : Type} {l : List α} {n : Nat} {a : α} (h : l.length = n) (ha : ∀ x ∈ l, x = a) : l = List.replicate n a :=
  List.eq_replicate_iff.2 ⟨h, ha⟩

/-! ### Scalers -/

theorem columns_mapM {α β γ δ ε ζ : Type} {T : α → β → γ → Prop} {H : α → δ → Prop} {K : β → ε → Prop} {L : γ → ζ → Prop} {f : δ → ε → Py ζ}
    {as : List α} {bs : List β} {cs : List γ} {xs : List δ} {ys : List ε} (h : Columns T as bs cs) (hx : List.Forall₂ H as xs)
    (hy : List.Forall₂ K bs ys) (hf : ∀ a b c x y, T a b c → H a x → K b y → ∃ z, f x y = .ok z ∧ L c z) :
    ∃ zs, ((List.range ys.length).mapM fun (i : Nat) => pyGet xs (i : Int) >>= fun x => pyGet ys (i : Int) >>= fun y => f x y) = .ok zs ∧
      List.Forall₂ L cs zs := by
  obtain ⟨zs, h1, h2⟩ : ∃ zs, Columns (fun x y z => f x y = .ok z) xs ys zs ∧ List.Forall₂ L cs zs := by
    induction h generalizing xs ys with
    | nil =>
      cases hx; cases hy
      exact ⟨[], .nil, .nil⟩
    | cons h _ ih =>
      cases hx with
      | cons k k' =>
        cases hy with
        | cons j j' =>
          obtain ⟨z, e1, e2⟩ := hf _ _ _ _ _ h k j
          obtain ⟨zs, e3, e4⟩ := ih k' j'
          exact ⟨z :: zs, .cons e1 e3, .cons e2 e4⟩
  refine ⟨zs, ?_, h2⟩
  clear h hx hy h2
  obtain ⟨l1, l2⟩ := h1.lengths
  have key : ∀ i (_ : i < xs.length) (_ : i < ys.length) (_ : i < zs.length), f xs[i] ys[i] = .ok zs[i] := by
    clear l1 l2
    induction h1 with
    | nil => intro i hi; simp at hi
    | cons h _ ih =>
      intro i i1 i2 i3
      cases i with
      | zero => exact h
      | succ i => exact ih i (by simpa using i1) (by simpa using i2) (by simpa using i3)
  rw [mapM_ok_iff, List.forall₂_iff_get]
  refine ⟨by simp [l1, l2], fun i i1 i2 => ?_⟩
  simp only [List.length_range] at i1
  simp only [List.get_eq_getElem, List.getElem_range]
  rw [pyGet_lt (by omega), py_ok_bind, pyGet_lt i1, py_ok_bind]
  exact key i (by omega) i1 i2

theorem columnwise_holds {T : Span → Span → Span → Prop} {f : XR fp → XR fp → Py (XR fp)}
    (hf : ∀ a b c x y, T a b c → a.Holds x → b.Holds y → ∃ z, f x y = .ok z ∧ c.Holds z) {B C : List Span} {p : List (XR fp)}
    (h : ByColumn T B p C) {M : List (List (XR fp))} (hM : Holding B M) :
    ∃ N, columnwise p f (M.map Row.list) = .ok (N.map Row.list) ∧ N.length = M.length ∧ Holding C N := by
  obtain ⟨ps, h1, h2⟩ := h
  obtain ⟨N, e1, e2, e3⟩ := rows_answer hM (f := fun x => (List.range p.length).mapM fun (i : Nat) => pyGet x (i : Int) >>= fun x => pyGet p (i : Int) >>= fun y => f x y)
    (Q := InBox C) fun x hx => columns_mapM h2 hx h1 hf
  refine ⟨N, ?_, e2, fun e => hM.1 (by rw [← List.length_eq_zero_iff, ← e2, e]; rfl), e3⟩
  unfold columnwise
  rw [mapM_map']
  exact (OkEq.mapM_map _ Row.list M _).1 (bind_ok_iff.2 ⟨N, e1, rfl⟩)

theorem transformer_encloses {t : Arr (XR fp) → Py (Arr (XR fp))} {B C : List Span}
    (h : ∀ M, Holding B M → ∃ N, t (.ofMat M) = .ok (.ofMat N) ∧ N.length = M.length ∧ ∀ x ∈ N, InBox C x) :
    Encloses (transformer (Data.onArr t)) B (.rows C) := by
  refine ⟨_, rfl, fun M hM => ?_⟩
  obtain ⟨N, e1, e2, e3⟩ := h M hM
  refine ⟨N, ?_, e2, e3⟩
  show (t (.ofMat M) >>= fun A => .ok (Data.arr A)) = _
  rw [e1]
  rfl

theorem standard_encloses (hc : fp.Close) {s : StandardScaler (XR fp)} {B C D : List Span}
    (h1 : s.withMean = true → ∃ m, s.mean = some m ∧ ByColumn Subtracted B m C) (h2 : s.withMean = false → C = B)
    (h3 : s.withStd = true → ∃ d, s.scale = some d ∧ ByColumn Divided C d D) (h4 : s.withStd = false → D = C) :
    Encloses (transformer (Data.onArr s.transform)) B (.rows D) := by
  refine transformer_encloses fun M hM => ?_
  have e : s.transform (.ofMat M) =
      (if s.withMean then notNone s.mean >>= fun m => columnwise m (fun a b => .ok (a -ₚ b)) (M.map Row.list) else .ok (M.map Row.list)) >>=
        fun rs => (if s.withStd then notNone s.scale >>= fun sc => columnwise sc Arith.div rs else .ok rs) >>= fun rs => .ok (.list rs) := by
    have hc : checkArray (.list (M.map Row.list)) .allow = .ok (.list (M.map Row.list)) := checkArray_ofMat hM.1 _
    show s.transform (.list _) = _
    obtain ⟨wm, wd, sc, mn⟩ := s
    simp only [StandardScaler.transform, hc, py_ok_bind, rows_list]
    cases wm <;> cases wd <;> simp only [Bool.false_eq_true, if_false, if_true, py_pure, py_ok_bind, bind_assoc]
  obtain ⟨N, n1, n2, n3⟩ : ∃ N, (if s.withMean then notNone s.mean >>= fun m => columnwise m (fun a b => .ok (a -ₚ b)) (M.map Row.list)
      else .ok (M.map Row.list)) = .ok (N.map Row.list) ∧ N.length = M.length ∧ Holding C N := by
    cases hm : s.withMean with
    | false =>
      rw [h2 hm]
      exact ⟨M, rfl, rfl, hM⟩
    | true =>
      obtain ⟨m, e, hl⟩ := h1 hm
      simp only [if_true, e, notNone, py_ok_bind]
      exact columnwise_holds (fun a b c x y h hx hy => ⟨_, rfl, holds_sub hc h hx hy⟩) hl hM
  obtain ⟨P, p1, p2, p3⟩ : ∃ P, (if s.withStd then notNone s.scale >>= fun sc => columnwise sc Arith.div (N.map Row.list)
      else .ok (N.map Row.list)) = .ok (P.map Row.list) ∧ P.length = N.length ∧ Holding D P := by
    cases hm : s.withStd with
    | false =>
      rw [h4 hm]
      exact ⟨N, rfl, rfl, n3⟩
    | true =>
      obtain ⟨m, e, hl⟩ := h3 hm
      simp only [if_true, e, notNone, py_ok_bind]
      exact columnwise_holds (fun a b c x y h hx hy => holds_div hc h hx hy) hl n3
  refine ⟨P, ?_, p2.trans n2, p3.2⟩
  rw [e, n1, py_ok_bind, p1]
  rfl

theorem maxAbs_encloses (hc : fp.Close) {s : MaxAbsScaler (XR fp)} {a : List (XR fp)} {B D : List Span} (e : s.scale = some a)
    (h : ByColumn Divided B a D) : Encloses (transformer (Data.onArr s.transform)) B (.rows D) := by
  refine transformer_encloses fun M hM => ?_
  obtain ⟨N, n1, n2, n3⟩ := columnwise_holds (f := Arith.div) (fun a b c x y h hx hy => holds_div hc h hx hy) h hM
  have e : s.transform (.ofMat M) = columnwise a Arith.div (M.map Row.list) >>= fun rs => .ok (.list rs) := by
    have hc : checkArray (.list (M.map Row.list)) .allow = .ok (.list (M.map Row.list)) := checkArray_ofMat hM.1 _
    show s.transform (.list _) = _
    simp only [MaxAbsScaler.transform, hc, py_ok_bind, rows_list, e, notNone]
    rfl
  exact ⟨N, by rw [e, n1]; rfl, n2, n3.2⟩

theorem minMax_encloses (hc : fp.Close) {s : MinMaxScaler (XR fp)} {a b : List (XR fp)} {B C D : List Span} (ea : s.scale = some a)
    (eb : s.min = some b) (h1 : ByColumn Multiplied B a C) (h2 : ByColumn Added C b D) :
    Encloses (transformer (Data.onArr s.transform)) B (.rows D) := by
  refine transformer_encloses fun M hM => ?_
  have e : s.transform (.ofMat M) = (M.mapM fun x => (List.range a.length).mapM fun (i : Nat) =>
      pyGet x (i : Int) >>= fun u => pyGet a (i : Int) >>= fun c => pyGet b (i : Int) >>= fun d => .ok ((u *ₚ c) +ₚ d)) >>=
        fun rs => .ok (.ofMat rs) := by
    simp only [MinMaxScaler.transform, issparse_ofMat, Bool.false_eq_true, if_false, checkArray_ofMat hM.1, py_ok_bind, rows_ofMat, notNone,
      ea, eb]
    rw [mapM_map']
    rfl
  obtain ⟨as, a1, a2⟩ := h1
  obtain ⟨bs, b1, b2⟩ := h2
  obtain ⟨N, n1, n2, n3⟩ := rows_answer hM (f := fun x => (List.range a.length).mapM fun (i : Nat) =>
      pyGet x (i : Int) >>= fun u => pyGet a (i : Int) >>= fun c => pyGet b (i : Int) >>= fun d => .ok ((u *ₚ c) +ₚ d)) (Q := InBox D) fun x hx => by
    obtain ⟨ys, y1, y2⟩ := columns_mapM (f := fun u c => .ok (u *ₚ c)) a2 hx a1 fun a b c x y h hx hy => ⟨_, rfl, holds_mul hc h hx hy⟩
    obtain ⟨zs, z1, z2⟩ := columns_mapM (f := fun u c => .ok (u +ₚ c)) b2 y2 b1 fun a b c x y h hx hy => ⟨_, rfl, holds_add hc h hx hy⟩
    refine ⟨zs, ?_, z2⟩
    have l1 : a.length = b.length := by rw [inBox_length a1, inBox_length b1, a2.lengths.1, b2.lengths.1, a2.lengths.2]
    have l2 := mapM_length y1
    have l3 : x.length = a.length := by rw [inBox_length hx, inBox_length a1, a2.lengths.1]
    rw [List.length_range] at l2
    rw [mapM_ok_iff, List.forall₂_iff_get] at y1 z1 ⊢
    refine ⟨by rw [← z1.1]; simp [l1], fun i i1 i2 => ?_⟩
    have k1 := y1.2 i i1 (by simpa [l2] using i1)
    have k2 := z1.2 i (by simpa [l1] using i1) i2
    simp only [List.length_range] at i1
    simp only [List.get_eq_getElem, List.getElem_range] at k1 k2 ⊢
    rw [pyGet_lt (by omega), py_ok_bind, pyGet_lt i1, py_ok_bind] at k1 ⊢
    rw [pyGet_lt (by omega), py_ok_bind, pyGet_lt (by omega), py_ok_bind] at k2
    rw [pyGet_lt (by omega), py_ok_bind, Except.ok.inj k1]
    exact k2
  exact ⟨N, by rw [e, n1]; rfl, n2, n3⟩

/-! ### Linear classifiers -/

theorem score_holds (hs : fp.Sound) (hc : fp.Close) {B : List Span} {c : List (XR fp)} {b : XR fp} {s : Span} (h : Score B c b s) {x : List (XR fp)} (hx : InBox B x) :
    s.Holds (dotList x c +ₚ b) := by
  obtain ⟨ps, t, i, ⟨cs, h1, h2⟩, h3, h4, h5⟩ := h
  exact holds_add hc h5 (holds_sum hs hc h3 (columns_zipWith h2 hx h1 fun a b c x y h hx hy => holds_mul hc h hx hy)) h4

theorem scores_holds (hs : fp.Sound) (hc : fp.Close) {B ss : List Span} {cs : List (List (XR fp))} {bs : List (XR fp)} (h : Columns (Score B) cs bs ss)
    {x : List (XR fp)} (hx : InBox B x) : InBox ss (List.zipWith Arith.add (cs.map fun c => dotList x c) bs) := by
  induction h with
  | nil => exact .nil
  | cons h _ ih => exact .cons (score_holds hs hc h hx) ih

theorem scoresIn_rect {m : Linear (XR fp) (PVal (XR fp))} {B ss : List Span} {bs : List (XR fp)} (h : Columns (Score B) m.coef bs ss) :
    Rect B.length m.coef := by
  intro r hr
  generalize m.coef = cs at *
  induction h with
  | nil => simp at hr
  | cons h _ ih =>
    rcases List.mem_cons.1 hr with rfl | hr
    · obtain ⟨ps, t, i, ⟨cs, h1, h2⟩, -⟩ := h
      rw [inBox_length h1, h2.lengths.1]
    · exact ih hr

theorem decision_encloses (hs : fp.Sound) (hc : fp.Close) {m : Linear (XR fp) (PVal (XR fp))} {B ss : List Span} (h : ScoresIn m B ss)
    {M : List (List (XR fp))} (hM : Holding B M) : ∃ S, S.length = M.length ∧ (∀ s ∈ S, InBox ss s) ∧
      m.decisionFunction (.ofMat M) = if ss.length = 1 then .ok (.flat (S.filterMap fun r => r[0]?)) else .ok (.mat S) := by
  obtain ⟨hne, bs, hb, h⟩ := h
  have e := Linear.decision_eq (Linear.accepts_dense hne (scoresIn_rect h) hM.1 hM.rect) hb
  rw [mapM_map', mapM_ok_map (g := fun x => List.zipWith Arith.add (m.coef.map fun c => dotList x c) bs) fun x _ => by
      simp [Linear.rowScores, dot_list, hb, attr, py_ok_bind, py_pure], py_ok_bind, h.lengths.1, Nat.min_self, ← h.lengths.2] at e
  refine ⟨_, by simp, fun s hsm => ?_, e⟩
  obtain ⟨x, hx, rfl⟩ := List.mem_map.1 hsm
  exact scores_holds hs hc h (hM.2 x hx)

theorem flat_encloses (hs : fp.Sound) (hc : fp.Close) {m : Linear (XR fp) (PVal (XR fp))} {B : List Span} {s : Span} (h : ScoresIn m B [s])
    {M : List (List (XR fp))} (hM : Holding B M) : ∃ S, S.length = M.length ∧ (∀ x ∈ S, s.Holds x) ∧ m.decisionFunction (.ofMat M) = .ok (.flat S) := by
  obtain ⟨S, h1, h2, h3⟩ := decision_encloses hs hc h hM
  have key : ∃ T : List (XR fp), S = T.map (fun x => [x]) ∧ ∀ x ∈ T, s.Holds x := by
    clear h1 h3
    induction S with
    | nil => exact ⟨[], rfl, by simp⟩
    | cons r S ih =>
      obtain ⟨T, rfl, hT⟩ := ih fun s hs => h2 s (by simp [hs])
      cases h2 r (by simp) with
      | cons k k' =>
        cases k'
        exact ⟨_ :: T, rfl, by simpa using ⟨k, hT⟩⟩
  obtain ⟨T, rfl, hT⟩ := key
  refine ⟨T, by simpa using h1, hT, ?_⟩
  rw [h3, if_pos (show [s].length = 1 from rfl)]
  congr 2
  clear h1 h2 h3 hT
  induction T with
  | nil => rfl
  | cons x T ih => simp [ih]

theorem linear_predict (kind : LinKind) (m : Linear (XR fp) (PVal (XR fp))) : (kind.est m).predict = some (Data.onArr m.predict) := by
  cases kind with
  | sgd =>
    simp only [LinKind.est]
    split <;> rfl
  | _ => rfl

theorem linear_label {kind : LinKind} {m : Linear (XR fp) (PVal (XR fp))} {B : List Span} {l : PVal (XR fp)}
    (h : ∀ M, Holding B M → ∃ ls, m.predict (.ofMat M) = .ok ls ∧ ls.length = M.length ∧ ∀ x ∈ ls, x = l) : Encloses (kind.est m) B (.label l) := by
  refine ⟨_, linear_predict kind m, fun M hM => ?_⟩
  obtain ⟨ls, h1, h2, h3⟩ := h M hM
  rw [← replicate_of_all h2 h3]
  exact h1

theorem sign_encloses (hs : fp.Sound) (hc : fp.Close) (kind : LinKind) {m : Linear (XR fp) (PVal (XR fp))} {B : List Span} {s : Span} {c0 c1 : PVal (XR fp)} (h : ScoresIn m B [s])
    (hcl : m.classes = [c0, c1]) : (s.hi ≤ 0 → Encloses (kind.est m) B (.label c0)) ∧ (0 < s.lo → Encloses (kind.est m) B (.label c1)) := by
  refine ⟨fun hz => linear_label fun M hM => ?_, fun hz => linear_label fun M hM => ?_⟩
  all_goals
    obtain ⟨S, h1, h2, h3⟩ := flat_encloses hs hc h hM
    rw [Linear.predict, h3, py_ok_bind, hcl, ← h1]
    refine mapM_all fun x hx => ?_
    obtain ⟨z, rfl, z1, z2⟩ := h2 x hx
    rw [XR.ofInt_zero hs]
  · rw [show ((.fin 0 : XR fp) <ₚ .fin z) = false from decide_eq_false (by linarith)]
    exact ⟨_, rfl, rfl⟩
  · rw [show ((.fin 0 : XR fp) <ₚ .fin z) = true from decide_eq_true (by linarith)]
    exact ⟨_, rfl, rfl⟩

theorem leader_encloses (hs : fp.Sound) (hc : fp.Close) (kind : LinKind) {m : Linear (XR fp) (PVal (XR fp))} {B ss : List Span} {k : Nat} {l : PVal (XR fp)} (h : ScoresIn m B ss)
    (h1 : ss.length ≠ 1) (hl : Leads ss k) (hk : m.classes[k]? = some l) : Encloses (kind.est m) B (.label l) := by
  refine linear_label fun M hM => ?_
  obtain ⟨S, s1, s2, s3⟩ := decision_encloses hs hc h hM
  rw [Linear.predict, s3, if_neg h1, py_ok_bind, ← s1]
  exact mapM_all fun x hx => ⟨l, by rw [leads_argmax hl (s2 x hx), py_ok_bind]; exact pyGet_ok_nat.2 hk, rfl⟩

/-- What `predict_proba` of a linear classifier computes. -/
theorem linear_shares {kind : LinKind} {m : Linear (XR fp) (PVal (XR fp))} {B P : List Span}
    (hk : kind = .logistic ∧ m.isOvr = .ok true ∨ kind = .sgd ∧ m.loss = some "log")
    (h : ∀ M, Holding B M → ∃ N, m.predictProbaLr (.ofMat M) = .ok N ∧ N.length = M.length ∧ ∀ x ∈ N, InBox P x) : Encloses (kind.est m) B (.shares P) := by
  rcases hk with ⟨rfl, hk⟩ | ⟨rfl, hk⟩
  · refine ⟨_, rfl, fun M hM => ?_⟩
    obtain ⟨N, h1, h2⟩ := h M hM
    refine ⟨N, ?_, h2⟩
    show m.predictProba (.ofMat M) = _
    rw [Linear.predictProba, hk, py_ok_bind, if_pos rfl, h1]
  · have hch : m.checkProba = .ok () := by simp [Linear.checkProba, hk, attr, py_ok_bind]
    refine ⟨Data.onArr m.sgdPredictProba, by simp only [LinKind.est, hch]; rfl, fun M hM => ?_⟩
    obtain ⟨N, h1, h2⟩ := h M hM
    refine ⟨N, ?_, h2⟩
    show m.sgdPredictProba (.ofMat M) = _
    rw [Linear.sgdPredictProba, hch, py_ok_bind, Linear.sgdPredictProba_, hk]
    exact h1

theorem logistic_encloses (hs : fp.Sound) (hc : fp.Close) {kind : LinKind} {m : Linear (XR fp) (PVal (XR fp))} {B : List Span} {s p q : Span} (h : ScoresIn m B [s])
    (hk : kind = .logistic ∧ m.isOvr = .ok true ∨ kind = .sgd ∧ m.loss = some "log") (hp : Logistic s p) (hq : Subtracted one p q) :
    Encloses (kind.est m) B (.shares [q, p]) := by
  refine linear_shares hk fun M hM => ?_
  obtain ⟨S, s1, s2, s3⟩ := flat_encloses hs hc h hM
  rw [Linear.predictProbaLr, s3, py_ok_bind, ← s1]
  refine mapM_all fun x hx => ?_
  obtain ⟨y, e1, e2⟩ := holds_expit hs hc hp (s2 x hx)
  exact ⟨[ofInt 1 -ₚ y, y], by rw [e1]; rfl, .cons (holds_sub hc hq (holds_one hs) e2) (.cons e2 .nil)⟩

theorem normRow_holds (hs : fp.Sound) (hc : fp.Close) {ps P : List Span} {t : Span} (h1 : Summed ps t) (h2 : List.Forall₂ (fun p q => Divided p t q) ps P) {a : List (XR fp)}
    (ha : InBox ps a) : ∃ y, Linear.normRow a = .ok y ∧ InBox P y := by
  have ht := holds_sum hs hc h1 ha
  refine forall₂_mapM h2 ha fun p q x h hx => ?_
  obtain ⟨y, e1, e2⟩ := holds_div hc h hx ht
  refine ⟨y, ?_, e2⟩
  obtain ⟨u, rfl, hu⟩ := hx
  obtain ⟨z, ez, hz⟩ := ht
  rw [ez, XR.ofInt_zero hs, show ((.fin z : XR fp) ==ₚ .fin 0) = false from decide_eq_false (h u z hu hz).1, ← ez]
  exact e1

theorem oneVsRest_encloses (hs : fp.Sound) (hc : fp.Close) {kind : LinKind} {m : Linear (XR fp) (PVal (XR fp))} {B ss ps P : List Span} {t : Span} (h : ScoresIn m B ss)
    (h1 : ss.length ≠ 1) (hk : kind = .logistic ∧ m.isOvr = .ok true ∨ kind = .sgd ∧ m.loss = some "log") (hp : List.Forall₂ Logistic ss ps)
    (ht : Summed ps t) (hq : List.Forall₂ (fun p q => Divided p t q) ps P) : Encloses (kind.est m) B (.shares P) := by
  refine linear_shares hk fun M hM => ?_
  obtain ⟨S, s1, s2, s3⟩ := decision_encloses hs hc h hM
  rw [Linear.predictProbaLr, s3, if_neg h1, py_ok_bind]
  obtain ⟨Q, q1, q2, q3⟩ := mapM_all (l := S) (f := fun a => a.mapM expit) (Q := InBox ps) fun x hx =>
    forall₂_mapM hp (s2 x hx) fun a b x h hx => holds_expit hs hc h hx
  simp only [q1, py_ok_bind]
  rw [← s1, ← q2]
  exact mapM_all fun x hx => normRow_holds hs hc ht hq (q3 x hx)

theorem softmax_encloses (hs : fp.Sound) (hc : fp.Close) {m : Linear (XR fp) (PVal (XR fp))} {B P : List Span} (hk : m.isOvr = .ok false) :
    (∀ s, ScoresIn m B [s] → Softmax [s.negated, s] P → Encloses (LinKind.logistic.est m) B (.shares P)) ∧
    ∀ ss, ScoresIn m B ss → ss.length ≠ 1 → Softmax ss P → Encloses (LinKind.logistic.est m) B (.shares P) := by
  refine ⟨fun s h hp => ⟨_, rfl, fun M hM => ?_⟩, fun ss h h1 hp => ⟨_, rfl, fun M hM => ?_⟩⟩
  · obtain ⟨S, s1, s2, s3⟩ := flat_encloses hs hc h hM
    show ∃ N, m.predictProba (.ofMat M) = .ok N ∧ _
    rw [Linear.predictProba, hk, py_ok_bind, if_neg (by simp), s3, py_ok_bind, ← s1]
    exact mapM_all fun x hx => holds_softmax hs hc hp (.cons (holds_neg (s2 x hx)) (.cons (s2 x hx) .nil))
  · obtain ⟨S, s1, s2, s3⟩ := decision_encloses hs hc h hM
    show ∃ N, m.predictProba (.ofMat M) = .ok N ∧ _
    rw [Linear.predictProba, hk, py_ok_bind, if_neg (by simp), s3, if_neg h1, py_ok_bind, ← s1]
    exact mapM_all fun x hx => holds_softmax hs hc hp (s2 x hx)

/-! ### Trees -/

theorem lands_eval {B : List Span} {dt : DTree (XR fp)} {v : List (XR fp)} (h : Lands B dt v) {x : List (XR fp)} (hx : InBox B x) :
    dt.evalPy (.list x) = .ok v := by
  have key : dt.eval (fun i => x[i]?) = some v := by
    induction h with
    | leaf => rfl
    | @left f h l r v b θ hθ hb hle _ ih =>
      subst hθ
      obtain ⟨y, hy, z, rfl, z1, z2⟩ := forall₂_getElem?_right hx hb
      simp only [DTree.eval, hy]
      rw [if_pos (XR.ordered_iff.2 ⟨by simp, by simp, by simp only [XR.toE]; exact_mod_cast z2.trans hle⟩)]
      exact ih
    | @right f h l r v b θ hθ hb hlt _ ih =>
      subst hθ
      obtain ⟨y, hy, z, rfl, z1, z2⟩ := forall₂_getElem?_right hx hb
      simp only [DTree.eval, hy]
      rw [if_neg fun hle => ?_]
      · exact ih
      · obtain ⟨-, -, h3⟩ := XR.ordered_iff.1 hle
        simp only [XR.toE] at h3
        have h4 : z ≤ θ := by exact_mod_cast h3
        linarith
  unfold DTree.evalPy
  split
  · rename_i w hw
    rw [show dt.eval (fun i => x[i]?) = some w from hw] at key
    exact congrArg Except.ok (Option.some.inj key)
  · rename_i hw
    rw [show dt.eval (fun i => x[i]?) = none from hw] at key
    cases key

theorem leaves_encloses {B : List Span} {dt : DTree (XR fp)} {v : List (XR fp)} (h : Lands B dt v) {M : List (List (XR fp))} (hM : Holding B M) :
    (M.map Row.list).mapM dt.evalPy = .ok (List.replicate M.length v) := by
  obtain ⟨N, h1, h2, h3⟩ := rows_answer hM (f := fun x => dt.evalPy (.list x)) (Q := fun y => y = v) fun x hx => ⟨v, lands_eval h hx, rfl⟩
  rw [mapM_map', ← replicate_of_all h2 h3]
  exact h1

theorem treeReg_encloses {t : Tree (XR fp) (PVal (XR fp))} {B : List Span} {d : Span} (h : LeafValue t B d) {M : List (List (XR fp))} (hM : Holding B M) :
    ∃ xs, t.predictReg (.ofMat M) = .ok xs ∧ xs.length = M.length ∧ ∀ x ∈ xs, d.Holds x := by
  obtain ⟨dt, v, x, h1, h2, h3, h4⟩ := h
  rw [Tree.predictReg_eq h1 (checkArray_ofMat hM.1 _) (rows_ofMat M), leaves_encloses h2 hM, py_ok_bind]
  obtain ⟨xs, e1, e2, e3⟩ := mapM_all (l := List.replicate M.length v) (f := fun u => pyGet u 0) (Q := d.Holds) fun u hu => by
    rw [List.eq_of_mem_replicate hu]
    exact ⟨x, pyGet_ok_nat.2 h3, h4⟩
  exact ⟨xs, e1, by simpa using e2, e3⟩

theorem tree_encloses (hs : fp.Sound) (hc : fp.Close) {t : Tree (XR fp) (PVal (XR fp))} {dt : DTree (XR fp)} {B : List Span} {v : List (XR fp)} {ns : List Span} (h1 : t.Encodes 0 dt) (h2 : Lands B dt v)
    (h3 : InBox ns v) : (∀ k l, Leads ns k → t.classes[k]? = some l → Encloses (classifier t.predict t.predictProba t.predictLogProba) B (.label l)) ∧
      ∀ s P, Summed ns s → List.Forall₂ (fun n p => Divided n s p) ns P → Encloses (classifier t.predict t.predictProba t.predictLogProba) B (.shares P) := by
  refine ⟨fun k l hl hk => ⟨_, rfl, fun M hM => ?_⟩, fun s P hsum hP => ⟨_, rfl, fun M hM => ?_⟩⟩
  · show t.predict (.ofMat M) = _
    rw [Tree.predict_eq h1 (checkArray_ofMat hM.1 _) (rows_ofMat M), leaves_encloses h2 hM, py_ok_bind]
    have e1 : (List.replicate M.length v).mapM argmax = .ok (List.replicate M.length k) := by
      obtain ⟨N, n1, n2, n3⟩ := mapM_all (l := List.replicate M.length v) (f := argmax) (Q := fun i => i = k) fun u hu => by
        rw [List.eq_of_mem_replicate hu]
        exact ⟨k, leads_argmax hl h3, rfl⟩
      rw [n1, replicate_of_all (by simpa using n2) n3]
    rw [e1, py_ok_bind]
    obtain ⟨N, n1, n2, n3⟩ := mapM_all (l := List.replicate M.length k) (f := fun (i : Nat) => pyGet t.classes (i : Int)) (Q := fun x => x = l) fun u hu => by
      rw [List.eq_of_mem_replicate hu]
      exact ⟨l, pyGet_ok_nat.2 hk, rfl⟩
    rw [← replicate_of_all (by simpa using n2) n3]
    exact n1
  · show ∃ N, t.predictProba (.ofMat M) = .ok N ∧ _
    rw [Tree.predictProba_eq h1 (checkArray_ofMat hM.1 _) (rows_ofMat M), leaves_encloses h2 hM, py_ok_bind]
    obtain ⟨N, n1, n2, n3⟩ := mapM_all (l := List.replicate M.length v) (f := fun a : List (XR fp) => a.mapM fun b => b /ₚ pySum a) (Q := InBox P) fun u hu => by
      rw [List.eq_of_mem_replicate hu]
      exact forall₂_mapM hP h3 fun a b x h hx => holds_div hc h hx (holds_sum hs hc hsum h3)
    exact ⟨N, n1, by simpa using n2, n3⟩

/-! ### XGBoost -/

theorem addTrees_holds (hc : fp.Close) {B : List Span} {ts : List (Tree (XR fp) (PVal (XR fp)))} {vs : List Span} (h : List.Forall₂ (fun t v => LeafValue t B v) ts vs) {M : List (List (XR fp))}
    (hM : Holding B M) {a e : Span} (hr : Running a vs e) {acc : List (XR fp)} (hl : acc.length = M.length) (ha : ∀ x ∈ acc, a.Holds x) :
    ∃ xs, ts.foldlM (Xgb.addTree (.ofMat M)) acc = .ok xs ∧ xs.length = M.length ∧ ∀ x ∈ xs, e.Holds x := by
  induction h generalizing a acc with
  | nil =>
    cases hr
    exact ⟨acc, rfl, hl, ha⟩
  | @cons t v ts vs h _ ih =>
    cases hr with
    | cons k k' =>
      obtain ⟨xs, e1, e2, e3⟩ := treeReg_encloses h hM
      rw [List.foldlM_cons, Xgb.addTree, e1]
      simp only [py_ok_bind, py_pure]
      refine ih k' (by simp [hl, e2]) fun x hx => ?_
      obtain ⟨i, hi, rfl⟩ := List.getElem_of_mem hx
      rw [List.getElem_zipWith]
      exact holds_add hc k (ha _ (List.getElem_mem _)) (e3 _ (List.getElem_mem _))

theorem xgb_encloses (hs : fp.Sound) (hc : fp.Close) {m : Xgb (XR fp) (PVal (XR fp))} {ts : List (Tree (XR fp) (PVal (XR fp)))} {B : List Span} {vs : List Span} {s p q : Span}
    (ho : m.objective = .binaryLogistic) (ht : m.trees = .binary ts) (h1 : List.Forall₂ (fun t v => LeafValue t B v) ts vs) (h2 : Summed vs s)
    (h3 : Logistic s p) (h4 : Subtracted one p q) : Encloses (probabilist m.predict m.predictProba) B (.shares [q, p]) := by
  refine ⟨_, rfl, fun M hM => ?_⟩
  show ∃ N, m.predictProba (.ofMat M) = .ok N ∧ _
  have e : m.predictProba (.ofMat M) =
      ts.foldlM (Xgb.addTree (.ofMat M)) (List.replicate M.length (ofInt 0)) >>= fun s => s.mapM expit >>= fun o =>
        .ok (o.map fun x => [ofInt 1 -ₚ x, x]) := by
    simp only [Xgb.predictProba, checkArray_ofMat hM.1, py_ok_bind, ho, Xgb.predictBinary, ht]
    rw [show (Arr.ofMat M : Arr (XR fp)).len = .ok M.length by simp [Arr.len, rows_ofMat], py_ok_bind]
    rfl
  obtain ⟨xs, e1, e2, e3⟩ := addTrees_holds hc h1 hM h2 (acc := List.replicate M.length (ofInt 0)) (by simp) fun x hx => by
    rw [List.eq_of_mem_replicate hx]
    exact holds_nought hs
  obtain ⟨ys, y1, y2, y3⟩ := mapM_all (l := xs) (f := expit) (Q := p.Holds) fun x hx => holds_expit hs hc h3 (e3 x hx)
  refine ⟨_, by rw [e, e1, py_ok_bind, y1]; rfl, by simp [y2, e2], fun x hx => ?_⟩
  obtain ⟨y, hy, rfl⟩ := List.mem_map.1 hx
  exact .cons (holds_sub hc h4 (holds_one hs) (y3 y hy)) (.cons (y3 y hy) .nil)

/-- Labels are those of the largest probability. -/
theorem largest_label {cs : List (PVal (XR fp))} {P : List Span} {k : Nat} {l : PVal (XR fp)} (h : Leads P k) (hk : cs[k]? = some l) {N : List (List (XR fp))} {n : Nat}
    (hn : N.length = n) (hN : ∀ x ∈ N, InBox P x) : (N.mapM fun a => do pyGet cs (← argmax a)) = .ok (List.replicate n l) := by
  obtain ⟨ls, e1, e2, e3⟩ := mapM_all (l := N) (f := fun a => do pyGet cs (← argmax a)) (Q := fun x => x = l) fun x hx =>
    ⟨l, by rw [leads_argmax h (hN x hx), py_ok_bind]; exact pyGet_ok_nat.2 hk, rfl⟩
  rw [e1, replicate_of_all (e2.trans hn) e3]

/-- Single estimators. -/
theorem bounded_encloses (hs : fp.Sound) (hc : fp.Close) (lib : String → TextLib) (encode : Str → List Nat) {s : Single (XR fp)} {B : List Span} {b : Bound fp}
    (h : Bounded s B b) : Encloses (s.est lib encode) B b := by
  induction h with
  | standard h1 h2 h3 h4 => exact standard_encloses hc h1 h2 h3 h4
  | minMax h1 h2 h3 h4 => exact minMax_encloses hc h1 h2 h3 h4
  | maxAbs h1 h2 => exact maxAbs_encloses hc h1 h2
  | negative h1 h2 h3 => exact (sign_encloses hs hc _ h1 h2).1 h3
  | positive h1 h2 h3 => exact (sign_encloses hs hc _ h1 h2).2 h3
  | leader h1 h2 h3 h4 => exact leader_encloses hs hc _ h1 h2 h3 h4
  | logistic h1 h2 h3 h4 => exact logistic_encloses hs hc h1 h2 h3 h4
  | oneVsRest h1 h2 h3 h4 h5 h6 => exact oneVsRest_encloses hs hc h1 h2 h3 h4 h5 h6
  | twoWay h1 h2 h3 => exact (softmax_encloses hs hc h2).1 _ h1 h3
  | softmax h1 h2 h3 h4 => exact (softmax_encloses hs hc h3).2 _ h1 h2 h4
  | treeLabel h1 h2 h3 h4 h5 => exact (tree_encloses hs hc h1 h2 h3).1 _ _ h4 h5
  | treeShares h1 h2 h3 h4 h5 => exact (tree_encloses hs hc h1 h2 h3).2 _ _ h4 h5
  | @treeValue t B d h =>
    refine ⟨_, rfl, fun M hM => ?_⟩
    obtain ⟨xs, e1, e2, e3⟩ := treeReg_encloses h hM
    exact ⟨xs, by show (t.predictReg (.ofMat M) >>= fun ys => .ok (ys.map PVal.float)) = _; rw [e1]; rfl, e2, e3⟩
  | xgbShares h1 h2 h3 h4 h5 h6 => exact xgb_encloses hs hc h1 h2 h3 h4 h5 h6
  | @xgbLabel m B P k l _ h2 h3 ih =>
    obtain ⟨q, hq, ih⟩ := ih
    refine ⟨_, rfl, fun M hM => ?_⟩
    obtain ⟨N, n1, n2, n3⟩ := ih M hM
    cases hq
    show m.predict (.ofMat M) = _
    change m.predictProba (.ofMat M) = .ok N at n1
    rw [Xgb.predict, n1, py_ok_bind]
    exact largest_label h2 h3 n2 n3
  | @dummyShares d B P h =>
    refine ⟨_, rfl, fun M hM => ⟨List.replicate M.length d.classPrior, ?_, by simp, fun x hx => ?_⟩⟩
    · show d.predictProba (.ofMat M) = _
      rw [Dummy.predictProba, len_ofMat]
      rfl
    · rw [List.eq_of_mem_replicate hx]
      exact h

end PurePredict
