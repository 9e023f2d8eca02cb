import Verif.Spec.Shuffle
import Verif.Lemmas.UnreadFit
import Verif.Props.C96
/-
Single estimators fitted on rearranged columns.
-/
namespace PurePredict
open Spec
variable {fp : FP} {α β γ : Type}

/-! ### Rearranged lists -/

theorem Spec.Rearranged.length {w : Nat} {π : List Nat} {x y : List α} (h : Rearranged w π x y) : y.length = π.length := h.2.length_eq.symm

theorem Spec.Rearranged.get {w : Nat} {π : List Nat} {x y : List α} (h : Rearranged w π x y) {f g : Nat} (hg : π[g]? = some f) : y[g]? = x[f]? := by
  obtain ⟨h1, h2⟩ := List.getElem?_eq_some_iff.1 hg
  have h3 : g < y.length := by rw [h.length]; exact h1
  have := forall₂_get h.2 h1 h3
  rw [h2] at this
  rw [this, List.getElem?_eq_getElem h3]

theorem Spec.Rearranged.zipWith {w : Nat} {π : List Nat} {x y : List α} {u v : List β} (h : Rearranged w π x y) (h' : Rearranged w π u v)
    (f : α → β → γ) : Rearranged w π (x.zipWith f u) (y.zipWith f v) := by
  refine ⟨by simp [h.1, h'.1], ?_⟩
  obtain ⟨-, h⟩ := h
  obtain ⟨-, h'⟩ := h'
  induction h generalizing v with
  | nil => cases h'; exact .nil
  | cons h1 _ ih =>
    cases h' with
    | cons h2 h3 => exact .cons (by simp [List.getElem?_zipWith, h1, h2]) (ih h3)

theorem Spec.Rearranged.map {w : Nat} {π : List Nat} {x y : List α} (h : Rearranged w π x y) (f : α → β) : Rearranged w π (x.map f) (y.map f) := by
  refine ⟨by simp [h.1], ?_⟩
  obtain ⟨-, h⟩ := h
  induction h with
  | nil => exact .nil
  | cons h1 _ ih => exact .cons (by simp [h1]) ih

theorem Spec.Rearranged.mem {w : Nat} {π : List Nat} {x y : List α} (h : Rearranged w π x y) {a : α} (ha : a ∈ y) : a ∈ x := by
  obtain ⟨-, h⟩ := h
  induction h with
  | nil => simp at ha
  | cons h1 _ ih =>
    rcases List.mem_cons.1 ha with rfl | ha
    · exact List.mem_of_getElem? h1
    · exact ih ha

theorem Spec.Rearranged.append {w w' : Nat} {π π' : List Nat} {x y u v : List α} (h : Rearranged w π x y) (h' : Rearranged w' π' u v) :
    Rearranged (w + w') (π ++ π'.map (· + w)) (x ++ u) (y ++ v) := by
  obtain ⟨l1, h⟩ := h
  obtain ⟨l2, h'⟩ := h'
  refine ⟨by simp [l1, l2], ?_⟩
  have second : List.Forall₂ (fun i b => (x ++ u)[i]? = some b) (π'.map (· + w)) v := by
    clear l2 h
    induction h' with
    | nil => exact .nil
    | cons h1 _ ih =>
      refine .cons ?_ ih
      rw [List.getElem?_append_right (by rw [l1]; exact Nat.le_add_left _ _), ← h1, l1, Nat.add_sub_cancel]
  clear l2 h'
  induction h with
  | nil => exact second
  | cons h1 _ ih =>
    refine .cons ?_ ih
    rw [List.getElem?_append_left (List.getElem?_eq_some_iff.1 h1).1, h1]

theorem Spec.Rearranged.perm {w : Nat} {π : List Nat} {x y : List α} (h : Rearranged w π x y) (hp : π.Perm (List.range w)) : y.Perm x := by
  have e1 : y.map some = π.map fun i => x[i]? := by
    obtain ⟨-, h⟩ := h
    clear hp
    induction h with
    | nil => rfl
    | cons h1 _ ih => rw [List.map_cons, List.map_cons, ih, h1]
  have e2 : x.map some = (List.range w).map fun i => x[i]? := by
    apply List.ext_getElem
    · simp [h.1]
    · intro i h1 h2
      simp at h1
      simp [h1]
  have e3 : (y.map some).Perm (x.map some) := by
    rw [e1, e2]
    exact hp.map _
  have := e3.filterMap id
  simpa [List.filterMap_map] using this

theorem sum_perm (ho : AnyOrder fp) {l l' : List (XR fp)} (h : l.Perm l') : pySum l = pySum l' := by
  unfold pySum
  have : RightCommutative (Arith.add : XR fp → XR fp → XR fp) := ⟨fun a b c => ho a b c⟩
  exact h.foldl_eq _

theorem dot_rearranged {w : Nat} {π : List Nat} (hr : Reorders fp w π) {x y c c' : List (XR fp)} (h : Rearranged w π x y) (hc : Rearranged w π c c') :
    dotList x c = dotList y c' :=
  (sum_perm hr.1 ((h.zipWith hc _).perm hr.2)).symm

/-! ### Requests -/

/-- the matrices of two such requests -/
def Shuf (w : Nat) (π : List Nat) (M N : List (List (XR fp))) : Prop := M ≠ [] ∧ List.Forall₂ (Rearranged w π) M N

theorem Shuf.left {w : Nat} {π : List Nat} {M N : List (List (XR fp))} (h : Shuf w π M N) : M ≠ [] ∧ Rect w M := by
  refine ⟨h.1, ?_⟩
  obtain ⟨-, h⟩ := h
  induction h with
  | nil => exact fun r hr => by simp at hr
  | cons h _ ih =>
    intro r hr
    rcases List.mem_cons.1 hr with rfl | hr
    · exact h.1
    · exact ih r hr

theorem Shuf.right {w : Nat} {π : List Nat} {M N : List (List (XR fp))} (h : Shuf w π M N) : N ≠ [] ∧ Rect π.length N := by
  obtain ⟨h0, h⟩ := h
  refine ⟨by rintro rfl; cases h; exact h0 rfl, ?_⟩
  clear h0
  induction h with
  | nil => exact fun r hr => by simp at hr
  | cons h _ ih =>
    intro r hr
    rcases List.mem_cons.1 hr with rfl | hr
    · exact h.length
    · exact ih r hr

theorem Shuf.length {w : Nat} {π : List Nat} {M N : List (List (XR fp))} (h : Shuf w π M N) : M.length = N.length := h.2.length_eq

theorem Shuf.map {w w' : Nat} {π ρ : List Nat} {M N : List (List (XR fp))} (h : Shuf w π M N) {f g : List (XR fp) → List (XR fp)}
    (hf : ∀ x y, Rearranged w π x y → Rearranged w' ρ (f x) (g y)) : Shuf w' ρ (M.map f) (N.map g) :=
  ⟨by simpa using h.1, moved_map h.2 hf⟩

/-! ### Column by column -/

theorem columnwise_zip {p : List (XR fp)} {f : XR fp → XR fp → Py (XR fp)} {g : XR fp → XR fp → XR fp} (hf : ∀ a, ∀ b ∈ p, f a b = .ok (g a b))
    {M : List (List (XR fp))} (hM : Rect p.length M) : columnwise p f (M.map Row.list) = .ok ((M.map fun x => x.zipWith g p).map Row.list) := by
  rw [columnwise_ok hM rfl (ofInt 0) (g := fun i a => g a (p.getD i (ofInt 0))) fun r hr i hi => hf _ _ (by
    rw [List.getD_eq_getElem?_getD, List.getElem?_eq_getElem hi]; exact List.getElem_mem hi)]
  congr 2
  unfold onColumns
  refine List.map_congr_left fun x hx => ?_
  have hl := hM x hx
  apply List.ext_getElem
  · simp [hl]
  · intro i h1 h2
    have : i < p.length := by simpa using h1
    simp [this, hl]

theorem div_ok_of {c : XR fp} (hc : c ≠ .fin 0) : ∀ a, ∃ q, (a /ₚ c : Py (XR fp)) = .ok q := by
  intro a
  show ∃ q, XR.div a c = .ok q
  cases c with
  | fin c =>
    have : c ≠ 0 := fun e => hc (by rw [e])
    cases a <;> simp only [XR.div, if_neg this] <;> exact ⟨_, rfl⟩
  | _ => cases a <;> exact ⟨_, rfl⟩

/-- the quotient, where there is one -/
noncomputable def quotOr (a c : XR fp) : XR fp :=
  match a /ₚ c with
  | .ok q => q
  | .error _ => .nan

theorem div_quotOr {c : XR fp} (hc : c ≠ .fin 0) (a : XR fp) : (a /ₚ c : Py (XR fp)) = .ok (quotOr a c) := by
  obtain ⟨q, hq⟩ := div_ok_of hc a
  unfold quotOr
  rw [hq]

theorem standard_shuf {w : Nat} {π : List Nat} {s s' : StandardScaler (XR fp)} (e1 : s'.withMean = s.withMean) (e2 : s'.withStd = s.withStd)
    (h1 : Parameter w π s.withMean s.mean s'.mean) (h2 : Parameter w π s.withStd s.scale s'.scale) (hd : NoZero s.withStd s.scale)
    {M N : List (List (XR fp))} (h : Shuf w π M N) :
    ∃ M' N', s.transform (.ofMat M) = .ok (.ofMat M') ∧ s'.transform (.ofMat N) = .ok (.ofMat N') ∧ Shuf w π M' N' := by
  have e : ∀ (s : StandardScaler (XR fp)) (M : List (List (XR fp))), M ≠ [] → s.transform (.ofMat M) =
      (if s.withMean then notNone s.mean >>= fun m => columnwise m (fun a b => .ok (a -ₚ b)) (M.map Row.list) else .ok (M.map Row.list)) >>=
        fun rs => (if s.withStd then notNone s.scale >>= fun sc => columnwise sc Arith.div rs else .ok rs) >>= fun rs => .ok (.list rs) := by
    intro s M hM
    have hc : checkArray (.list (M.map Row.list)) .allow = .ok (.list (M.map Row.list)) := checkArray_ofMat hM _
    show s.transform (.list _) = _
    obtain ⟨wm, wd, sc, mn⟩ := s
    simp only [StandardScaler.transform, hc, py_ok_bind, rows_list]
    cases wm <;> cases wd <;> simp only [Bool.false_eq_true, if_false, if_true, py_pure, py_ok_bind, bind_assoc]
  rw [e s M h.left.1, e s' N h.right.1, e1, e2]
  have first : ∃ M' N', (if s.withMean then notNone s.mean >>= fun m => columnwise m (fun a b => .ok (a -ₚ b)) (M.map Row.list) else .ok (M.map Row.list)) = .ok (M'.map Row.list) ∧
      (if s.withMean then notNone s'.mean >>= fun m => columnwise m (fun a b => .ok (a -ₚ b)) (N.map Row.list) else .ok (N.map Row.list)) = .ok (N'.map Row.list) ∧ Shuf w π M' N' := by
    cases hm : s.withMean with
    | false => exact ⟨M, N, rfl, rfl, h⟩
    | true =>
      obtain ⟨x, y, ex, ey, hxy⟩ := h1 hm
      simp only [if_true, ex, ey, notNone, py_ok_bind]
      exact ⟨_, _, columnwise_zip (g := fun a b => a -ₚ b) (fun _ _ _ => rfl) (by rw [hxy.1]; exact h.left.2),
        columnwise_zip (g := fun a b => a -ₚ b) (fun _ _ _ => rfl) (by rw [hxy.length]; exact h.right.2), h.map fun a b hab => hab.zipWith hxy _⟩
  obtain ⟨M1, N1, f1, f2, h⟩ := first
  rw [f1, f2]
  simp only [py_ok_bind]
  cases hm : s.withStd with
  | false => exact ⟨M1, N1, rfl, rfl, h⟩
  | true =>
    obtain ⟨x, y, ex, ey, hxy⟩ := h2 hm
    have hd := hd hm x ex
    have hd' : .fin 0 ∉ y := fun hm => hd (hxy.mem hm)
    have k1 := columnwise_zip (p := x) (g := quotOr) (fun a b hb => div_quotOr (fun e => hd (e ▸ hb)) a) (M := M1) (by rw [hxy.1]; exact h.left.2)
    have k2 := columnwise_zip (p := y) (g := quotOr) (fun a b hb => div_quotOr (fun e => hd' (e ▸ hb)) a) (M := N1) (by rw [hxy.length]; exact h.right.2)
    simp only [if_true, ex, ey, notNone, py_ok_bind, k1, k2]
    exact ⟨_, _, rfl, rfl, h.map fun a b hab => hab.zipWith hxy _⟩

theorem maxAbs_shuf {w : Nat} {π : List Nat} {s s' : MaxAbsScaler (XR fp)} (h2 : Parameter w π true s.scale s'.scale) (hd : NoZero true s.scale)
    {M N : List (List (XR fp))} (h : Shuf w π M N) :
    ∃ M' N', s.transform (.ofMat M) = .ok (.ofMat M') ∧ s'.transform (.ofMat N) = .ok (.ofMat N') ∧ Shuf w π M' N' := by
  obtain ⟨x, y, ex, ey, hxy⟩ := h2 rfl
  have e : ∀ (s : MaxAbsScaler (XR fp)) (d : List (XR fp)) (M : List (List (XR fp))), s.scale = some d → M ≠ [] →
      s.transform (.ofMat M) = columnwise d Arith.div (M.map Row.list) >>= fun rs => .ok (.list rs) := by
    intro s d M e hM
    have hc : checkArray (.list (M.map Row.list)) .allow = .ok (.list (M.map Row.list)) := checkArray_ofMat hM _
    show s.transform (.list _) = _
    simp only [MaxAbsScaler.transform, hc, py_ok_bind, rows_list, e, notNone]
    rfl
  have hd := hd rfl x ex
  have hd' : .fin 0 ∉ y := fun hm => hd (hxy.mem hm)
  have k1 := columnwise_zip (p := x) (g := quotOr) (fun a b hb => div_quotOr (fun e => hd (e ▸ hb)) a) (M := M) (by rw [hxy.1]; exact h.left.2)
  have k2 := columnwise_zip (p := y) (g := quotOr) (fun a b hb => div_quotOr (fun e => hd' (e ▸ hb)) a) (M := N) (by rw [hxy.length]; exact h.right.2)
  rw [e s x M ex h.left.1, e s' y N ey h.right.1, k1, k2]
  exact ⟨_, _, rfl, rfl, h.map fun a b hab => hab.zipWith hxy _⟩

theorem zip_range (d : α) (x : List α) {n : Nat} (h : x.length = n) : x = (List.range n).map fun j => x.getD j d := by
  apply List.ext_getElem
  · simp [h]
  · intro i h1 h2
    simp [h1]

theorem minMax_shuf {w : Nat} {π : List Nat} {s s' : MinMaxScaler (XR fp)} (h1 : Parameter w π true s.scale s'.scale) (h2 : Parameter w π true s.min s'.min)
    {M N : List (List (XR fp))} (h : Shuf w π M N) :
    ∃ M' N', s.transform (.ofMat M) = .ok (.ofMat M') ∧ s'.transform (.ofMat N) = .ok (.ofMat N') ∧ Shuf w π M' N' := by
  obtain ⟨sc, mn⟩ := s
  obtain ⟨sc', mn'⟩ := s'
  obtain ⟨a, a', e1, e2, ha⟩ := h1 rfl
  obtain ⟨b, b', e3, e4, hb⟩ := h2 rfl
  simp only at e1 e2 e3 e4
  subst e1 e2 e3 e4
  have key : ∀ (n : Nat) (a b : List (XR fp)) (M : List (List (XR fp))), a.length = n → b.length = n → M ≠ [] → Rect n M →
      (⟨some a, some b⟩ : MinMaxScaler (XR fp)).transform (.ofMat M) = .ok (.ofMat (M.map fun x => (x.zipWith (fun u c => u *ₚ c) a).zipWith (fun u c => u +ₚ c) b)) := by
    intro n a b M ha hb hM hw
    have := C23_transform n (fun j => a.getD j (ofInt 0)) (fun j => b.getD j (ofInt 0)) M hM hw (ofInt 0)
    rw [← zip_range (ofInt 0) a ha, ← zip_range (ofInt 0) b hb] at this
    rw [this]
    congr 2
    unfold onColumns
    refine List.map_congr_left fun x hx => ?_
    have hl := hw x hx
    apply List.ext_getElem
    · simp [hl, ha, hb]
    · intro i h1 h2
      have : i < n := by simpa using h1
      simp [this, hl, ha, hb]
  refine ⟨_, _, key w a b M ha.1 hb.1 h.left.1 h.left.2, key π.length a' b' N ha.length hb.length h.right.1 h.right.2, h.map fun x y hxy => ?_⟩
  exact (hxy.zipWith ha _).zipWith hb _

theorem imputer_shuf {w : Nat} {π : List Nat} {s s' : SimpleImputer (XR fp)} (a1 : s.addIndicator = false) (a2 : s'.addIndicator = false)
    (e1 : s'.constant = s.constant) (e2 : s'.missing = s.missing) (n1 : s.statistics ≠ []) (n2 : s'.statistics ≠ [])
    (hk : s.constant = true ∨ ∀ x ∈ s.statistics, Arith.isnan x = false) (hs : Rearranged w π s.statistics s'.statistics)
    {M N : List (List (XR fp))} (h : Shuf w π M N) :
    ∃ M' N', s.transform (.ofMat M) = .ok (.ofMat M') ∧ s'.transform (.ofMat N) = .ok (.ofMat N') ∧ Shuf w π M' N' := by
  have key : ∀ (s : SimpleImputer (XR fp)) (M : List (List (XR fp))), s.addIndicator = false → s.statistics ≠ [] →
      (s.constant = true ∨ ∀ x ∈ s.statistics, Arith.isnan x = false) → M ≠ [] → Rect s.statistics.length M →
      s.transform (.ofMat M) = .ok (.ofMat (M.map fun x => x.zipWith (fun v c => if toImpute v s.missing then c else v) s.statistics)) := by
    intro s M ha hne hk hM hw
    rw [C30_transform s (ofInt 0) hM hw hne ha]
    congr 2
    refine List.map_congr_left fun x hx => ?_
    have hl := hw x hx
    unfold imputed
    rw [List.filter_eq_self.2]
    · apply List.ext_getElem
      · simp [hl]
      · intro i h1 h2
        have : i < s.statistics.length := by simpa using h1
        simp [this, hl]
    · intro j hj
      have hj := List.mem_range.1 hj
      rcases hk with hk | hk
      · simp [hk]
      · have := hk s.statistics[j] (List.getElem_mem hj)
        simp [hj, this]
  refine ⟨_, _, key s M a1 n1 hk h.left.1 (by rw [hs.1]; exact h.left.2), key s' N a2 n2 ?_ h.right.1 (by rw [hs.length]; exact h.right.2), h.map fun x y hxy => ?_⟩
  · rw [e1]
    exact hk.imp_right fun hk x hx => hk x (hs.mem hx)
  · rw [e2]
    exact hxy.zipWith hs _

/-! ### Normalizer -/

theorem norms_shuf {n : Norm} (hn : n = .l1 ∨ n = .l2) {w : Nat} {π : List Nat} (hr : Reorders fp w π) {M N : List (List (XR fp))} (h : Shuf w π M N) :
    denseNorms n (.ofMat M) = denseNorms n (.ofMat N) ∧ ∀ q, denseNorms n (.ofMat N) = .ok q → q.length = N.length := by
  rcases hn with rfl | rfl
  · have e : ∀ M : List (List (XR fp)), denseNorms .l1 (.ofMat M) = .ok (M.map fun x => pySum (x.map Arith.abs)) := by
      intro M
      simp only [denseNorms, apply2d_ofMat_ok, py_ok_bind, applyAxis2d_ofMat]
      rw [mapM_map']
      exact mapM_ok_map fun _ _ => rfl
    rw [e, e]
    refine ⟨?_, fun q hq => by cases hq; simp⟩
    congr 1
    exact map_eq_of h.2 fun x y hxy => (sum_perm hr.1 ((hxy.map _).perm hr.2)).symm
  · have e : ∀ (w : Nat) (M : List (List (XR fp))), M ≠ [] → Rect w M → denseNorms .l2 (.ofMat M) = (M.map fun x => pySum (x.zipWith Arith.mul x)).mapM Arith.sqrt := by
      intro w M hM hw
      have hsh := shape_ofMat hM (w := w) hw
      have hm : matmultSameDim (.ofMat M : Arr (XR fp)) (.ofMat M) =
          .ok (.ofMat (M.map fun r => List.zipWith Arith.mul r r)) := by
        have e : matmultSameDim (.ofMat M : Arr (XR fp)) (.ofMat M) = (do
            let rs ← (List.zip (M.map Row.list) (M.map Row.list)).mapM fun p =>
              mulRows w p.1 p.2
            return .ofMat rs) := by
          simp only [matmultSameDim, hsh, py_ok_bind, bne_self_eq_false, Bool.false_eq_true, if_false]
          rfl
        rw [e]
        have hz : List.zip (M.map Row.list) (M.map Row.list) = M.map fun r => ((Row.list r : Row (XR fp)), (Row.list r : Row (XR fp))) := by
          clear hM hw hsh e
          induction M with
          | nil => rfl
          | cons r A ih => simpa using ih
        rw [hz, mapM_map', mapM_ok_map (g := fun r => List.zipWith Arith.mul r r)]
        · rfl
        · intro r hr
          rw [← hw r hr]
          exact mulRows_self r
      simp only [denseNorms, rowNorms, hm, py_ok_bind]
      show ((applyAxis2d (.ofMat _) _) >>= _) = _
      rw [applyAxis2d_ofMat, mapM_map', mapM_ok_map (g := fun r => pySum (List.zipWith Arith.mul r r))
        fun _ _ => rfl, py_ok_bind]
    rw [e w M h.left.1 h.left.2, e _ N h.right.1 h.right.2]
    refine ⟨?_, fun q hq => by simpa using mapM_length hq⟩
    congr 1
    exact map_eq_of h.2 fun x y hxy => (sum_perm hr.1 ((hxy.zipWith hxy _).perm hr.2)).symm

/-- a map whose failures are all alike, over the same entries in another order -/
theorem mapM_perm_par {f : α → Py β} {e : PyErr} (hf : ∀ a x, f a = .error x → x = e) {l l' : List α} (h : l.Perm l') :
    Par List.Perm (l.mapM f) (l'.mapM f) := by
  induction h with
  | nil => exact .done (.refl _)
  | cons a _ ih =>
    rw [mapM_cons', mapM_cons']
    exact (Par.refl (R := Eq) (fun _ => rfl) (f a)).bind fun b c hbc => ih.bind fun bs cs hbs => by cases hbc; exact .done (hbs.cons b)
  | swap a b l =>
    simp only [mapM_cons']
    cases ha : f a with
    | error x =>
      cases hb : f b with
      | error y => rw [hf a x ha, hf b y hb]; exact .fail
      | ok y => exact .fail
    | ok x =>
      cases hb : f b with
      | error y => exact .fail
      | ok y =>
        simp only [py_ok_bind]
        cases l.mapM f with
        | error z => exact .fail
        | ok bs => exact .done (.swap _ _ _)
  | trans _ _ ih1 ih2 =>
    revert ih1 ih2
    generalize List.mapM f _ = p
    generalize List.mapM f _ = q
    generalize List.mapM f _ = r
    intro h1 h2
    cases h1 with
    | fail => exact h2
    | done h1 =>
      cases h2 with
      | done h2 => exact .done (h1.trans h2)

theorem divRow_shuf {w : Nat} {π : List Nat} (hp : π.Perm (List.range w)) (c : XR fp) {x y : List (XR fp)} (h : Rearranged w π x y) :
    Par (Rearranged w π) (x.mapM fun a => a /ₚ c) (y.mapM fun a => a /ₚ c) := by
  by_cases hc : c = .fin 0
  · subst hc
    have he : ∀ a : XR fp, (a /ₚ .fin 0 : Py (XR fp)) = .error .zeroDivisionError := by
      intro a
      show XR.div a (.fin 0) = _
      cases a <;> simp [XR.div]
    have hl := (h.perm hp).length_eq
    cases x with
    | nil =>
      have : y = [] := List.length_eq_zero_iff.1 hl
      subst this
      exact .done h
    | cons a x =>
      cases y with
      | nil => simp at hl
      | cons b y =>
        rw [mapM_cons', mapM_cons', he, he]
        exact .fail
  · rw [mapM_ok_map fun a _ => div_quotOr hc a, mapM_ok_map fun a _ => div_quotOr hc a]
    exact .done (h.map _)

theorem normalizer_shuf {n : Norm} (hn : n = .l1 ∨ n = .l2) {w : Nat} {π : List Nat} (hr : Reorders fp w π) {M N : List (List (XR fp))} (h : Shuf w π M N) :
    Par (fun A B => ∃ M' N', A = .ofMat M' ∧ B = .ofMat N' ∧ Shuf w π M' N') (normalizerTransform n (.ofMat M)) (normalizerTransform n (.ofMat N)) := by
  have hb : n ≠ .bad := by rcases hn with rfl | rfl <;> decide
  have e : ∀ M : List (List (XR fp)), M ≠ [] → normalizerTransform n (.ofMat M) = denseNorms n (.ofMat M) >>= fun q =>
      (M.zip (handleZeros q)).mapM (fun p => p.1.mapM fun a => a /ₚ p.2) >>= fun rs => .ok (.ofMat rs) := by
    intro M hM
    have e : normalizeRows (.ofMat M : Arr (XR fp)) n = (do
        let norms := handleZeros (← denseNorms n (.ofMat M))
        let rs' ← (List.zip (← (Arr.ofMat M : Arr (XR fp)).rows) norms).mapM fun p => do
          (← p.1.iter).mapM fun a => a /ₚ p.2
        return (.ofMat rs', norms)) := rfl
    have hz : ∀ q : List (XR fp), List.zip (M.map Row.list) q = (M.zip q).map fun p => ((Row.list p.1 : Row (XR fp)), p.2) := by
      intro q
      clear hM e
      induction M generalizing q with
      | nil => rfl
      | cons r M ih =>
        cases q with
        | nil => rfl
        | cons a q => simp [ih q]
    simp only [normalizerTransform, normalizePure, normalizePure', issparse_ofMat,
      Bool.and_false, Bool.false_eq_true, if_false, hb, checkArray_ofMat hM, py_ok_bind,
      show ((1 : Int) == 0) = false from rfl, show ((1 : Int) == 1) = true from rfl, Bool.or_true,
      Bool.not_true, py_pure, Bool.false_and, e, bind_assoc, rows_ofMat, hz, mapM_map']
    rfl
  obtain ⟨n1, n2⟩ := norms_shuf hn hr h
  rw [e M h.left.1, e N h.right.1, n1]
  cases hq : denseNorms n (.ofMat N) with
  | error x => exact .fail
  | ok q =>
    have hl : (handleZeros q).length = N.length := by
      unfold handleZeros
      rw [List.length_map]
      exact n2 q hq
    simp only [py_ok_bind]
    generalize handleZeros q = z at hl
    have rows : Par (List.Forall₂ (Rearranged w π)) ((M.zip z).mapM fun p => p.1.mapM fun a => a /ₚ p.2) ((N.zip z).mapM fun p => p.1.mapM fun a => a /ₚ p.2) := by
      refine Par.mapM (R := fun p p' => Rearranged w π p.1 p'.1 ∧ p.2 = p'.2) ?_ fun p p' hp => ?_
      · obtain ⟨-, h⟩ := h
        clear hl n1 n2 hq
        induction h generalizing z with
        | nil => exact .nil
        | cons h _ ih =>
          cases z with
          | nil => exact .nil
          | cons a z => exact .cons ⟨h, rfl⟩ (ih z)
      · rw [hp.2]
        exact divRow_shuf hr.2 _ hp.1
    have hlen : ∀ A, ((M.zip z).mapM fun p => p.1.mapM fun a => a /ₚ p.2) = .ok A → A.length = M.length := fun A e => by
      have := mapM_length e
      rw [this, List.length_zip, hl, h.length, Nat.min_self]
    revert rows hlen
    generalize ((M.zip z).mapM fun p => p.1.mapM fun a => a /ₚ p.2) = p
    generalize ((N.zip z).mapM fun p => p.1.mapM fun a => a /ₚ p.2) = p'
    intro rows hlen
    cases rows with
    | fail => exact .fail
    | @done A B hAB =>
      refine .done ⟨A, B, rfl, rfl, fun e => h.1 ?_, hAB⟩
      rw [← List.length_eq_zero_iff, ← hlen A rfl, e]
      rfl

/-! ### Predictors -/

theorem decision_shuf {C : Type} {m : Linear (XR fp) C} {coef' : List (List (XR fp))} {w : Nat} {π : List Nat} (hr : Reorders fp w π)
    (hc : List.Forall₂ (Rearranged w π) m.coef coef') {M N : List (List (XR fp))} (h : Shuf w π M N) :
    m.decisionFunction (.ofMat M) = ({ m with coef := coef' } : Linear (XR fp) C).decisionFunction (.ofMat N) := by
  have hl : π.length = w := by simpa using hr.2.length_eq
  have h1 : m.checkWidth (.ofMat M) = ({ m with coef := coef' } : Linear (XR fp) C).checkWidth (.ofMat N) := by
    unfold Linear.checkWidth
    rw [width_ofMat h.left.1 h.left.2, width_ofMat h.right.1 h.right.2, hl]
    congr 1
    by_cases h0 : m.coef = []
    · rw [h0] at hc
      cases hc
      rw [h0]
    · have hs : Shuf w π m.coef coef' := ⟨h0, hc⟩
      rw [width_ofMat hs.left.1 hs.left.2, width_ofMat hs.right.1 hs.right.2, hl]
  have h2 : (M.map Row.list).mapM m.rowScores = (N.map Row.list).mapM ({ m with coef := coef' } : Linear (XR fp) C).rowScores := by
    rw [mapM_map', mapM_map']
    refine mapM_eq_of h.2 fun x y hxy => ?_
    unfold Linear.rowScores
    rw [dot_list, dot_list]
    have : (m.coef.map fun b => dotList x b) = coef'.map fun b => dotList y b := map_eq_of hc fun c c' hcc => dot_rearranged hr hxy hcc
    rw [this]
  unfold Linear.decisionFunction
  simp only [checkArray_ofMat h.left.1, checkArray_ofMat h.right.1, py_ok_bind, rows_ofMat, h1, h2]

theorem evalPy_shuf {π : List Nat} {dt dt' : DTree (XR fp)} (hd : Retested π dt dt') {w : Nat} {M N : List (List (XR fp))}
    (h : Shuf w π M N) : (M.map Row.list).mapM dt.evalPy = (N.map Row.list).mapM dt'.evalPy := by
  rw [mapM_map', mapM_map']
  refine mapM_eq_of h.2 fun x y hxy => ?_
  have : dt.eval (fun i => x[i]?) = dt'.eval (fun i => y[i]?) := by
    induction hd with
    | leaf => rfl
    | node hf _ _ ihl ihr => simp only [DTree.eval, hxy.get hf, ihl, ihr]
  unfold DTree.evalPy
  rw [show (Row.list x).look = fun i => x[i]? from rfl, show (Row.list y).look = fun i => y[i]? from rfl, this]
  rfl

theorem treeReg_shuf {C : Type} {π : List Nat} {t t' : Tree (XR fp) C} (ht : SameTree π t t') {w : Nat} {M N : List (List (XR fp))} (h : Shuf w π M N) :
    t.predictReg (.ofMat M) = t'.predictReg (.ofMat N) := by
  obtain ⟨-, dt, dt', henc, henc', hd⟩ := ht
  rw [Tree.predictReg_eq henc (checkArray_ofMat h.left.1 _) (rows_ofMat M), Tree.predictReg_eq henc' (checkArray_ofMat h.right.1 _) (rows_ofMat N),
    evalPy_shuf hd h]

theorem treeProba_shuf {C : Type} {π : List Nat} {t t' : Tree (XR fp) C} (ht : SameTree π t t') {w : Nat} {M N : List (List (XR fp))} (h : Shuf w π M N) :
    t.predictProba (.ofMat M) = t'.predictProba (.ofMat N) ∧ t.predict (.ofMat M) = t'.predict (.ofMat N) := by
  obtain ⟨hc, dt, dt', henc, henc', hd⟩ := ht
  rw [Tree.predictProba_eq henc (checkArray_ofMat h.left.1 _) (rows_ofMat M), Tree.predictProba_eq henc' (checkArray_ofMat h.right.1 _) (rows_ofMat N),
    Tree.predict_eq henc (checkArray_ofMat h.left.1 _) (rows_ofMat M), Tree.predict_eq henc' (checkArray_ofMat h.right.1 _) (rows_ofMat N),
    evalPy_shuf hd h, hc]
  exact ⟨rfl, rfl⟩

theorem foldlM_eq_of {R : α → β → Prop} {f : γ → α → Py γ} {g : γ → β → Py γ} {l : List α} {l' : List β} (h : List.Forall₂ R l l')
    (hf : ∀ a b, R a b → ∀ c, f c a = g c b) (c : γ) : l.foldlM f c = l'.foldlM g c := by
  induction h generalizing c with
  | nil => rfl
  | cons h _ ih =>
    rw [List.foldlM_cons, List.foldlM_cons, hf _ _ h]
    congr 1
    funext d
    exact ih d

theorem pyGet_shuf {R : α → β → Prop} {l : List α} {l' : List β} (h : List.Forall₂ R l l') (i : Nat) :
    Par R (pyGet l (i : Int)) (pyGet l' (i : Int)) := by
  by_cases hi : i < l.length
  · have hi' : i < l'.length := by rw [← h.length_eq]; exact hi
    rw [pyGet_lt hi, pyGet_lt hi']
    exact .done (forall₂_get h hi hi')
  · rw [pyGet_ge (by omega), pyGet_ge (by rw [← h.length_eq]; omega)]
    exact .fail

theorem xgb_shuf {C : Type} {m : Xgb (XR fp) C} {ts' : XgbTrees (XR fp) C} {π : List Nat} (hm : SameTrees π m.trees ts') {w : Nat}
    {M N : List (List (XR fp))} (h : Shuf w π M N) :
    m.predictProba (.ofMat M) = ({ m with trees := ts' } : Xgb (XR fp) C).predictProba (.ofMat N) := by
  have add : ∀ t t', SameTree π t t' → ∀ acc, Xgb.addTree (C := C) (.ofMat M) acc t = Xgb.addTree (.ofMat N) acc t' := by
    intro t t' ht acc
    unfold Xgb.addTree
    rw [treeReg_shuf ht h]
  obtain ⟨ob, cs, K, n, ts⟩ := m
  simp only at hm ⊢
  have e1 : (⟨ob, cs, K, n, ts⟩ : Xgb (XR fp) C).predictBinary (.ofMat M) = (⟨ob, cs, K, n, ts'⟩ : Xgb (XR fp) C).predictBinary (.ofMat N) := by
    unfold Xgb.predictBinary
    rw [len_ofMat, len_ofMat, h.length]
    simp only [py_ok_bind]
    cases hm with
    | binary hts => exact foldlM_eq_of hts (fun t t' ht acc => add t t' ht acc) _
    | @multi ts ts' hts => cases hts <;> rfl
  have e2 : (⟨ob, cs, K, n, ts⟩ : Xgb (XR fp) C).predict_ (.ofMat M) = (⟨ob, cs, K, n, ts'⟩ : Xgb (XR fp) C).predict_ (.ofMat N) := by
    unfold Xgb.predict_
    refine mapM_congr fun c _ => ?_
    rw [len_ofMat, len_ofMat, h.length]
    simp only [py_ok_bind]
    refine foldlM_congr_mem (fun e _ acc => ?_) _
    cases hm with
    | binary hts =>
      refine Par.eq ?_
      exact (pyGet_shuf hts e).bind fun r r' hrr => .fail
    | multi hts =>
      refine Par.eq ?_
      refine (pyGet_shuf hts e).bind fun r r' hrr => (pyGet_shuf hrr c).bind fun t t' htt => ?_
      rw [add t t' htt]
      exact .refl (fun _ => rfl) _
  unfold Xgb.predictProba
  rw [checkArray_ofMat h.left.1, checkArray_ofMat h.right.1]
  simp only [py_ok_bind]
  cases ob with
  | multiSoftprob => simp only [e2, len_ofMat, h.length]
  | binaryLogistic => simp only [e1]

theorem multinomial_shuf {C : Type} {m : DiscreteNB (XR fp) C} {fl' : List (List (XR fp))} {w : Nat} {π : List Nat} (hr : Reorders fp w π)
    (hc : List.Forall₂ (Rearranged w π) m.featureLogProb fl') {M N : List (List (XR fp))} (h : Shuf w π M N) :
    m.jllMultinomial (.ofMat M) = ({ m with featureLogProb := fl' } : DiscreteNB (XR fp) C).jllMultinomial (.ofMat N) ∧
    m.jllComplement (.ofMat M) = ({ m with featureLogProb := fl' } : DiscreteNB (XR fp) C).jllComplement (.ofMat N) := by
  have hd : ∀ x y, Rearranged w π x y → dot (.list x) m.featureLogProb = dot (.list y) fl' := fun x y hxy => by
    rw [dot_list, dot_list]
    congr 1
    exact map_eq_of hc fun c c' hcc => dot_rearranged hr hxy hcc
  constructor
  · unfold DiscreteNB.jllMultinomial
    simp only [rows_ofMat, py_ok_bind, mapM_map']
    refine mapM_eq_of h.2 fun x y hxy => ?_
    rw [hd x y hxy]
  · unfold DiscreteNB.jllComplement
    simp only [rows_ofMat, py_ok_bind, mapM_map']
    rw [mapM_eq_of h.2 hd]

/-! ### Gaussian naive Bayes -/

/-- the contribution of one feature -/
noncomputable def gaussTerm (p : XR fp × XR fp × XR fp) : Py (XR fp) := do
  (← Arith.sq (p.1 -ₚ p.2.1)) /ₚ p.2.2

theorem gaussTerms_zip {theta sigma a : List (XR fp)} (h1 : theta.length = a.length) (h2 : sigma.length = a.length) :
    GaussianNB.terms theta sigma (.list a) = (a.zip (theta.zip sigma)).mapM gaussTerm := by
  unfold GaussianNB.terms
  have : a.zip (theta.zip sigma) = (List.range a.length).map fun j => (a.getD j .nan, theta.getD j .nan, sigma.getD j .nan) := by
    apply List.ext_getElem
    · simp [h1, h2]
    · intro i g1 g2
      have : i < a.length := by simpa using g2
      simp [this, h1, h2]
  rw [this, mapM_map']
  simp only [Row.len, py_ok_bind]
  refine mapM_congr fun j hj => ?_
  have hj : j < a.length := List.mem_range.1 hj
  simp only [Row.getItem, pyGet_lt hj, pyGet_lt (h1 ▸ hj : j < theta.length), pyGet_lt (h2 ▸ hj : j < sigma.length), py_ok_bind, gaussTerm,
    List.getD_eq_getElem?_getD, List.getElem?_eq_getElem hj, List.getElem?_eq_getElem (h1 ▸ hj : j < theta.length),
    List.getElem?_eq_getElem (h2 ▸ hj : j < sigma.length), Option.getD_some]

theorem sq_error {x : XR fp} {e : PyErr} (h : Arith.sq x = .error e) : e = .overflowError := by
  have h : XR.sq x = .error e := h
  cases x with
  | fin a =>
    simp only [XR.sq] at h
    split at h
    · cases h
    · cases h; rfl
  | _ => cases h

theorem safeLog_error {x : XR fp} {e : PyErr} (h : safeLog x = .error e) : e = .valueError := by
  unfold safeLog at h
  split at h
  · cases h
  · split at h
    · cases h
    · have h : XR.log x = .error e := h
      cases x with
      | fin a =>
        simp only [XR.log] at h
        split at h
        · cases h; rfl
        · cases h
      | ninf => cases h; rfl
      | _ => cases h

theorem mapM_perm_mem {f : α → Py β} {e : PyErr} {l l' : List α} (hf : ∀ a ∈ l, ∀ x, f a = .error x → x = e) (h : l.Perm l') :
    Par List.Perm (l.mapM f) (l'.mapM f) := by
  classical
  let g : α → Py β := fun a => if a ∈ l then f a else .error e
  have e1 : l.mapM f = l.mapM g := mapM_congr fun a ha => by simp [g, ha]
  have e2 : l'.mapM f = l'.mapM g := mapM_congr fun a ha => by simp [g, h.mem_iff.2 ha]
  rw [e1, e2]
  refine mapM_perm_par (e := e) (fun a x hx => ?_) h
  by_cases ha : a ∈ l
  · simp only [g, ha, if_true] at hx
    exact hf a ha x hx
  · simp only [g, ha, if_false] at hx
    cases hx
    rfl

theorem gaussian_column {C : Type} {m : GaussianNB (XR fp) C} {theta' sigma' : List (List (XR fp))} {w : Nat} {π : List Nat} (hr : Reorders fp w π)
    (hz : ∀ s ∈ m.sigma, .fin 0 ∉ s) (ht : List.Forall₂ (Rearranged w π) m.theta theta') (hs : List.Forall₂ (Rearranged w π) m.sigma sigma')
    {M N : List (List (XR fp))} (h : Shuf w π M N) (i : Nat) :
    m.column (M.map Row.list) i = ({ m with theta := theta', sigma := sigma' } : GaussianNB (XR fp) C).column (N.map Row.list) i := by
  unfold GaussianNB.column
  refine Par.eq ?_
  refine (Par.refl (R := Eq) (fun _ => rfl) _).bind fun p _ e => ?_
  cases e
  refine (Par.refl (R := Eq) (fun _ => rfl) _).bind fun j _ e => ?_
  cases e
  have hget : Par (fun s s' => Rearranged w π s s' ∧ .fin 0 ∉ s) (pyGet m.sigma (i : Int)) (pyGet sigma' (i : Int)) := by
    have h1 := pyGet_shuf hs i
    have h2 : ∀ s, pyGet m.sigma (i : Int) = .ok s → .fin 0 ∉ s := fun s hs => hz s (List.mem_of_getElem? (pyGet_ok_nat.1 hs))
    revert h1 h2
    generalize pyGet m.sigma (i : Int) = a
    generalize pyGet sigma' (i : Int) = b
    intro h1 h2
    cases h1 with
    | fail => exact .fail
    | done h => exact .done ⟨h, h2 _ rfl⟩
  refine hget.bind fun s s' hss => ?_
  obtain ⟨hss, hs0⟩ := hss
  refine Par.bind (R := List.Perm) (mapM_perm_par (e := .valueError) (fun a x hx => safeLog_error hx) (hss.perm hr.2).symm) fun ls ls' hls => ?_
  have hrows : ((M.map Row.list).mapM fun a => do GaussianNB.terms (← pyGet m.theta (i : Int)) s a) >>= (fun jll => .ok (jll.map fun a => ofRat 1 2 *ₚ pySum a)) =
      (((N.map Row.list).mapM fun a => do GaussianNB.terms (← pyGet theta' (i : Int)) s' a) >>= (fun jll => .ok (jll.map fun a => ofRat 1 2 *ₚ pySum a)) : Py (List (XR fp))) := by
    refine Par.eq ?_
    rw [mapM_map', mapM_map']
    refine Par.bind (R := List.Forall₂ List.Perm) (Par.mapM h.2 fun x y hxy => ?_) fun J J' hJ => ?_
    · refine (pyGet_shuf ht i).bind fun t t' htt => ?_
      rw [gaussTerms_zip (by rw [htt.1, hxy.1]) (by rw [hss.1, hxy.1]), gaussTerms_zip (by rw [htt.length, hxy.length]) (by rw [hss.length, hxy.length])]
      refine mapM_perm_mem (e := .overflowError) (fun p hp e he => ?_) (((hxy.zipWith (htt.zipWith hss _) _).perm hr.2).symm)
      have hp2 : p.2.2 ≠ .fin 0 := fun e0 => hs0 (by
        rw [← e0]
        exact (List.of_mem_zip (List.of_mem_zip (a := p.1) (b := p.2) hp).2).2)
      unfold gaussTerm at he
      cases hq : (Arith.sq (p.1 -ₚ p.2.1) : Py (XR fp)) with
      | error x =>
        rw [hq] at he
        cases he
        exact sq_error hq
      | ok q =>
        rw [hq] at he
        simp only [py_ok_bind, div_quotOr hp2] at he
        cases he
    · refine .done ?_
      exact map_eq_of hJ fun a b hab => by rw [sum_perm hr.1 hab]
  rw [sum_perm hr.1 hls]
  have fin : ∀ (p : Py (List (List (XR fp)))) (c : XR fp), (p >>= fun jll => pure ((jll.map fun a => ofRat 1 2 *ₚ pySum a).map fun a => (c -ₚ a) +ₚ j)) =
      (p >>= fun jll => .ok (jll.map fun a => ofRat 1 2 *ₚ pySum a)) >>= fun q => .ok (q.map fun a => (c -ₚ a) +ₚ j) := by
    intro p c
    cases p <;> rfl
  rw [fin, fin, hrows]
  exact .refl (fun _ => rfl) _

theorem gaussian_shuf {C : Type} {m : GaussianNB (XR fp) C} {theta' sigma' : List (List (XR fp))} {w : Nat} {π : List Nat} (hr : Reorders fp w π)
    (hz : ∀ s ∈ m.sigma, .fin 0 ∉ s) (ht : List.Forall₂ (Rearranged w π) m.theta theta') (hs : List.Forall₂ (Rearranged w π) m.sigma sigma')
    {M N : List (List (XR fp))} (h : Shuf w π M N) :
    m.jll (.ofMat M) = ({ m with theta := theta', sigma := sigma' } : GaussianNB (XR fp) C).jll (.ofMat N) := by
  unfold GaussianNB.jll
  simp only [rows_ofMat, py_ok_bind]
  rw [mapM_congr fun i _ => gaussian_column hr hz ht hs h i]

theorem nb_shuf {C : Type} {j j' : Arr (XR fp) → Py (List (List (XR fp)))} {w : Nat} {π : List Nat}
    (hj : ∀ M N, Shuf w π M N → j (.ofMat M) = j' (.ofMat N)) (cs : List C) {M N : List (List (XR fp))} (h : Shuf w π M N) :
    nbPredict j cs (.ofMat M) = nbPredict j' cs (.ofMat N) ∧ nbPredictProba j (.ofMat M) = nbPredictProba j' (.ofMat N) ∧
    nbPredictLogProba j (.ofMat M) = nbPredictLogProba j' (.ofMat N) := by
  have e : nbPredictLogProba j (.ofMat M) = nbPredictLogProba j' (.ofMat N) := by
    unfold nbPredictLogProba
    rw [checkArray_ofMat h.left.1, checkArray_ofMat h.right.1]
    simp only [py_ok_bind, hj M N h]
  refine ⟨?_, ?_, e⟩
  · unfold nbPredict
    rw [checkArray_ofMat h.left.1, checkArray_ofMat h.right.1]
    simp only [py_ok_bind, hj M N h]
  · unfold nbPredictProba
    rw [e]

/-! ### All single estimators -/

theorem sameMethod_some {δ : Type} {R : Data (XR fp) → Data (XR fp) → Prop} {t u : Data (XR fp) → Py δ} (h : ∀ X Y, R X Y → t X = u Y) :
    SameMethod R (some t) (some u) := ⟨fun _ e => by cases e; exact ⟨u, rfl, h⟩, fun e => by cases e⟩

theorem sameMethod_none {δ : Type} {R : Data (XR fp) → Data (XR fp) → Prop} : SameMethod (β := δ) R none none := ⟨fun _ e => (by cases e), fun _ => rfl⟩

theorem onArr_shuf {δ : Type} {w : Nat} {π : List Nat} {t u : Arr (XR fp) → Py δ} (h : ∀ M N, Shuf w π M N → t (.ofMat M) = u (.ofMat N)) (X Y : Data (XR fp))
    (hXY : Shuffled w π X Y) : Data.onArr t X = Data.onArr u Y := by
  cases hXY with
  | mk h1 h2 => exact h _ _ ⟨h1, h2⟩

theorem classifier_shuf {w : Nat} {π : List Nat} {p p' : Arr (XR fp) → Py (List (PVal (XR fp)))} {pp pl pp' pl' : Arr (XR fp) → Py (List (List (XR fp)))}
    (h : ∀ M N, Shuf w π M N → p (.ofMat M) = p' (.ofMat N) ∧ pp (.ofMat M) = pp' (.ofMat N) ∧ pl (.ofMat M) = pl' (.ofMat N)) :
    Concur (classifier p pp pl) (classifier p' pp' pl') w π .answers := by
  refine ⟨sameMethod_some fun X Y hXY => ?_, sameMethod_some fun X Y hXY => ?_, sameMethod_some fun X Y hXY => ?_⟩ <;> cases hXY with
  | mk h1 h2 =>
    first
    | exact (h _ _ ⟨h1, h2⟩).1
    | exact (h _ _ ⟨h1, h2⟩).2.1
    | exact (h _ _ ⟨h1, h2⟩).2.2

theorem predictor_shuf {w : Nat} {π : List Nat} {p p' : Arr (XR fp) → Py (List (PVal (XR fp)))} (h : ∀ M N, Shuf w π M N → p (.ofMat M) = p' (.ofMat N)) :
    Concur (predictor p) (predictor p') w π .answers := by
  refine ⟨sameMethod_some fun X Y hXY => ?_, sameMethod_none, sameMethod_none⟩
  cases hXY with
  | mk h1 h2 => exact h _ _ ⟨h1, h2⟩

theorem fit_concurs {w : Nat} {π : List Nat} {s s' : Single (XR fp)} (h : ShuffledFit w π s s') (lib : String → TextLib) (encode : Str → List Nat) :
    Concur (s.est lib encode) (s'.est lib encode) w π .answers := by
  cases h with
  | @linear k m coef' hr hc =>
    have hp : ∀ M N, Shuf w π M N → m.predict (.ofMat M) = ({ m with coef := coef' } : Linear (XR fp) (PVal (XR fp))).predict (.ofMat N) := fun M N h => by
      unfold Linear.predict
      rw [decision_shuf hr hc h]
    have hlr : ∀ M N, Shuf w π M N → m.predictProbaLr (.ofMat M) = ({ m with coef := coef' } : Linear (XR fp) (PVal (XR fp))).predictProbaLr (.ofMat N) := fun M N h => by
      unfold Linear.predictProbaLr
      rw [decision_shuf hr hc h]
    show Concur (k.est m) (k.est _) _ _ _
    cases k with
    | logistic =>
      have hpp : ∀ M N, Shuf w π M N → m.predictProba (.ofMat M) = ({ m with coef := coef' } : Linear (XR fp) (PVal (XR fp))).predictProba (.ofMat N) := fun M N h => by
        unfold Linear.predictProba
        rw [decision_shuf hr hc h, hlr M N h]
        rfl
      refine classifier_shuf fun M N h => ⟨hp M N h, hpp M N h, ?_⟩
      unfold Linear.predictLogProba
      rw [hpp M N h]
    | sgd =>
      unfold LinKind.est
      have hpp : ∀ M N, Shuf w π M N → m.sgdPredictProba (.ofMat M) = ({ m with coef := coef' } : Linear (XR fp) (PVal (XR fp))).sgdPredictProba (.ofMat N) := fun M N h => by
        unfold Linear.sgdPredictProba Linear.sgdPredictProba_
        rw [hlr M N h]
        rfl
      have hck : ({ m with coef := coef' } : Linear (XR fp) (PVal (XR fp))).checkProba = m.checkProba := rfl
      rw [hck]
      cases m.checkProba with
      | ok _ =>
        refine classifier_shuf fun M N h => ⟨hp M N h, hpp M N h, ?_⟩
        unfold Linear.sgdPredictLogProba
        rw [hpp M N h, hck]
      | error _ => exact predictor_shuf hp
    | plain => exact predictor_shuf hp
  | @treeClassifier t t' ht =>
    refine classifier_shuf fun M N h => ⟨(treeProba_shuf ht h).2, (treeProba_shuf ht h).1, ?_⟩
    unfold Tree.predictLogProba
    rw [(treeProba_shuf ht h).1]
  | @treeRegressor t t' ht => exact predictor_shuf fun M N h => by rw [treeReg_shuf ht h]
  | @xgb m ts' hm =>
    refine ⟨sameMethod_some fun X Y hXY => ?_, sameMethod_some fun X Y hXY => ?_, sameMethod_none⟩ <;> cases hXY with
    | @mk M N h1 h2 => ?_
    · show m.predict _ = Xgb.predict _ _
      unfold Xgb.predict
      rw [xgb_shuf hm ⟨h1, h2⟩]
    · exact xgb_shuf hm ⟨h1, h2⟩
  | @dummy d =>
    refine classifier_shuf fun M N h => ?_
    have e1 : d.predictProba (.ofMat M) = d.predictProba (.ofMat N) := by
      unfold Dummy.predictProba
      rw [len_ofMat, len_ofMat, h.length]
    refine ⟨?_, e1, ?_⟩
    · unfold Dummy.predict
      rw [len_ofMat, len_ofMat, h.length]
    · unfold Dummy.predictLogProba
      rw [e1]
  | @multinomialNB m fl' hr hc => exact classifier_shuf fun M N h => nb_shuf (fun M N h => (multinomial_shuf hr hc h).1) m.classes h
  | @complementNB m fl' hr hc => exact classifier_shuf fun M N h => nb_shuf (fun M N h => (multinomial_shuf hr hc h).2) m.classes h
  | @gaussianNB m theta' sigma' hr hz ht hs => exact classifier_shuf fun M N h => nb_shuf (fun M N h => gaussian_shuf hr hz ht hs h) m.classes h

theorem step_concurs {w : Nat} {π : List Nat} {s s' : Single (XR fp)} (h : ShuffledStep w π s s') (lib : String → TextLib) (encode : Str → List Nat) :
    Concur (s.est lib encode) (s'.est lib encode) w π (.columns w π) := by
  have go : ∀ {t u : Arr (XR fp) → Py (Arr (XR fp))}, (∀ M N, Shuf w π M N →
      Par (fun A B => ∃ M' N', A = .ofMat M' ∧ B = .ofMat N' ∧ Shuf w π M' N') (t (.ofMat M)) (u (.ofMat N))) →
      Concur (transformer (Data.onArr t)) (transformer (Data.onArr u)) w π (.columns w π) := by
    intro t u ht
    refine ⟨_, _, rfl, rfl, fun X Y hXY => ?_⟩
    cases hXY with
    | @mk M N h1 h2 =>
      refine (ht M N ⟨h1, h2⟩).bind fun A B hAB => ?_
      obtain ⟨M', N', rfl, rfl, h'⟩ := hAB
      exact .done (.mk h'.1 h'.2)
  have ok : ∀ {p q : Py (Arr (XR fp))}, (∃ M' N', p = .ok (.ofMat M') ∧ q = .ok (.ofMat N') ∧ Shuf w π M' N') →
      Par (fun A B => ∃ M' N', A = .ofMat M' ∧ B = .ofMat N' ∧ Shuf w π M' N') p q := by
    rintro p q ⟨M', N', rfl, rfl, h⟩
    exact .done ⟨M', N', rfl, rfl, h⟩
  cases h with
  | standard e1 e2 h1 h2 hd => exact go fun M N h => ok (standard_shuf e1 e2 h1 h2 hd h)
  | minMax h1 h2 => exact go fun M N h => ok (minMax_shuf h1 h2 h)
  | maxAbs h1 h2 => exact go fun M N h => ok (maxAbs_shuf h1 h2 h)
  | imputer a1 a2 e1 e2 n1 n2 hk hs => exact go fun M N h => ok (imputer_shuf a1 a2 e1 e2 n1 n2 hk hs h)
  | normalizer hn hr => exact go fun M N h => normalizer_shuf hn hr h

end PurePredict
