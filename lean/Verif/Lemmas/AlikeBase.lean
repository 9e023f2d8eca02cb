import Verif.Spec.Alike
import Verif.Lemmas.UnreadObject
/-
The helper functions of the package on alike numbers.
-/
namespace PurePredict
open Spec

/-! ### Lists -/

section
variable {α β γ δ ε ζ : Type} {R : α → β → Prop} {S : γ → δ → Prop} {T : ε → ζ → Prop}

theorem getElem?_alike {l : List α} {l' : List β} (h : List.Forall₂ R l l') (j : Nat) : Option.Rel R l[j]? l'[j]? := by
  induction h generalizing j with
  | nil => exact .none
  | cons h _ ih =>
    cases j with
    | zero => exact .some h
    | succ j => simpa using ih j

theorem pyGet_alike {l : List α} {l' : List β} (h : List.Forall₂ R l l') (i : Int) : Par R (pyGet l i) (pyGet l' i) := by
  unfold pyGet
  rw [h.length_eq]
  generalize (if i < 0 then i + (l'.length : Int) else i) = j
  show Par R (if j < 0 then _ else _) (if j < 0 then _ else _)
  split
  · exact .fail
  · generalize j.toNat = j
    have aux : ∀ {p : Option α} {q : Option β}, Option.Rel R p q →
        Par R (match p with | some a => .ok a | none => .error .indexError) (match q with | some a => .ok a | none => .error .indexError) := by
      intro p q h
      cases h with
      | none => exact .fail
      | some h => exact .done h
    exact aux (getElem?_alike h j)

theorem zipWith_alike {f : α → γ → ε} {g : β → δ → ζ} (hfg : ∀ a b, R a b → ∀ c d, S c d → T (f a c) (g b d)) {l : List α} {l' : List β}
    (h : List.Forall₂ R l l') {m : List γ} {m' : List δ} (h' : List.Forall₂ S m m') :
    List.Forall₂ T (List.zipWith f l m) (List.zipWith g l' m') := by
  induction h generalizing m m' with
  | nil => simpa using .nil
  | cons h _ ih =>
    cases h' with
    | nil => simpa using .nil
    | cons h1 h2 => simpa using ⟨hfg _ _ h _ _ h1, ih h2⟩

theorem zip_alike {l : List α} {l' : List β} (h : List.Forall₂ R l l') {m : List γ} {m' : List δ} (h' : List.Forall₂ S m m') :
    List.Forall₂ (fun p q => R p.1 q.1 ∧ S p.2 q.2) (List.zip l m) (List.zip l' m') :=
  zipWith_alike (fun _ _ h _ _ h' => ⟨h, h'⟩) h h'

theorem zipIdx_alike {l : List α} {l' : List β} (h : List.Forall₂ R l l') (n : Nat) :
    List.Forall₂ (fun p q => R p.1 q.1 ∧ p.2 = q.2) (l.zipIdx n) (l'.zipIdx n) := by
  induction h generalizing n with
  | nil => exact .nil
  | cons h _ ih => exact .cons ⟨h, rfl⟩ (ih (n + 1))

theorem filter_alike {p : α → Bool} {q : β → Bool} (hpq : ∀ a b, R a b → p a = q b) {l : List α} {l' : List β}
    (h : List.Forall₂ R l l') : List.Forall₂ R (l.filter p) (l'.filter q) := by
  induction h with
  | nil => exact .nil
  | cons h _ ih =>
    simp only [List.filter_cons, hpq _ _ h]
    split
    · exact .cons h ih
    · exact ih

theorem replicate_alike (n : Nat) {a : α} {b : β} (h : R a b) : List.Forall₂ R (List.replicate n a) (List.replicate n b) := by
  induction n with
  | zero => exact .nil
  | succ n ih => exact .cons h ih

theorem append_alike {l : List α} {l' : List β} (h : List.Forall₂ R l l') {m : List α} {m' : List β} (h' : List.Forall₂ R m m') :
    List.Forall₂ R (l ++ m) (l' ++ m') := by
  induction h with
  | nil => exact h'
  | cons h _ ih => exact .cons h ih

theorem flatten_alike {l : List (List α)} {l' : List (List β)} (h : List.Forall₂ (List.Forall₂ R) l l') : List.Forall₂ R l.flatten l'.flatten := by
  induction h with
  | nil => exact .nil
  | cons h _ ih => exact append_alike h ih

theorem minLen_alike {A : List (List α)} {B : List (List β)} (h : List.Forall₂ (List.Forall₂ R) A B) : minLen A = minLen B := by
  induction h with
  | nil => rfl
  | cons h t ih =>
    cases t with
    | nil => exact h.length_eq
    | cons _ _ => rw [minLen_cons₂, minLen_cons₂, h.length_eq, ih]

theorem filterMap_alike {f : α → Option γ} {g : β → Option δ} (hfg : ∀ a b, R a b → Option.Rel S (f a) (g b)) {l : List α} {l' : List β}
    (h : List.Forall₂ R l l') : List.Forall₂ S (l.filterMap f) (l'.filterMap g) := by
  induction h with
  | nil => exact .nil
  | @cons a b _ _ h _ ih =>
    have := hfg a b h
    simp only [List.filterMap_cons]
    generalize f a = x at this
    generalize g b = y at this
    cases this with
    | none => exact ih
    | some h => exact .cons h ih

theorem zipStar_alike {A : List (List α)} {B : List (List β)} (h : List.Forall₂ (List.Forall₂ R) A B) :
    List.Forall₂ (List.Forall₂ R) (zipStar A) (zipStar B) := by
  unfold zipStar
  rw [minLen_alike h]
  refine moved_map (forall₂_same (R := fun i j : Nat => i = j) (fun _ => rfl) _) fun i j hij => ?_
  cases hij
  exact filterMap_alike (fun a b hab => getElem?_alike hab i) h

theorem range_alike {f : Nat → Py α} {g : Nat → Py β} (n : Nat) (h : ∀ i, Par R (f i) (g i)) :
    Par (List.Forall₂ R) ((List.range n).mapM f) ((List.range n).mapM g) :=
  Par.mapM (forall₂_same (R := fun i j : Nat => i = j) (fun _ => rfl) _) fun i j hij => by cases hij; exact h i

theorem Spec.Par.ok {a : α} {b : β} (h : R a b) : Par R (pure a) (pure b) := .done h

theorem Spec.Par.of_eq {p : Py α} {q : Py α} (h : Par Eq p q) : p = q := h.eq

theorem par_self (p : Py α) : Par Eq p p := .refl (fun _ => rfl) p

theorem foldlM_alike {f : α → γ → Py α} {g : β → δ → Py β} (hfg : ∀ a b, R a b → ∀ c d, S c d → Par R (f a c) (g b d))
    {l : List γ} {l' : List δ} (h : List.Forall₂ S l l') {a : α} {b : β} (hab : R a b) : Par R (l.foldlM f a) (l'.foldlM g b) := by
  induction h generalizing a b with
  | nil => exact .done hab
  | cons h _ ih =>
    simp only [List.foldlM_cons]
    exact (hfg _ _ hab _ _ h).bind fun u v huv => ih huv

theorem forall₂_mono {R' : α → β → Prop} (hR : ∀ a b, R a b → R' a b) {l : List α} {l' : List β} (h : List.Forall₂ R l l') : List.Forall₂ R' l l' :=
  h.imp hR

theorem forall₂_mem_eq {f : α → γ} {g : β → γ} {l : List α} {l' : List β} (h : List.Forall₂ R l l') (hfg : ∀ a b, R a b → f a = g b) :
    l.map f = l'.map g := by
  induction h with
  | nil => rfl
  | cons h _ ih => simp [hfg _ _ h, ih]
end

/-! ### Dicts -/

section
variable {F G : Type} {V : F → G → Prop} {κ : Type} [BEq κ]

theorem lookup_alike {x : List (κ × F)} {y : List (κ × G)} (h : List.Forall₂ (fun p q => p.1 = q.1 ∧ V p.2 q.2) x y) (i : κ) :
    Option.Rel V (Dict.get? x i) (Dict.get? y i) := by
  unfold Dict.get?
  induction h with
  | nil => exact .none
  | @cons p q _ _ h _ ih =>
    obtain ⟨a, u⟩ := p
    obtain ⟨b, v⟩ := q
    obtain ⟨rfl, huv⟩ := h
    simp only [List.lookup_cons]
    cases i == a with
    | true => exact .some huv
    | false => exact ih

theorem dictSet_alike {x : List (κ × F)} {y : List (κ × G)} (h : List.Forall₂ (fun p q => p.1 = q.1 ∧ V p.2 q.2) x y) (i : κ) {a : F} {b : G} (hab : V a b) :
    List.Forall₂ (fun p q => p.1 = q.1 ∧ V p.2 q.2) (Dict.set x i a) (Dict.set y i b) := by
  induction h with
  | nil => exact .cons ⟨rfl, hab⟩ .nil
  | @cons p q _ _ h t ih =>
    obtain ⟨c, u⟩ := p
    obtain ⟨d, v⟩ := q
    obtain ⟨rfl, huv⟩ := h
    simp only [Dict.set]
    cases c == i with
    | true => exact .cons ⟨rfl, hab⟩ t
    | false => exact .cons ⟨rfl, huv⟩ ih

theorem dictOfList_alike {x : List (κ × F)} {y : List (κ × G)} (h : List.Forall₂ (fun p q => p.1 = q.1 ∧ V p.2 q.2) x y) :
    List.Forall₂ (fun p q => p.1 = q.1 ∧ V p.2 q.2) (Dict.ofList x) (Dict.ofList y) := by
  unfold Dict.ofList
  suffices ∀ (d : Dict κ F) (e : Dict κ G), List.Forall₂ (fun p q => p.1 = q.1 ∧ V p.2 q.2) d e →
      List.Forall₂ (fun p q => p.1 = q.1 ∧ V p.2 q.2) (x.foldl (fun d p => Dict.set d p.1 p.2) d) (y.foldl (fun d p => Dict.set d p.1 p.2) e) from
    this _ _ .nil
  induction h with
  | nil => exact fun d e h => h
  | @cons p q _ _ h _ ih =>
    intro d e hde
    simp only [List.foldl_cons]
    refine ih _ _ ?_
    rw [← h.1]
    exact dictSet_alike hde _ h.2
end

variable {F G : Type} [Arith F] [Arith G] {k : Likeness F G}

theorem Spec.Likeness.Sound.value_of_flt (hk : k.Sound) {a : F} {b : G} (h : k.flt a b) : k.value a b := hk.value_of_num (hk.num_of_flt h)

/-! ### Sums, maxima, elementary functions -/

theorem pySum_alike (hk : k.Sound) {l : List F} {l' : List G} (h : List.Forall₂ k.flt l l') : k.num (pySum l) (pySum l') := by
  unfold pySum
  suffices ∀ a b, k.num a b → k.num (l.foldl Arith.add a) (l'.foldl Arith.add b) from this _ _ hk.zero
  induction h with
  | nil => exact fun _ _ h => h
  | cons h _ ih => exact fun a b hab => ih _ _ (hk.num_of_flt (hk.add_right (hk.value_of_num hab) h))

theorem maxScan_alike (hk : k.Sound) {l : List F} {l' : List G} (h : List.Forall₂ k.num l l') (n : Nat) {p : Nat × F} {q : Nat × G}
    (hpq : p.1 = q.1 ∧ k.num p.2 q.2) : (maxScan l n p).1 = (maxScan l' n q).1 ∧ k.num (maxScan l n p).2 (maxScan l' n q).2 := by
  induction h generalizing n p q with
  | nil => exact hpq
  | cons h _ ih =>
    unfold maxScan
    rw [hk.lt hpq.2 h]
    split
    · exact ih _ ⟨rfl, h⟩
    · exact ih _ hpq

theorem pyMaxPos_alike (hk : k.Sound) {l : List F} {l' : List G} (h : List.Forall₂ k.num l l') :
    Par (fun p q => p.1 = q.1 ∧ k.num p.2 q.2) (pyMaxPos l) (pyMaxPos l') := by
  cases h with
  | nil => exact .fail
  | cons h t => exact .done (maxScan_alike hk t 1 ⟨rfl, h⟩)

theorem pyMax_alike (hk : k.Sound) {l : List F} {l' : List G} (h : List.Forall₂ k.num l l') : Par k.num (pyMax l) (pyMax l') :=
  (pyMaxPos_alike hk h).bind fun _ _ h => .done h.2

theorem findIdx?_alike {α β : Type} {R : α → β → Prop} {p : α → Bool} {q : β → Bool} (hpq : ∀ a b, R a b → p a = q b) {l : List α} {l' : List β}
    (h : List.Forall₂ R l l') : l.findIdx? p = l'.findIdx? q := by
  induction h with
  | nil => rfl
  | cons h _ ih => simp only [List.findIdx?_cons, hpq _ _ h, ih]

theorem argmax_alike (hk : k.Sound) {l : List F} {l' : List G} (h : List.Forall₂ k.num l l') : Par Eq (argmax l) (argmax l') := by
  unfold argmax
  refine (pyMaxPos_alike hk h).bind fun p q hpq => ?_
  obtain ⟨j, m⟩ := p
  obtain ⟨j', m'⟩ := q
  obtain ⟨rfl, hm⟩ := hpq
  have : (l.take j).findIdx? (fun x => x ==ₚ m) = (l'.take j).findIdx? (fun x => x ==ₚ m') :=
    findIdx?_alike (fun a b hab => hk.eq hab hm) (List.forall₂_take j h)
  simp only [this]
  exact .refl (fun _ => rfl) _

theorem safeExp_alike (hk : k.Sound) {a : F} {b : G} (h : k.num a b) : Par k.flt (safeExp a) (safeExp b) := by
  unfold safeExp
  have := hk.exp h
  generalize Arith.exp a = p at this
  generalize Arith.exp b = q at this
  cases this with
  | @fail e =>
    cases e <;> first | exact .done hk.pinf | exact .fail
  | done h => exact .done h

theorem safeLog_alike (hk : k.Sound) {a : F} {b : G} (h : k.num a b) : Par k.flt (safeLog a) (safeLog b) := by
  unfold safeLog
  rw [hk.eq h hk.zero, hk.lt h hk.zero]
  split
  · exact .done hk.ninf
  · split
    · exact .done hk.nan
    · exact hk.log h

theorem expit_alike (hk : k.Sound) {a : F} {b : G} (h : k.num a b) : Par k.flt (expit a) (expit b) := by
  unfold expit
  exact (safeExp_alike hk (hk.neg_num h)).bind fun u v huv => hk.div_right (hk.value_of_num hk.one) (hk.add_right (hk.value_of_num hk.one) huv)

theorem divs_alike (hk : k.Sound) {l : List F} {l' : List G} (h : List.Forall₂ k.flt l l') {a : F} {b : G} (hab : k.value a b) :
    Par (List.Forall₂ k.flt) (l.mapM fun x => x /ₚ a) (l'.mapM fun x => x /ₚ b) :=
  Par.mapM h fun x y hxy => hk.div_left hxy hab

theorem sfmax_alike (hk : k.Sound) {l : List F} {l' : List G} (h : List.Forall₂ k.num l l') : Par (List.Forall₂ k.flt) (sfmax l) (sfmax l') := by
  unfold sfmax
  exact (Par.mapM h fun _ _ h => safeExp_alike hk h).bind fun u v huv => divs_alike hk huv (hk.value_of_num (pySum_alike hk huv))

/-! ### Rows -/

/-- rows without a condition on keys -/
inductive RowLike (k : Likeness F G) : Row F → Row G → Prop
  | list {x y} : List.Forall₂ k.num x y → RowLike k (.list x) (.list y)
  | dict {x y} : List.Forall₂ (EntryAlike k.num) x y → RowLike k (.dict x) (.dict y)
  | scalar {a b} : k.num a b → RowLike k (.scalar a) (.scalar b)

theorem Spec.RowsAlike.like {r : Row F} {s : Row G} (h : RowsAlike k r s) : RowLike k r s := by
  cases h with
  | list h => exact .list h
  | dict h => exact .dict (forall₂_mono (fun _ _ h => h.1) h)
  | scalar h => exact .scalar h

theorem rowLen_alike {r : Row F} {s : Row G} (h : RowLike k r s) : r.len = s.len := by
  cases h with
  | list h => simp only [Row.len, h.length_eq]
  | dict h => simp only [Row.len, h.length_eq]
  | scalar _ => rfl

theorem getItem_alike {r : Row F} {s : Row G} (h : RowLike k r s) (i : Int) : Par k.num (r.getItem i) (s.getItem i) := by
  cases h with
  | list h => exact pyGet_alike h i
  | dict h =>
    show Par _ (Dict.getItem _ _) (Dict.getItem _ _)
    unfold Dict.getItem
    have := lookup_alike (V := k.num) h i
    revert this
    generalize Dict.get? _ i = p
    generalize Dict.get? _ i = q
    intro h
    cases h with
    | none => exact .fail
    | some h => exact .done h
  | scalar _ => exact .fail

theorem iter_alike {r : Row F} {s : Row G} (h : RowsAlike k r s) : Par (List.Forall₂ k.num) r.iter s.iter := by
  cases h with
  | list h => exact .done h
  | dict h => exact .done (moved_map h fun p q hpq => by rw [← hpq.1.1]; exact hpq.2)
  | scalar _ => exact .fail

theorem dotList_alike (hk : k.Sound) {x : List F} {y : List G} (h : List.Forall₂ k.num x y) {b : List F} {c : List G} (hb : VecAlike k b c) :
    k.num (dotList x b) (dotList y c) :=
  pySum_alike hk (zipWith_alike (f := Arith.mul) (g := Arith.mul) (fun _ _ h _ _ h' => hk.mul_right (hk.value_of_num h) h') h hb)

theorem dotDict_alike (hk : k.Sound) {x : Dict Int F} {y : Dict Int G} (h : List.Forall₂ (EntryAlike k.num) x y) {b : List F} {c : List G}
    (hb : VecAlike k b c) : Par k.num (dotDict x b) (dotDict y c) := by
  unfold dotDict
  refine (Par.mapM (S := k.flt) h fun p q hpq => ?_).bind fun u v huv => .done (pySum_alike hk huv)
  rw [← hpq.1]
  exact (pyGet_alike hb p.1).bind fun u v huv => .done (hk.mul_right (hk.value_of_num hpq.2) huv)

theorem dot_alike (hk : k.Sound) {r : Row F} {s : Row G} (h : RowLike k r s) {B : List (List F)} {C : List (List G)} (hB : MatAlike k B C) :
    Par (List.Forall₂ k.num) (dot r B) (dot s C) := by
  unfold dot
  refine Par.mapM hB fun b c hbc => ?_
  cases h with
  | list h => exact .done (dotList_alike hk h hbc)
  | dict h => exact dotDict_alike hk h hbc
  | scalar _ => exact .fail

/-! ### Arrays -/

theorem issparse_alike {X : Arr F} {Y : Arr G} (h : ArraysAlike k X Y) : X.issparse = Y.issparse := by cases h <;> rfl

theorem rows_alike {X : Arr F} {Y : Arr G} (h : ArraysAlike k X Y) : Par (List.Forall₂ (RowLike k)) X.rows Y.rows := by
  cases h with
  | list h => exact .done (forall₂_mono (fun _ _ h => h.like) h)
  | sparse h => exact .done (moved_map h fun _ _ h => .dict h)
  | errObj => exact .fail
  | other => exact .fail

theorem rows_dense_alike {X : Arr F} {Y : Arr G} (h : ArraysAlike k X Y) (hs : X.issparse = false) : Par (List.Forall₂ (RowsAlike k)) X.rows Y.rows := by
  cases h with
  | list h => exact .done h
  | sparse h => simp [Arr.issparse] at hs
  | errObj => exact .fail
  | other => exact .fail

theorem len_alike {X : Arr F} {Y : Arr G} (h : ArraysAlike k X Y) : Par Eq X.len Y.len :=
  (rows_alike h).bind fun _ _ h => .done h.length_eq

theorem first_alike {X : Arr F} {Y : Arr G} (h : ArraysAlike k X Y) : Par (RowLike k) X.first Y.first := by
  unfold Arr.first
  refine (rows_alike h).bind fun rs ss h => ?_
  cases h with
  | nil => exact .fail
  | cons h _ => exact .done h

theorem ndim_alike {X : Arr F} {Y : Arr G} (h : ArraysAlike k X Y) : Par Eq X.ndim Y.ndim := by
  unfold Arr.ndim
  refine (first_alike h).bind fun r s h => ?_
  cases h <;> exact .done rfl

theorem shape_alike {X : Arr F} {Y : Arr G} (h : ArraysAlike k X Y) : Par Eq X.shape Y.shape := by
  unfold Arr.shape
  refine (ndim_alike h).bind fun n _ e => ?_
  cases e
  split
  · exact (len_alike h).bind fun n _ e => by cases e; exact .done rfl
  · have aux : Par Eq (do return Shape.d2 (← X.len) (some (← (← X.first).len))) (do return Shape.d2 (← Y.len) (some (← (← Y.first).len))) := by
      refine (len_alike h).bind fun n _ e => ?_
      cases e
      refine (first_alike h).bind fun r s hrs => ?_
      rw [rowLen_alike hrs]
      exact .refl (fun _ => rfl) _
    cases h with
    | list h => exact aux
    | sparse h => exact .done (by rw [h.length_eq])
    | errObj => exact aux
    | other => exact aux

theorem width_alike {X : Arr F} {Y : Arr G} (h : ArraysAlike k X Y) : Par Eq X.width Y.width := by
  unfold Arr.width
  refine (shape_alike h).bind fun s _ e => ?_
  cases e
  exact .refl (fun _ => rfl) _

theorem checkArray_alike {X : Arr F} {Y : Arr G} (h : ArraysAlike k X Y) (m : HandleSparse) : Par (ArraysAlike k) (checkArray X m) (checkArray Y m) := by
  cases h with
  | list h =>
    simp only [checkArray, h.length_eq]
    split
    · exact .done .errObj
    · exact .done (.list h)
  | sparse h => cases m <;> first | exact .done (.sparse h) | exact .fail
  | errObj => exact .fail
  | other => exact .fail

theorem ofMat_alike {A : List (List F)} {B : List (List G)} (h : List.Forall₂ (List.Forall₂ k.num) A B) : ArraysAlike k (.ofMat A) (.ofMat B) :=
  .list (moved_map h fun _ _ h => .list h)

theorem ofMat_flt (hk : k.Sound) {A : List (List F)} {B : List (List G)} (h : MatAlike k A B) : ArraysAlike k (.ofMat A) (.ofMat B) :=
  ofMat_alike (forall₂_mono (fun _ _ h => forall₂_mono (fun _ _ h => hk.num_of_flt h) h) h)

/-! ### Matrices -/

/-- matrices of the same form -/
def SameForm (A : List (List F)) (B : List (List G)) : Prop := List.Forall₂ (List.Forall₂ fun _ _ => True) A B

theorem sameForm {V : F → G → Prop} {A : List (List F)} {B : List (List G)} (h : List.Forall₂ (List.Forall₂ V) A B) : SameForm A B :=
  forall₂_mono (fun _ _ h => forall₂_mono (fun _ _ _ => trivial) h) h

theorem shape_form {A : List (List F)} {B : List (List G)} (h : SameForm A B) : (Arr.ofMat A).shape = (Arr.ofMat B).shape := by
  cases h with
  | nil => rfl
  | cons h t => rw [shape_ofMat_cons, shape_ofMat_cons, h.length_eq, t.length_eq]

theorem width_form {A : List (List F)} {B : List (List G)} (h : SameForm A B) : (Arr.ofMat A).width = (Arr.ofMat B).width := by
  unfold Arr.width
  rw [shape_form h]

theorem ravel_alike {V : F → G → Prop} {A : List (List F)} {B : List (List G)} (h : List.Forall₂ (List.Forall₂ V) A B) :
    Par (List.Forall₂ V) (ravel (.ofMat A)) (ravel (.ofMat B)) := by
  unfold ravel
  simp only [issparse_ofMat, Bool.false_eq_true, if_false, transpose_ofMat, py_ok_bind]
  exact pyGet_alike (zipStar_alike h) 0

theorem operate2d_alike {V U T : F → G → Prop} {f : F → F → F} {g : G → G → G} (hfg : ∀ a b, V a b → ∀ c d, U c d → T (f a c) (g b d))
    {A A' : List (List F)} {B B' : List (List G)} (h : List.Forall₂ (List.Forall₂ V) A B) (h' : List.Forall₂ (List.Forall₂ U) A' B') :
    Par (List.Forall₂ (List.Forall₂ T)) (operate2d (.ofMat A) (.ofMat A') f) (operate2d (.ofMat B) (.ofMat B') g) := by
  unfold operate2d
  simp only [issparse_ofMat, Bool.or_self, Bool.false_eq_true, if_false, shape_form (sameForm h), shape_form (sameForm h'), rows_ofMat, py_ok_bind]
  refine (par_self _).bind fun s _ e => ?_
  cases e
  refine (par_self _).bind fun t _ e => ?_
  cases e
  split
  · exact .fail
  · refine Par.mapM (R := fun p q => (∃ x y, p.1 = Row.list x ∧ q.1 = Row.list y ∧ List.Forall₂ V x y) ∧
      ∃ x y, p.2 = Row.list x ∧ q.2 = Row.list y ∧ List.Forall₂ U x y)
      (zip_alike (R := fun r s => ∃ x y, r = Row.list x ∧ s = Row.list y ∧ List.Forall₂ V x y)
        (S := fun r s => ∃ x y, r = Row.list x ∧ s = Row.list y ∧ List.Forall₂ U x y)
        (moved_map h fun x y h => ⟨x, y, rfl, rfl, h⟩) (moved_map h' fun x y h => ⟨x, y, rfl, rfl, h⟩)) fun p q hpq => ?_
    obtain ⟨⟨x, y, e1, e2, hxy⟩, u, v, e3, e4, huv⟩ := hpq
    rw [e1, e2, e3, e4]
    exact .done (zipWith_alike hfg hxy huv)

theorem apply2d_alike {V : F → G → Prop} {α β : Type} {U : α → β → Prop} {f : F → Py α} {g : G → Py β} (hfg : ∀ a b, V a b → Par U (f a) (g b))
    {A : List (List F)} {B : List (List G)} (h : List.Forall₂ (List.Forall₂ V) A B) :
    Par (List.Forall₂ (List.Forall₂ U)) (apply2d (.ofMat A) f) (apply2d (.ofMat B) g) := by
  rw [apply2d_ofMat, apply2d_ofMat]
  exact Par.mapM h fun x y hxy => Par.mapM hxy hfg

theorem logs_alike (hk : k.Sound) {A : List (List F)} {B : List (List G)} (h : MatAlike k A B) :
    Par (MatAlike k) (A.mapM fun a => a.mapM safeLog) (B.mapM fun a => a.mapM safeLog) :=
  Par.mapM h fun _ _ h => Par.mapM h fun _ _ h => safeLog_alike hk (hk.num_of_flt h)

/-! ### Sparse lists -/

theorem asDicts_alike {rs : List (Row F)} {ss : List (Row G)} (h : List.Forall₂ (RowLike k) rs ss) :
    Par (List.Forall₂ (List.Forall₂ (EntryAlike k.num))) (asDicts rs) (asDicts ss) := by
  unfold asDicts
  refine Par.mapM h fun r s h => ?_
  cases h with
  | list _ => exact .fail
  | dict h => exact .done h
  | scalar _ => exact .fail

theorem sparseDicts_alike {rs : List (Dict Int F)} {ss : List (Dict Int G)} (h : List.Forall₂ (List.Forall₂ (EntryAlike k.num)) rs ss) (n : Option Nat)
    (d e : DType) : Par (ArraysAlike k) (sparseList (.list (rs.map Row.dict)) n (some d)) (sparseList (.list (ss.map Row.dict)) n (some e)) := by
  cases h with
  | nil => exact .fail
  | @cons x y xs ys h t =>
    unfold sparseList
    simp only [Arr.first, Arr.rows, List.map_cons, py_ok_bind]
    refine Par.bind (asDicts_alike (k := k) (rs := Row.dict x :: xs.map Row.dict) (ss := Row.dict y :: ys.map Row.dict)
      (.cons (.dict h) (moved_map t fun _ _ h => .dict h))) fun u v huv => .done (.sparse huv)

theorem sparsifyRow_alike (hk : k.Sound) (n : Nat) {r : Row F} {s : Row G} (h : RowLike k r s) :
    Par (List.Forall₂ (EntryAlike k.num)) (sparsifyRow n r) (sparsifyRow n s) := by
  unfold sparsifyRow
  refine (range_alike (R := Option.Rel (EntryAlike k.num)) n fun i => ?_).bind fun u v huv => .done ?_
  · refine (getItem_alike h i).bind fun a b hab => ?_
    rw [hk.eq hab hk.zero]
    split
    · exact .done .none
    · exact .done (.some ⟨rfl, hab⟩)
  · exact dictOfList_alike (filterMap_alike (fun _ _ h => h) huv)

theorem tosparse_alike (hk : k.Sound) {X : Arr F} {Y : Arr G} (h : ArraysAlike k X Y) : Par (ArraysAlike k) (tosparse X) (tosparse Y) := by
  unfold tosparse sparseList
  refine (first_alike h).bind fun r s hrs => ?_
  have aux : Par (ArraysAlike k)
      (do
        let A ← checkArray X
        let w ← A.width
        let w ← match w with
          | some n => pure n
          | none => Except.error PyErr.typeError
        let x00 ← (← A.first).getItem 0
        let ds ← (← A.rows).mapM (sparsifyRow w)
        return .sparse ds (some w) (Arith.typeOf x00))
      (do
        let A ← checkArray Y
        let w ← A.width
        let w ← match w with
          | some n => pure n
          | none => Except.error PyErr.typeError
        let x00 ← (← A.first).getItem 0
        let ds ← (← A.rows).mapM (sparsifyRow w)
        return .sparse ds (some w) (Arith.typeOf x00)) := by
    refine (checkArray_alike h _).bind fun A B hAB => ?_
    refine (width_alike hAB).bind fun w _ e => ?_
    cases e
    cases w with
    | none => exact .fail
    | some w =>
    refine (first_alike hAB).bind fun r s hrs => ?_
    refine (getItem_alike hrs 0).bind fun a b _ => ?_
    refine (rows_alike hAB).bind fun rs ss hrs => ?_
    exact (Par.mapM hrs fun _ _ h => sparsifyRow_alike hk w h).bind fun u v huv => .done (.sparse huv)
  cases hrs with
  | list _ => exact aux
  | dict _ =>
    refine (rows_alike h).bind fun rs ss hrs => ?_
    exact (asDicts_alike hrs).bind fun u v huv => .done (.sparse huv)
  | scalar _ => exact aux

end PurePredict
