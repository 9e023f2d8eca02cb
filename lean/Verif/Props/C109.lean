import Verif.Lemmas.Joined
import Verif.Props.C51
import Verif.Props.C78
import Verif.Props.C87
/-
C109: joining texts adds their counts.
-/
namespace PurePredict
open Spec

/-- The default token pattern never reaches over a character that is no word character. -/
theorem C109_default_pattern {w : Char → Bool} {lib : TextLib} {c : Char}
    (hlib : lib.findall = (defaultTokenPattern w).findall none) (hc : w c = false) (a b : Str) :
    lib.findall (a ++ c :: b) = lib.findall a ++ lib.findall b := by
  rw [hlib, default_join hc]

section
variable {lib : TextLib} {c : Char} {o : VectorizerOpts} {an : Str → List Str}

/-- **C109**: the features of a joined text are those of its two parts, one after the other. -/
theorem C109_features (h : Separator lib c) (hw : WithinWords lib o c) (han : buildAnalyzer lib o = .ok an)
    (a b : Str) : an (a ++ c :: b) = an a ++ an b := by
  unfold buildAnalyzer at han
  obtain ⟨pre, hp, han⟩ := bind_ok_iff.1 han
  have hj := preprocess_join h hp a b
  cases hw with
  | words hk h1 =>
    simp only [hk] at han
    obtain ⟨sw, -, han⟩ := bind_ok_iff.1 han
    simp only [py_pure, Except.ok.injEq] at han
    subst han
    simp only [hj, h.tokens, wordNgrams, h1]
    cases sw <;> simp
  | charWb hk hc hs =>
    simp only [hk, py_pure, Except.ok.injEq] at han
    subst han
    simp only [hj, charWb_join hc hs]

/-- **C109**, word n-grams: a joined text has at least the n-grams of its parts, each at least as often
(and possibly more: `C109_bigrams_false`). -/
theorem C109_ngrams (h : Separator lib c) (hw : o.analyzer = .word) (h1 : 1 ≤ o.minN) (h2 : o.minN ≤ o.maxN)
    (han : buildAnalyzer lib o = .ok an) (a b g : Str) :
    (an a).count g + (an b).count g ≤ (an (a ++ c :: b)).count g := by
  have han0 := han
  unfold buildAnalyzer at han
  obtain ⟨pre, hp, han⟩ := bind_ok_iff.1 han
  simp only [hw] at han
  obtain ⟨sw, hs, -⟩ := bind_ok_iff.1 han
  obtain ⟨an', e, hall⟩ := C32_analyzer lib o h1 h2 hw hp hs
  rw [han0] at e
  cases e
  have hrem : ∀ l k : List Str, remaining sw (l ++ k) = remaining sw l ++ remaining sw k := by
    intro l k
    cases sw <;> simp [remaining]
  rw [hall, hall, hall, preprocess_join h hp a b, h.tokens, hrem]
  exact ngrams_join spaced _ _ h1 _ _ g

variable {v : CountVectorizer}

/-- **C109**, CountVectorizer, any arithmetic: the counts of the joined text are the sums of the counts of
its parts, column by column; and it does not matter which part comes first. -/
theorem C109_counts {F : Type} [Arith F] (h : Separator lib c) (hw : WithinWords lib v.opts c)
    (han : buildAnalyzer lib v.opts = .ok an) (hb : v.binary = false) (hv : FittedVocab v.vocabulary) (a b : Str) :
    ∃ ra rb rab rba : Dict Int F,
      v.transform lib (some [a, b, a ++ c :: b, b ++ c :: a]) =
        .ok (.sparse [ra, rb, rab, rba] (some v.vocabulary.length) v.dtype) ∧
      ∀ j : Nat, j < v.vocabulary.length → ∃ na nb : Nat,
        entry (ofInt 0) ra j = ofInt (na : Int) ∧ entry (ofInt 0) rb j = ofInt (nb : Int) ∧
        entry (ofInt 0) rab j = ofInt ((na + nb : Nat) : Int) ∧
        entry (ofInt 0) rba j = ofInt ((na + nb : Nat) : Int) := by
  refine ⟨_, _, _, _, C34_transform lib v hb han (by simp), fun j hj => ?_⟩
  obtain ⟨t, ht⟩ := C34_columns hv hj
  refine ⟨(an a).count t, (an b).count t, C34_count hv ht _, C34_count hv ht _, ?_, ?_⟩
  · rw [C34_count hv ht, C109_features h hw han, List.count_append]
  · rw [C34_count hv ht, C109_features h hw han, List.count_append, Nat.add_comm]

/-- **C109**, repetition: a text repeated `n + 1` times has `n + 1` times its counts. -/
theorem C109_repeated {F : Type} [Arith F] (h : Separator lib c) (hw : WithinWords lib v.opts c)
    (han : buildAnalyzer lib v.opts = .ok an) (hb : v.binary = false) (hv : FittedVocab v.vocabulary) (a : Str)
    (n : Nat) :
    ∃ r rn : Dict Int F,
      v.transform lib (some [a, repeated c a n]) = .ok (.sparse [r, rn] (some v.vocabulary.length) v.dtype) ∧
      ∀ j : Nat, j < v.vocabulary.length → ∃ k : Nat,
        entry (ofInt 0) r j = ofInt (k : Int) ∧ entry (ofInt 0) rn j = ofInt (((n + 1) * k : Nat) : Int) := by
  refine ⟨_, _, C34_transform lib v hb han (by simp), fun j hj => ?_⟩
  obtain ⟨t, ht⟩ := C34_columns hv hj
  refine ⟨(an a).count t, C34_count hv ht _, ?_⟩
  rw [C34_count hv ht]
  congr 2
  induction n with
  | zero => simp [repeated]
  | succ n ih => rw [repeated, C109_features h hw han, List.count_append, ih]; ring

end

/-! ### Linear classifiers behind a CountVectorizer -/

section
variable {C : Type} {lib : TextLib} {c : Char} {v : CountVectorizer} {an : Str → List Str}

theorem linScore_add {w : Nat} {W : List (List ℝ)} {b x y z : List ℝ} (hz : ∀ i < w, z.getD i 0 = x.getD i 0 + y.getD i 0)
    (i : Nat) : linScore w W b z i + b.getD i 0 = linScore w W b x i + linScore w W b y i := by
  unfold linScore
  have : ∑ k ∈ Finset.range w, z.getD k 0 * (W.getD i []).getD k 0 =
      ∑ k ∈ Finset.range w, x.getD k 0 * (W.getD i []).getD k 0 +
      ∑ k ∈ Finset.range w, y.getD k 0 * (W.getD i []).getD k 0 := by
    rw [← Finset.sum_add_distrib]
    exact Finset.sum_congr rfl fun k hk => by rw [hz k (Finset.mem_range.1 hk)]; ring
  rw [this]
  ring

/-- The rows a classifier behind a CountVectorizer works on. -/
theorem counted_dense (han : buildAnalyzer lib v.opts = .ok an) (hb : v.binary = false)
    (hv : FittedVocab v.vocabulary) {m : Linear Ex C} {k : Nat} {W : List (List ℝ)} {b : List ℝ}
    (hm : m.IsExact v.vocabulary.length k W b) {docs : List Str} (hd : docs ≠ []) :
    ∃ X, v.transform lib (some docs) = .ok X ∧
      m.SameOutputs X (.ofMat ((docs.map fun d => termCounts v.vocabulary (an d)).map fins)) ∧
      Rect v.vocabulary.length (docs.map fun d => termCounts v.vocabulary (an d)) := by
  refine ⟨_, C34_transform lib v hb han hd, ?_, ?_⟩
  · have e : (docs.map fun d => (countRow v.vocabulary (an d) : Dict Int Ex)) =
        (docs.map fun d => realCounts v.vocabulary (an d)).map finD := by
      rw [List.map_map]
      exact List.map_congr_left fun d _ => countRow_finD _ _
    rw [e]
    obtain ⟨D, hD, hsame⟩ := C02_sparse_dense_agree m v.vocabulary.length W hm.coef hm.rect
      (docs.map fun d => realCounts v.vocabulary (an d)) (by simpa using hd) (by
        intro d hd
        obtain ⟨x, _, rfl⟩ := List.mem_map.1 hd
        exact realCounts_valid hv (an x)) v.dtype
    rw [todense_sparse (castTo_zero_exact v.dtype)] at hD
    cases hD
    have e2 : ((docs.map fun d => realCounts v.vocabulary (an d)).map finD).map
        (dense (.fin 0 : Ex) v.vocabulary.length) = (docs.map fun d => termCounts v.vocabulary (an d)).map fins := by
      simp only [List.map_map]
      exact List.map_congr_left fun d _ => by
        simp only [Function.comp, ← dense_realCounts]
        exact dense_finD _ _
    rw [← e2]
    exact hsame
  · intro r hr
    obtain ⟨d, _, rfl⟩ := List.mem_map.1 hr
    simp [termCounts]

theorem termCounts_join (hv : FittedVocab v.vocabulary) {fs gs hs : List Str} (e : hs = fs ++ gs) :
    ∀ i < v.vocabulary.length, (termCounts v.vocabulary hs).getD i 0 =
      (termCounts v.vocabulary fs).getD i 0 + (termCounts v.vocabulary gs).getD i 0 := by
  intro i hi
  subst e
  simp [termCounts, List.getD_eq_getElem?_getD, List.getElem?_range hi, codeCount, List.filter_append]

/-- **C109**, decision function, exact arithmetic: apart from the intercept, the score of each class for
the joined text is the sum of the scores of its parts (several classes). -/
theorem C109_scores (h : Separator lib c) (hw : WithinWords lib v.opts c) (han : buildAnalyzer lib v.opts = .ok an)
    (hb : v.binary = false) (hv : FittedVocab v.vocabulary) {m : Linear Ex C} {k : Nat} {W : List (List ℝ)}
    {b : List ℝ} (hm : m.IsExact v.vocabulary.length k W b) (hk : 2 ≤ k) (hc : m.classes.length = k) (x y : Str) :
    ∃ sx sy sxy : Nat → ℝ,
      (v.transform lib (some [x, y, x ++ c :: y]) >>= m.decisionFunction) = .ok (.mat
        [fins ((List.range k).map sx), fins ((List.range k).map sy), fins ((List.range k).map sxy)]) ∧
      ∀ i < k, sxy i + b.getD i 0 = sx i + sy i := by
  obtain ⟨X, hX, hs, hr⟩ := counted_dense han hb hv hm (docs := [x, y, x ++ c :: y]) (by simp)
  have hd := (C04_multiclass m _ k W b hm hk hc _ (by simp) hr).1
  refine ⟨_, _, _, by rw [hX, py_ok_bind, hs.1, hd]; rfl, fun i _ => ?_⟩
  exact linScore_add (termCounts_join hv (C109_features h hw han x y)) i

/-- **C109**, decision function and label of a classifier of two classes, exact arithmetic: apart from the
intercept the scores add; so when the intercept is not positive, two texts of the second class make a text
of the second class, and when it is not negative, two texts of the first class one of the first class. -/
theorem C109_two_classes (h : Separator lib c) (hw : WithinWords lib v.opts c)
    (han : buildAnalyzer lib v.opts = .ok an) (hb : v.binary = false) (hv : FittedVocab v.vocabulary)
    {m : Linear Ex C} {W : List (List ℝ)} {b0 : ℝ} (hm : m.IsExact v.vocabulary.length 1 W [b0]) (c0 c1 : C)
    (hne : c0 ≠ c1) (hc : m.classes = [c0, c1]) (x y : Str) :
    ∃ (sx sy sxy : ℝ) (lx ly lxy : C),
      (v.transform lib (some [x, y, x ++ c :: y]) >>= m.decisionFunction) = .ok (.flat (fins [sx, sy, sxy])) ∧
      (v.transform lib (some [x, y, x ++ c :: y]) >>= m.predict) = .ok [lx, ly, lxy] ∧
      sxy + b0 = sx + sy ∧
      (b0 ≤ 0 → lx = c1 → ly = c1 → lxy = c1) ∧ (0 ≤ b0 → lx = c0 → ly = c0 → lxy = c0) := by
  obtain ⟨X, hX, hs, hr⟩ := counted_dense han hb hv hm (docs := [x, y, x ++ c :: y]) (by simp)
  obtain ⟨h1, h2⟩ := C04_binary m _ W [b0] hm c0 c1 hc _ (by simp) hr
  have hsum := linScore_add (W := W) (b := [b0]) (termCounts_join hv (C109_features h hw han x y)) 0
  simp only [List.getD_cons_zero] at hsum
  refine ⟨_, _, _, _, _, _, by rw [hX, py_ok_bind, hs.1, h1]; rfl, by rw [hX, py_ok_bind, hs.2.1, h2]; rfl, hsum, ?_, ?_⟩
  all_goals
    intro hb0
    beta_reduce
    split_ifs <;> simp_all [hne.symm]
    try linarith

end

/-! ### fastText -/

/-- **C109**, fastText sentence vectors (unsupervised, exact arithmetic): the vector of a joined text is
the mean of the vectors of its parts, weighted by their numbers of known words. -/
theorem C109_sentence_vectors (ws : Char → Bool) (hws : ws '\n' = true) (m : FT.Model Ex)
    (hsup : m.supervised = false) (W : List (List ℝ)) (hW : m.inputMatrix = W.map fins)
    (hlen : m.words.length ≤ W.length) (hr : Rect m.dim W) {c : Char} (hc : ws c = true) (hcn : c ≠ '\n') (x y : Str)
    (hx : '\n' ∉ x) (hy : '\n' ∉ y) (hkx : ∃ w ∈ words ws x, w ∈ m.words) (hky : ∃ w ∈ words ws y, w ∈ m.words) :
    ∃ (vx vy vxy : List ℝ) (nx ny : ℕ), 0 < nx ∧ 0 < ny ∧
      nx = ((words ws x).filter (· ∈ m.words)).length ∧ ny = ((words ws y).filter (· ∈ m.words)).length ∧
      m.getSentenceVector ws x = .ok (fins vx) ∧ m.getSentenceVector ws y = .ok (fins vy) ∧
      m.getSentenceVector ws (x ++ c :: y) = .ok (fins vxy) ∧
      vxy = List.zipWith (fun p q => ((nx : ℝ) * p + (ny : ℝ) * q) / ((nx : ℝ) + (ny : ℝ))) vx vy := by
  have hj := words_join (ws := ws) hc x y
  refine ⟨_, _, _, _, _, ?_, ?_, rfl, rfl,
    C51_unsupervised_partial ws hws m hsup W hW hlen hr x hx hkx,
    C51_unsupervised_partial ws hws m hsup W hW hlen hr y hy hky,
    C51_unsupervised_partial ws hws m hsup W hW hlen hr (x ++ c :: y) (by simp [hx, hy, Ne.symm hcn]) (by
      obtain ⟨w, h1, h2⟩ := hkx
      exact ⟨w, by rw [hj]; simp [h1], h2⟩), ?_⟩
  · obtain ⟨w, h1, h2⟩ := hkx
    exact List.length_pos_of_mem (List.mem_filter.2 ⟨h1, by simpa using h2⟩)
  · obtain ⟨w, h1, h2⟩ := hky
    exact List.length_pos_of_mem (List.mem_filter.2 ⟨h1, by simpa using h2⟩)
  · have px : (((words ws x).filter (· ∈ m.words)).length : ℝ) ≠ 0 := by
      obtain ⟨w, h1, h2⟩ := hkx
      have := List.length_pos_of_mem (List.mem_filter.2 ⟨h1, by simpa using h2⟩ : w ∈ (words ws x).filter (· ∈ m.words))
      positivity
    have py : (((words ws y).filter (· ∈ m.words)).length : ℝ) ≠ 0 := by
      obtain ⟨w, h1, h2⟩ := hky
      have := List.length_pos_of_mem (List.mem_filter.2 ⟨h1, by simpa using h2⟩ : w ∈ (words ws y).filter (· ∈ m.words))
      positivity
    rw [hj, List.filter_append, List.map_append]
    simp only [meanVec, List.zipWith_map_left, List.zipWith_map_right, List.zipWith_self]
    apply List.map_congr_left
    intro j _
    simp only [List.map_append, List.sum_append, List.length_append, List.length_map, Nat.cast_add]
    rw [mul_div_cancel₀ _ px, mul_div_cancel₀ _ py]

/-! ### Where joining does not add -/

theorem lastSigns_twice (utf8 : Str → List (BitVec 8)) (n : Nat) (alt : Bool) (ts : List Str) :
    lastSigns utf8 n alt (ts ++ ts) = lastSigns utf8 n alt ts := by
  unfold lastSigns
  apply List.map_congr_left
  intro j _
  rw [List.filter_append, List.map_append, List.getLast?_append]
  cases (((ts.filter fun t => tokColumn utf8 n t = j).map (tokSign utf8 alt)).getLast?) <;> rfl

/-- **C109 is false of HashingVectorizer**: a text joined with itself gets the row of the text itself
(with any norm); without norm that is never twice the row, unless the text has no features. -/
theorem C109_hashing_false (utf8 : Str → List (BitVec 8)) {lib : TextLib} {c : Char} {v : HashingVectorizer}
    {an : Str → List Str} (h : Separator lib c) (hw : WithinWords lib v.opts c)
    (han : buildAnalyzer lib v.opts = .ok an) (hb : v.binary = false) (hn : 1 ≤ v.nFeatures)
    (hn' : v.nFeatures ≤ 2147483647) (hnorm : v.norm = none ∨ v.norm = some .l1 ∨ v.norm = some .l2) (a : Str)
    (hlen : ∀ t ∈ an a, (utf8 t).length < 2 ^ 32) :
    ∃ r r' : Dict Int ℝ,
      v.transform lib (fun f => nats (utf8 f)) (some [a, a ++ c :: a]) =
        .ok (.sparse [finD r, finD r'] (some v.nFeatures.toNat) v.dtype) ∧
      dense 0 v.nFeatures.toNat r' = dense 0 v.nFeatures.toNat r ∧
      (v.norm = none → an a ≠ [] →
        dense 0 v.nFeatures.toNat r' ≠ (dense 0 v.nFeatures.toNat r).map (2 * ·)) := by
  have hj := C109_features h hw han a a
  obtain ⟨ds, h1, -, h3⟩ := C78_rows_partial utf8 lib v han hb hn hn' hnorm (docs := [a, a ++ c :: a]) (by simp) (by
    simp only [List.mem_cons, List.not_mem_nil, or_false]
    rintro d (rfl | rfl)
    · exact hlen
    · rw [hj]; simpa using hlen)
  have hl2 : ds.length = 2 := by simpa using congrArg List.length h3
  match ds, hl2 with
  | [r, r'], _ =>
    simp only [List.map_cons, List.map_nil, List.cons.injEq, and_true, hj, lastSigns_twice] at h3
    refine ⟨r, r', h1, h3.2.trans h3.1.symm, fun hnone hne e => ?_⟩
    rw [h3.1, h3.2, hnone] at e
    obtain ⟨t, ht⟩ : ∃ t, t ∈ an a := List.exists_mem_of_ne_nil _ hne
    set n := v.nFeatures.toNat with hnn
    have hcn : tokColumn utf8 n t < n := by
      unfold tokColumn
      rw [← C38_column _ (by omega) (by omega)]
      exact C38_range _ (by omega)
    have hh := congrArg (fun l : List ℝ => l[tokColumn utf8 n t]?) e
    simp only [scaled, id, lastSigns, List.map_map, List.getElem?_map, List.getElem?_range hcn, Option.map_some,
      Function.comp, Option.some.injEq] at hh
    have hmem : t ∈ (an a).filter fun s => tokColumn utf8 n s = tokColumn utf8 n t := by simp [ht]
    obtain ⟨l, x, hl⟩ : ∃ l x, (an a).filter (fun s => tokColumn utf8 n s = tokColumn utf8 n t) = l ++ [x] :=
      ⟨_, _, (List.dropLast_append_getLast (List.ne_nil_of_mem hmem)).symm⟩
    rw [hl] at hh
    simp only [List.map_append, List.map_cons, List.map_nil, List.getLast?_append, List.getLast?_singleton,
      Option.some_or, Option.getD_some] at hh
    exact tokSign_ne utf8 v.alternateSign x (by linarith)

theorem plain_separator : Separator plainLib ' ' where
  lower := fun _ _ => rfl
  nfkd := fun _ _ => rfl
  ascii := by decide
  plain := fun _ _ => rfl
  marks := fun _ _ => rfl
  tokens := fun a b => splitWs_join rfl a b

/-- **C109 is false of word pairs**: "a b" occurs in neither part of the joined text. -/
theorem C109_bigrams_false : ∃ (o : VectorizerOpts) (an : Str → List Str),
    o.analyzer = .word ∧ o.minN = 1 ∧ o.maxN = 2 ∧ buildAnalyzer plainLib o = .ok an ∧ Separator plainLib ' ' ∧
    ∃ a b g : Str, (an (a ++ ' ' :: b)).count g ≠ (an a).count g + (an b).count g :=
  ⟨{ plainOpts with maxN := 2 }, _, rfl, rfl, rfl, rfl, plain_separator, "a".toList, "b".toList, "a b".toList, by
    decide⟩

/-- **C109 is false of the analyzer "char"**: the separator itself is counted. -/
theorem C109_characters_false : ∃ (o : VectorizerOpts) (an : Str → List Str),
    o.analyzer = .char ∧ o.minN = 1 ∧ o.maxN = 1 ∧ buildAnalyzer plainLib o = .ok an ∧ Separator plainLib ' ' ∧
    ∃ a b g : Str, (an (a ++ ' ' :: b)).count g ≠ (an a).count g + (an b).count g := by
  refine ⟨{ plainOpts with analyzer := .char }, _, rfl, rfl, rfl, rfl, plain_separator, "a".toList, "b".toList,
    " ".toList, ?_⟩
  have e : ∀ s : Str, collapseWs plainLib.ws s = normalizeSpace plainLib.ws ' ' s := collapseWs_eq _
  simp only [charNgrams, e]
  decide

/-! ### Non-vacuity -/

/-- A library with ASCII lower-casing and the default token pattern. -/
def asciiLib : TextLib :=
  { ws := Char.isWhitespace, lower := fun s => s.map Char.toLower, nfkd := id, combining := fun _ => false,
    findall := (defaultTokenPattern Char.isAlphanum).findall none }

theorem ascii_separator (c : Char) (h1 : c.toNat < 128) (h2 : c.toLower = c) (h3 : c.isAlphanum = false) :
    Separator asciiLib c where
  lower := fun a b => by simp [asciiLib, h2]
  nfkd := fun _ _ => rfl
  ascii := h1
  plain := fun _ _ => rfl
  marks := fun _ _ => rfl
  tokens := fun a b => C109_default_pattern rfl h3 a b

/-- scikit-learn's default settings. -/
def defaultOpts : VectorizerOpts :=
  { analyzer := .word, minN := 1, maxN := 1, stopWords := .none, stripAccents := .unicode, lowercase := true }

/-- Spaces, line ends, commas and full stops separate; the settings are those of `CountVectorizer()`. -/
example : Separator asciiLib ' ' ∧ Separator asciiLib '\n' ∧ Separator asciiLib ',' ∧ Separator asciiLib '.' ∧
    WithinWords asciiLib defaultOpts ' ' ∧ (∃ an, buildAnalyzer asciiLib defaultOpts = .ok an) :=
  ⟨ascii_separator _ (by decide) (by decide) (by decide), ascii_separator _ (by decide) (by decide) (by decide),
    ascii_separator _ (by decide) (by decide) (by decide), ascii_separator _ (by decide) (by decide) (by decide),
    .words rfl rfl, _, rfl⟩

/-- "dog cat" and "cat" joined: two cats and one dog, and the scores 0, 1 and 1 add up. -/
example : ∃ (sx sy sxy : ℝ) (lx ly lxy : String),
    ((⟨plainOpts, catDog, false, .int⟩ : CountVectorizer).transform plainLib
      (some ["dog cat".toList, "cat".toList, "dog cat cat".toList]) >>= catDogModel.decisionFunction) =
      .ok (.flat (fins [sx, sy, sxy])) ∧
    ((⟨plainOpts, catDog, false, .int⟩ : CountVectorizer).transform plainLib
      (some ["dog cat".toList, "cat".toList, "dog cat cat".toList]) >>= catDogModel.predict) = .ok [lx, ly, lxy] ∧
    sxy + 0 = sx + sy ∧ ((0 : ℝ) ≤ 0 → lx = "c" → ly = "c" → lxy = "c") ∧
    ((0 : ℝ) ≤ 0 → lx = "d" → ly = "d" → lxy = "d") :=
  C109_two_classes plain_separator (.words rfl rfl) plain_analyzer rfl catDog_fitted catDogModel_exact "d" "c"
    (by decide) rfl "dog cat".toList "cat".toList

/-- Three texts "cat": three cats. -/
example : (wordNgrams 1 1 (splitWs (· == ' ') (repeated ' ' "cat".toList 2)) none) =
    ["cat".toList, "cat".toList, "cat".toList] := by decide

end PurePredict
