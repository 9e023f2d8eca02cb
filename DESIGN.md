# Formal model of Ibotta/pure-predict — design

## Approach

A shallow, executable Lean 4 model of the Python code, function by function.
Python exceptions are values (`Except PyErr`), dynamic inputs are inductive
types (`Arr`: plain list of rows, `sparse_list`, the stray `ValueError` object
returned by `check_array`, anything else; `Row`: list, dict or scalar), dicts are
insertion-ordered association lists with Python's overwrite-in-place semantics.

Arithmetic is abstract: every numeric function is written over a class `Arith F`
with *no laws*.  Theorems come in three strengths:

* **structural** — for every `F` and `Arith F`: valid for IEEE doubles with NaN,
  infinities, rounding, whatever;
* **rounded** — for `F = XR fp` (finite reals, ±inf, NaN, IEEE special-value
  rules, Python's ZeroDivisionError/OverflowError) with any *sound* rounding
  (`FP.Sound`: monotone, fixes 0 and 1, idempotent; `exp` non-negative ...),
  proved to include IEEE binary64 (`Py/Binary64.lean`);
* **exact** — for the rounding that does nothing (`FP.exact`): statements about
  sums being 1, inner products, norms, in ℝ.

The builtin `sum` is modelled as left-to-right addition starting from 0, which is
what CPython did up to 3.11.  Since 3.12 it uses compensated summation for floats;
the code cannot run there as it is (`utils.py` imports `distutils`, removed in 3.12;
`setup.py` lists 3.6 to 3.8).

State that outlives a call (in-place updates of the caller's matrix by
`TfidfTransformer`, lists shared between a result and the model) is modelled in
two places only: tf-idf returns the updated input beside its result, and
`Model/Heap.lean` has a store of addresses for the aliasing property.

## Layout (`/verif/lean/Verif/`)

* `Py/*` — the Python substrate: exceptions, dicts, indexing, `zip`, `sum`,
  arithmetic classes, arrays.
* `Model/*` — the code, one file per package; each definition cites file:lines.
* `Spec/*` — small specifications that do not mention the model's helpers.
* `Lemmas/*` — helper lemmas.
* `Props/Cxx.lean` — the theorems of property Cxx, each with an `example` meeting
  its hypotheses.

Naming: `_partial` marks a theorem proving part of a property; `_false` marks a
proved negation (a witness showing the code does not have the property).

## Per-property: what is modelled, how it is proved, outcome

| | Property | Modelled / method | Outcome |
|---|---|---|---|
| C01 | Sparse/dense round trip | `sparse_list.__init__`, `todense`; induction over rows and dict lookup lemmas; structural over arithmetics in which only zeros equal 0 | **proved**. Every non-empty rectangular matrix with at least one column; entries may be inf/NaN; any sound rounding (zeros compare equal to 0). Error branch for zero columns shown separately. |
| C02 | Sparse and dense linear scores agree | `dot` on list and dict rows, `decision_function`, `predict`, `predict_proba`; sum over stored keys = sum over columns (exact; bit-for-bit rounded when stored in column order) | **proved**. Exact arithmetic for any storage order; bit-for-bit in any sound rounding when rows are stored in column order. |
| C03 | Batch independence (linear models) | all linear methods through the row-wise combinator `Spec.BatchIndependent`; structural | **proved**. Any arithmetic; decision_function, predict, predict_proba, predict_log_proba and the SGD variants; dense and sparse requests. |
| C04 | Linear predict is the decision rule | `decision_function`, `predict` against `Spec.Linear` (inner product, first maximum); exact, argmax part rounded, label membership structural | **proved**. Scores and labels in exact arithmetic, first-maximum rule also for computed scores under any rounding, labels in classes_ for any arithmetic and any request. |
| C05 | Logistic probabilities are a distribution | `sfmax`, `expit`, `_predict_proba_lr` and the dispatch on multi_class/solver; exact reals | **proved**. Exact arithmetic, every multi_class/solver combination, and SGD with log loss. |
| C06 | Predict agrees with predict_proba (linear) | C04 + C05: monotonicity of the link functions; exact | **proved**. Exact arithmetic. |
| C07 | Wrong feature count is rejected | the width guard of `decision_function`; false, so the guarded case is proved and a request with a bad later row is the witness | **partial**. False of the code: only the first record's width is checked (C07_false gives a request that is answered). Proved: wrong width in the first record, or a wrong sparse size, raises ValueError. |
| C08 | Softmax robustness | `sfmax` with overflow/underflow; false, witness in IEEE binary64, partial under a no-overflow hypothesis | **partial**. False of the code in floating point: no maximum is subtracted (C08_false). Proved for exact arithmetic and, in any sound rounding, whenever no exponential overflows and their sum is finite and non-zero. |
| C09 | safe_log and safe_exp are total | case analysis over every float of `XR`; rounded | **proved**. Every float of every sound arithmetic. |
| C10 | Tree prediction follows the decision path | tree arrays walked with fuel; refinement to an inductive decision tree and to the unbounded loop (adequate fuel); structural | **proved**. For tree arrays encoding a decision tree from node 0 (shown to hold for any array tree with increasing child indices). Fuel is proved adequate: bounded walk equals the unbounded loop. |
| C11 | Tree: sparse and dense agree | list and dict rows read the same value; structural | **proved**. Any arithmetic; arrays of any shape whose tests stay within the declared columns; the hypothesis is shown to be needed. |
| C12 | Tree probabilities | leaf counts, division, argmax; exact + rounded bounds | **proved**. Exact arithmetic: counts/sum, distribution, predict is the first most probable class. Any sound rounding: probabilities in [0,1], chosen class has maximal probability. |
| C13 | Ensemble probabilities are averages | bagging over abstract member classifiers; mean, permutation invariance; exact + rounded bounds | **proved**. Exact arithmetic for the mean/distribution/order/argmax statements; the [0,1] bound also in any sound rounding. |
| C14 | Bagging with feature subsets accepts sparse input | `_feat_slice` on sparse rows; false, witness; partial without subsets/with stored columns | **partial**. Full statement is false of the code (C14_sparse_agrees_false): a column of a feature subset that is not stored in a sparse row raises. Proved without feature subsets, and with subsets when every subset column is stored. |
| C15 | Gradient boosting additive model | `_raw_predict`, init estimators, `_accumulate`; exact sum formula, structural batch independence | **proved**.  |
| C16 | Gradient boosting probabilities are a distribution | all three losses; deviance proved, exponential false | **partial**. False for the exponential loss (C16_exponential_false); proved for deviance. |
| C17 | XGBoost trees use the right feature | dataframe parsing as string functions; false from column 10, last-digit law proved | **partial**. False from column 10 on (only the last digit is kept); proved for columns 0..9 without ties. |
| C18 | XGBoost probabilities | summed tree outputs, sigmoid/softmax; exact + rounded bound | **proved**. Exact arithmetic; the [0,1] bound of the binary case in any sound rounding. |
| C19 | Naive Bayes predicts the maximum posterior class | joint log-likelihoods against `Spec.NaiveBayes`; exact, first maximum rounded | **proved**. Textbook formula in exact arithmetic; first maximum of the computed likelihoods in any rounding. |
| C20 | Naive Bayes probabilities are a distribution | log-sum-exp; exact distribution, underflow witness in IEEE binary64 | **partial**. Proved in exact arithmetic; false in floating point (underflow gives infinite probabilities). |
| C21 | Dummy classifier returns a class label | DummyClassifier; false, law of what is returned proved | **partial**. predict returns the position, not the label; right only when labels are 0..k-1. |
| C22 | StandardScaler | StandardScaler; exact formula/inverse, rounded monotonicity | **proved**. Formula and invertibility over the reals; formula, monotonicity and sparse/dense agreement in every sound rounded arithmetic; centring sparse raises ValueError. |
| C23 | MinMaxScaler | MinMaxScaler; structural formula, exact range | **proved**. Formula in any arithmetic and over the reals; range claim over the reals for the parameters fit stores. |
| C24 | MaxAbsScaler | MaxAbsScaler; rounded | **proved**. Formula over the reals; zeros, [-1,1] bound and sparse/dense agreement in every sound rounded arithmetic. |
| C25 | Scalers reject or preserve column count | all scalers; false (`zip` truncation), partial for records not wider than fitted | **partial**. False as stated: columns beyond the fitted number are silently dropped by all three scalers (C25_false). Proved for records at most as wide as the fitted data. |
| C26 | Normalizer unit norm | `normalize_pure` l1/l2; exact, rounded bound for l1 | **proved**. Formula, unit norm, zero rows, direction, idempotence and sparse/dense agreement over the reals; entries in [-1,1] for l1 in every sound rounded arithmetic. |
| C27 | Max-normalisation preserves sign and bounds | `normalize_pure` max; false, partial for non-negative rows | **partial**. False: the code divides by the largest value, not the largest absolute value (C27_false, C27_sparse_differs). Proved for rows without negative values, and sparse/dense agreement for rows with a non-negative column. |
| C28 | One-hot encoding | one-hot column offsets; false from three features on, proved up to two | **partial**. False for three or more features: the column offset is the size of the previous feature instead of the running total (C28_false, C28_three_features_wrong). Proved for one and two features, and ValueError on unknown categories for any number. |
| C29 | Ordinal encoding round trip | ordinal encoder against `Spec.Encode`; structural | **proved**. Codes are positions in categories_, decoding recovers the record, unseen values and wrong widths raise ValueError. |
| C30 | Imputation | SimpleImputer; structural entrywise law, witnesses for the two false parts | **partial**. Entrywise imputation, dropped columns, indicator columns, width error: proved in any arithmetic. 'No missing value left' is proved when no kept statistic is itself a missing value (automatic for NaN marker and non-constant strategy) and 'twice changes nothing' when no column is dropped; both are false otherwise (witnesses C30_false_missing, C30_false_twice). |
| C31 | Missing indicator | MissingIndicator; structural mask law, error_on_new false both ways | **partial**. Mask part proved in any arithmetic. The error_on_new part is false of the code: it compares missing-value counts with feature indices (witnesses in both directions); the condition actually tested is proved. |
| C32 | Word n-grams | `_word_ngrams` against a window specification; induction over sizes and positions | **proved**. Equality with an independent window specification, membership and counting forms, and through build_analyzer; ngram_range with 1 <= min <= max. |
| C33 | Character n-grams | char analysers, whitespace runs; structural, whitespace predicate a parameter | **proved**. Equality with the specification by maximal runs (whitespace normalisation, words) and windows; membership forms. Whitespace predicate is a parameter. |
| C34 | CountVectorizer counts | CountVectorizer over an arbitrary analyser; counting induction | **proved**. Any arithmetic; counts, validity and width of the sparse result, out-of-vocabulary features, order independence, error cases. |
| C35 | Binary CountVectorizer output is a usable sparse matrix | binary branch; false (plain list), values proved | **partial**. Values proved; the claim is false of the code for every input, because a plain list of dicts is returned (text.py:380). |
| C36 | Tf-idf weighting | tf-idf with the mutated input returned; exact, witnesses for mutation | **partial**. tf*idf and normalisation proved for sparse input without sublinear_tf, also through TfidfVectorizer. 'Caller's data unchanged' is false with use_idf (witness; k calls multiply k times); sublinear_tf, width mismatch and dense rows fail with NameError/AttributeError. With binary=True the vectorizer fails, or answers with column numbers instead of weights (C36_binary_false). |
| C37 | MurmurHash3 | murmur over ℕ with masks vs reference over `BitVec 32`; induction over 4-byte blocks | **proved**. murmurhash3_32 equals the published MurmurHash3_x86_32 (stated on BitVec 32) for every byte string shorter than 2^32 and every seed, read as a signed 32-bit integer. |
| C38 | Hashing column range and sign | column/sign from the hash; integer arithmetic; structural | **proved**. Column, sign and zero-skipping of each feature, for 1 <= n_features <= 2^31-1; the encoding of strings to bytes is a parameter. |
| C39 | Hashing accumulates | false (overwrite), last-wins law proved | **partial**. False of the code: row[index] = value overwrites (_hash.py:112), a repeated token counts once (C39_false, for every encoding, width and sign setting). Proved: a column holds the last contribution, and the sum when there is at most one. |
| C40 | DictVectorizer | DictVectorizer; structural | **proved**. Rows, errors, sparse/dense agreement, single mapping; colliding names: last one wins. |
| C41 | Pipeline composition | pipeline over abstract steps; equality with Kleisli composition | **proved**. Pipelines are the composition of their steps, all methods, nested pipelines, absent methods and passthrough. |
| C42 | FeatureUnion is horizontal concatenation | hstack of dense/sparse blocks; exact/structural, weight on sparse false | **partial**. Concatenation proved for dense/sparse blocks without weights on sparse outputs; the claim with a weight on a sparse output is false (ValueError). |
| C43 | convert_estimator dispatch | mapping table as data; dispatch decided for every class name | **partial**. Conversion succeeds exactly for the listed classes; the min_version part is false of the code (argument ignored). |
| C44 | Converted models contain only plain Python data | object trees with `isinstance`; structural induction over nested values; subclasses false | **partial**. check_types accepts exactly trees of plain builtins and their subclasses; the 'only plain builtins' claim is false for subclasses such as numpy.float64. |
| C45 | Version check is numeric | LooseVersion parse as a string function, lexicographic comparison of component lists | **partial**. Version check correct for purely numeric versions of equal length; false in general (missing trailing zero, prereleases). |
| C46 | Empty and malformed input is rejected | `check_array` and the first thing each estimator does with its result | **partial**. Non-lists and unsupported sparse input are rejected as claimed; the empty list is not: check_array returns the exception object and the estimators raise TypeError (or IndexError, or accept it; a StandardScaler with nothing to do returns the exception object). |
| C47 | Cosine similarity | normalised inner product; Cauchy–Schwarz; exact | **partial**. Proved for dense X, dense Y, dense Y omitted, sparse X with dense Y; false for sparse X with Y omitted (ValueError), proved as a negation. One-dimensional arguments are refused (C74_flat_refused). |
| C48 | Cosine distance | clip and diagonal; rounded | **proved**. Range and zero diagonal in every sound rounding; values in exact arithmetic. |
| C49 | fastText top-k | heap-free top-k selection against `Spec.TopK` | **proved**. For k >= 0; negative k is characterised separately. |
| C50 | fastText softmax is safe and correct | max-shifted softmax; rounded safety, exact values | **proved**. Success in every sound rounding; values in exact arithmetic. |
| C51 | fastText word and sentence vectors | word/sentence vectors against `Spec.Embedding`; false when no word known | **partial**. True when some word is known; false (empty vector) when none is, proved as a negation. |
| C52 | fastText batch prediction | list argument reaches `str.find`; false | **partial**. Single-string case proved; a list of strings raises AttributeError, proved as a negation. |
| C53 | Matrix helper laws | matrix helpers against `Spec.Matrix`; structural | **partial**. All helpers proved except ravel (returns only the first column, negation proved) and transpose of a matrix with no columns. |
| C54 | Column slicing | column slicing; false for list on sparse input | **partial**. List selection on sparse input does not renumber columns, negation proved. |
| C55 | Log-probabilities | log of each `predict_proba`; rounded | **partial**. Every classifier except naive Bayes in every sound rounding; naive Bayes in exact arithmetic only, negation proved for floating point. XGBClassifier has no predict_log_proba. |
| C56 | Probability methods only for log loss | loss gating; substring test characterised | **proved**. For every loss name of scikit-learn; for arbitrary strings no probabilities are returned but the exception can be NotImplementedError (C56_substring_guard). |
| C57 | Batch independence (trees, forests, boosting, naive Bayes, transformers) | `Spec.BatchIndependent` for every other estimator; structural; two false cases | **partial**. False of MissingIndicator with error_on_new and of HashingVectorizer and TfidfVectorizer with binary=True (counterexamples proved); proved for all other estimators and transformers listed, over any arithmetic. Linear models are in C03. |
| C58 | Results do not alias model state | heap model with caller mutations, `Spec.Alias.Stable`; two false cases | **partial**. Heap model of calls and caller mutations. Proved for trees, bagging and every method that builds fresh lists; false (proved) of DummyClassifier.predict_proba and fastText get_word_vector, whose results are the model's own lists. Other estimators are covered only through C58_fresh_results. The calls are shown to compute what the value-level models compute. |
| C59 | XGBoost split comparison | converted split test; false at ties | **partial**. False at ties; proved without ties. |
| C60 | Linear scores are accurate in double precision | forward error analysis of left-to-right sums of rounded products (`FP.Accurate`, proved for binary64); dense and sparse by the same list of products; finiteness by monotone rounding | **proved**. general bound for any accurate arithmetic, then IEEE double precision in closed form; label theorems with and without conditions on computed values |
| C61 | Probabilities sum to one up to rounding | error of `sum` and of the quotients; `Spec.NearDist`; sharpness: two scores 709.5 give two zeros | **proved**. IEEE double precision; naive Bayes and multi-class gradient boosting (exp of a difference of logarithms) are not covered since no accuracy of exp and log is assumed; C61_softmax_sharp shows the bound on the scores is needed |
| C62 | Gradient boosting predict follows its loss | argmax of the probability row against the raw score; solving 2·expit(raw) > 1 - 2·expit(raw) gives the threshold -ln 3 | **partial**. proved for the deviance losses (exact arithmetic; in any arithmetic predict equals _raw_prediction_to_decision). For the exponential loss the claim is refuted: the threshold is -ln 3 instead of 0, and an exact criterion for agreement is proved. |
| C63 | Classifiers on sparse requests | tree walk reads a missing key as 0; feature subset slices agree whenever they succeed; refusal by check_array | **partial**. proved for trees and forests; for bagging with any members an answer to a sparse request equals the answer to the dense form (it may raise KeyError instead, C14); naive Bayes, gradient boosting and XGBoost refuse every sparse_list with ValueError, so a CountVectorizer followed by naive Bayes never answers (claim refuted there). |
| C64 | Wrong feature count given to non-linear classifiers | case analysis of the width checks; tree walks only read features below the fitted width; zip stops at the shorter list | **partial**. proved for gradient boosting when the first record is the wrong one; refuted for everything else, with what happens instead: trees ignore extra columns on all requests and raise IndexError on short paths, naive Bayes truncates silently, gradient boosting does not look at later records. |
| C65 | Conversion of scikit-learn trees and forests end to end | structural induction over the fitted tree: its depth-first array layout encodes the inductive tree (Lemmas/SkTree), then the walk lemma of C10 | **partial**. proved for classifiers, single-output regressors and forests; regression trees with several outputs keep only the first (any two trees that agree in output 0 convert to the same predictions). Single precision of the comparisons is C68. |
| C66 | Conversion of XGBoost classifiers end to end | induction over rounds and classes of the conversion loop; exact softmax is shift invariant | **partial**. proved for columns below 10 and records without ties (C17, C59): multi-class in full, binary for the default bias 0.5. Refuted: other biases, n_estimators larger than the number of trees (early stopping), two-class multi:softprob. |
| C67 | Missing values in XGBoost trees | structural induction: evaluation with all defaults set to No is evaluation without defaults, since NaN comparisons are false; then C59 | **partial**. the Missing column is never read: a NaN always goes to the No child (C67_always_no, for all trees and requests). So the claim holds when missing values only meet splits that default to No, and is refuted for a default Yes at every column. |
| C68 | Single precision of scikit-learn's trees | binary32 rounding defined on the reals with its error bound; structural induction over the tree; C65 | **partial**. proved when rounding moves no entry across a threshold it is compared with, in particular for records of single precision numbers (integers below 2^24) and for entries with a relative distance above 2^-24 from the thresholds; refuted otherwise: the code compares in double precision. |
| C69 | Fitted models that cannot be reproduced are refused at conversion | case analysis over the configuration; a witness for the acceptance of a supervised model with subwords | **partial**. false for supervised fastText models trained with subwords or word n-grams: maxn is only inspected for unsupervised models, so they convert and answer from the rows of the words alone (C69_fasttext_subwords_false, C69_buckets_ignored). The other refusals are proved. |
| C70 | What the default token pattern finds | induction over the text for the backtracking matcher against maximal runs | **proved**. findall and sub of the fragment of regular expressions the code uses are modelled as backtracking matchers (Model/Regex); which characters are word or white space characters is a parameter. |
| C71 | Preprocessing of documents | case analysis of the option combinations; filter lemmas | **proved**. the Unicode tables (lower, NFKD, combining) are parameters; the statements about ASCII input use two laws of them (UnicodeLaws), which are checked for a model of ASCII text. |
| C72 | Text classification pipelines end to end | composition of C36 (tf-idf rows), C02 (sparse and dense requests agree), C04 and C05 (decision rule, probabilities) | **proved**. exact arithmetic; vectorizer options binary=False, sublinear_tf=False, use_idf=True (the others are C35 and C36). |
| C73 | Batch independence of pipelines and feature unions | batch independent functions compose; induction over the chain of steps; a union reads the blocks column by column (BatchIndependent.columns) | **proved**. any arithmetic. Steps are described by the presentation of their records (dense of a width, sparse of a size, documents); in mixed unions dense blocks have at least one column (an empty one cannot be made sparse); a weight on a sparse block always raises (C42). CountVectorizer(binary=True) returns a plain list of dicts (C35) and is excluded. |
| C74 | Linear kernel, column normalisation and helpers on sparse rows | computation of the matrix entries; case analysis for the refusals | **proved**. values in exact arithmetic, refusals in every arithmetic. |
| C75 | Scalar intercepts of linear classifiers | the longer broadcast list is cut by map(add, ...) to the number of coefficient rows | **proved**. equality of all outputs is proved in every arithmetic; the values in exact arithmetic. |
| C76 | Bagging members that saw only some of the classes | induction over the members; a two-member witness for the wrong label | **partial**. true when every member saw all classes (C76_all_classes_partial). False otherwise: members with different numbers of classes make every request fail with ValueError; members with equally many but not all classes are added column by column, so only the first labels are ever predicted and wrong labels are returned (C76_partial_classes_false). Members without predict_proba give AttributeError. |
| C77 | Gradient boosting from the fitted arrays to the predictions | composition of the tree layout theorem (C66), additivity (C15) and the link theorems (C62) | **partial**. proved for deviance with two and with several classes; with exponential loss scores are right but probabilities and the threshold are not (C16, C62), C77_exponential_partial states what is returned. Exact arithmetic. |
| C78 | Hashing vectorizer end to end | the dictionary fold is related to the last element of the filtered token list; then C26's sparse normalisation | **partial**. exact arithmetic, norms None, l1, l2. Proved for documents in which no two token occurrences share a column (C78_reference_partial); in general every column holds the sign of the last of its tokens (C78_rows_partial), so the claim is refuted as soon as a token occurs twice (C78_repeated_false). With binary=True the result is never a sparse matrix. |
| C79 | fastText classification from text to labels | composition of the conversion (C69), the sentence vector (C51), the softmax (C50) and the selection (C49, transferred from extended reals to reals) | **partial**. exact arithmetic; texts with at least one known word (or an end-of-sentence token in the vocabulary). Without any, the code answers with the uniform distribution (C79_no_words). Lists of texts are C52, subwords and word n-grams C69. |
| C80 | Conversion of compound estimators | induction over the nested object (custom induction principle over its parts); the re-traversal of converted parts by check_types is modelled and shown never to fail | **partial**. The constructors of single estimators are parameters that end with their own check_types. Proved with None and strings counted as not convertible (C80_converts_partial); the claim that switched-off steps are kept is refuted: such a pipeline cannot be converted at all (C80_passthrough_false). float(v) of union weights is taken as read. |
| C81 | Nested pipelines are flat pipelines | induction over the nesting; each method through one record of getter and call | **proved**. For estimators lacking transform in the middle both raise AttributeError but possibly at different points, which is excluded by the hypothesis. |
| C82 | Averages, additive models and scalers are accurate in double precision | forward error analysis (pySum_error, products_error, mean_error, share_error, addTerm_error) over the binary64 model | **proved**. Members' and init estimator's outputs are hypotheses (doubles); trees are covered end to end from the leaf counts. Dense requests for (c) to (e). |
| C83 | Probabilities are accurate in double precision | composition of the forward error bounds of scores with a Lipschitz bound of the logistic function (derivative at most 1/4) and a ratio bound of the shares of perturbed exponentials (Lemmas/LinkError) | **proved**. The exponential is assumed correctly rounded (binary64 model). In (b) δ is at most 1 and some score is at least -399; in (c) scores are at most 599 and some score is at least -599, and there are at least three classes; two classes in multinomial mode are C83_multinomial_binary: within δ/2 + 3·2^-51 of the probabilities of twice the score. Gradient boosting with several classes and fastText are outside this property. |
| C84 | Conversion copies the fitted attributes of single estimators | every constructor equals a sequence of attribute readers followed by check_types; each reader is characterised by a relation between attributes (Lemmas/Construct), the table of classes is Spec/Construct | **proved**. XGBClassifier's constructor is a parameter here (what it makes is C66, C89, C98). numpy.float64 and numpy.str_ count as plain data, because check_types accepts subclasses of float and str (C44). A fitted attribute vocabulary_ holds numbers. |
| C85 | Refusals of conversion of single estimators | error propagation through the sequence of attribute readers of C84; the refused class is looked up in map.py's table | **partial**. All but the last sentence hold; regression trees of several outputs are converted to their first output (C85_multioutput_false). Where several conditions fail, the theorems name the error of the first one in the order the constructor reads. |
| C86 | Texts are hashed as their UTF-8 bytes | the model's encoder by arithmetic on code points equals Lean core's `String.utf8EncodeChar`; a one-character decoder inverts it; then C37 and C78 with the encoder filled in | **partial**. Mappings are not accepted: `_iteritems` is not defined, every non-empty request raises NameError (C86_dict_false). Strings with lone surrogates are outside the model (Lean's Char has none; str.encode refuses them). |
| C87 | Text pipelines with feature unions end to end | a union on documents equals a union of constant transformers on a request of the same length, so C42 applies; finite dense rows come from finite stored entries; then C02, C04, C05 | **partial**. The last sentence is false: a weight for a vectorizer raises ValueError on every request (C87_weight_false). Hashing vectorizers: only documents in which no two tokens share a column (C78). Norms l1, l2; not binary, not sublinear (C35, C36). |
| C88 | Unions and pipelines leave the request alone | members as functions from the given object to the returned object (or the same one) and the given object afterwards; induction over the members | **partial**. Holds whenever no member modifies the object it is given (C88_union_partial, C88_pipeline_partial; C88_pipeline_value needs nothing). False of TfidfTransformer with use_idf: members behind it work on weighted data (C88_behind_tfidf, C88_union_false), two of them without norm share one object (C88_alias_false), and a pipeline whose first step returns its input changes the caller's data (C88_pipeline_false). Objects left half modified by an exception are not modelled. |
| C89 | Converted objects behave as their fitted parts | each constructor's attributes are read back and shown to be the learned parameters (C84 gives the constructed attributes); structural induction over the fitted object for the compounds | **proved**. XGBClassifier is among the objects, given the table of its trees (C98). Encoders with categories that are not strings are not covered; callables as analyzer, tokenizer or preprocessor neither. Boosting with the hyperparameters learning_rate and n_features_. |
| C90 | Fitted pipelines, forests and boosting models end to end | C89 turns the converted object into the composed model; then C22 with C04/C05, C72, C65 and C77 | **proved**. Scaler with both centring and scaling, no zero scale; tf-idf with norm l1 or l2, neither binary nor sublinear; forests on all features whose members saw all classes. |
| C91 | Methods and labels of converted objects | induction over the fitted object with C89; the methods of a compound are computed from those of its parts; the log relation of each probabilistic class is lifted through pipelines by running the shared prefix once | **partial**. (b) is false of DummyClassifier: C91_dummy_false. (c) is not claimed for objects that end in a naive Bayes classifier, where predict_proba is computed from predict_log_proba by exp (C55). XGBClassifier has no predict_log_proba, so (c) is not claimed for objects that end in one either. |
| C92 | One answer per record, drawn from the labels | induction over the fitted object with C89; each class keeps the number of records (length lemmas over check_array, the row loops, transposition and hstack), compounds by composition | **proved**. Without a class, GaussianNB answers the empty list (C92_no_classes), which is why the quantifier asks for one. |
| C93 | Raw documents: bytes, files, non-texts, callables, stop words | model of decode, build_analyzer with callables and the stop word check with its state (Model/Documents.lean); refinement to the model on texts (Model/Text.lean, Model/Hash.lean); UTF-8 decoding inverted character by character | **partial**. The warning of (e) is never issued: `warnings` is not imported and the NameError is swallowed (C93_warning_false; C93_verdict says what is returned instead). (d) with input='file' or 'filename' and an analyzer class fails with AttributeError, `_validate_custom_analyzer` is not defined (C93_analyzer). The codec and the file system are parameters; the UTF-8 codec is modelled. strip_accents given as a class and tokens that are not texts are not modelled. |
| C94 | One probability per class | row widths of every estimator (Lemmas/Columns.lean), then induction over the fitted object | **proved**. The number of classes is read off the fitted parameters (Spec/Columns.lean); C94_single_row shows what happens when labels and coefficients disagree. |
| C95 | The predicted label has the largest probability | rounded links are monotone (Lemmas/Peak.lean), exact ones strictly (Lemmas/PeakExact.lean); both uses at once through the interface Tracks (Lemmas/Agree.lean), then induction over the fitted object | **proved**. FP.MonoExp (exp monotone, 2 and 1/2 are floats) is assumed of the arithmetic and proved of exact arithmetic and of binary64 with correctly rounded functions. NaN probabilities are excluded: argmax of a row with NaN is not meaningful. C95_ties_refuted: in double precision a one-vs-rest model with scores 1000, 2000, -1000 answers 0.5, 0.5, 0 and the second label. |
| C96 | No record's answer depends on the other records of the request, at any nesting | every leaf's methods are record by record (Lemmas/LeafRecord.lean, StepRecord.lean, KindBatch.lean); record-by-record steps compose, stand side by side and vote (Lemmas/ObjectBatch.lean); then induction over Serves, with C89 for the converted object | **proved**. Serves (Spec/Requests.lean) says from the learned parameters which requests an object takes and what its transform makes of them; naive Bayes models raise on every sparse request, which is batch independent too. Pipelines are not limited to matrices: text and mapping vectorizers and encoders may be first. |
| C97 | Dense and sparse forms of one matrix get the same answers, at any nesting | Even (Spec/SameMatrix.lean) relates two fitted objects; every leaf's methods agree on two ways of writing one matrix (Lemmas/SameMatrix.lean), transformers keep the relation Shows, unions by offsets of the columns (Lemmas/SameMatrixObject.lean); then induction over Even, with C89 for the converted object | **proved**. Not among the objects: classes that refuse or fail on sparse requests (naive Bayes, MinMaxScaler, the imputer and indicator, gradient boosting, bagging over feature subsets, centering scalers) and weighted unions (C42). C97_stored_order_matters shows that in double precision the column order is needed: a linear classifier labels (2^60, 1, -2^60) "no" when dense and "yes" when stored as columns 0, 2, 1. |
| C98 | A fitted XGBClassifier converts to the booster's probabilities and labels | the constructor's reading of the table is shown to be the conversion of C66 on the frame of each tree (Lemmas/XgbObject.lean), C89 gives the methods of the converted object, C66 what they compute; labels by the first-maximum law of softmax and sigmoid | **partial**. False as stated, negations proved: another base_score than 0.5 is lost (C98_base_score_false), fewer trees than n_estimators raise on every request (C98_early_stopping_false), a two-class multi:softprob raises TypeError on every request (C98_two_class_softprob_false); from column 10 on and at ties the trees themselves differ (C17, C59). Proved for everything else. |
| C99 | Every well-formed request to a converted object is answered, at any nesting | specification of kinds of requests and replies and of the parameters that go with them (Spec/Answered.lean); each estimator is shown to turn every request of its kind into a reply of its kind (Lemmas/AnsweredStep.lean, AnsweredFit.lean); induction on the nesting (Lemmas/AnsweredObject.lean); C89 for the conversion | **proved**. Exact arithmetic: in double precision exp and sums can overflow. Naive Bayes, XGBoost and bagging on column subsets for dense matrices, as the code takes them; union weights on dense blocks, as the code takes them. |
| C100 | In double precision no well-formed request makes a converted object raise, whatever numbers it contains | which operations of an arithmetic cannot raise (Lemmas/NoTrap.lean, proved for every sound rounding and for binary64); specification of request forms and outcomes (Spec/Unfailing.lean); each estimator answers (Lemmas/UnfailingStep.lean, UnfailingFit.lean); induction on the nesting (Lemmas/UnfailingObject.lean); C89 for the conversion | **proved**. Tfidf without sublinear counts; vectorizers with binary=False. What the answers are for such numbers is not claimed here (NaN in, NaN out). |
| C101 | Raising columns of one direction never lowers the probability of the second class, at any nesting and with all rounding errors | specification of directions, requests that move and objects with the right signs (Spec/Rising.lean); monotonicity of every rounded operation, with NaN and infinities (Lemmas/RisingArith.lean); each estimator (Lemmas/RisingFit.lean); induction on the nesting (Lemmas/RisingObject.lean); C89 for the conversion, C100 for the existence of answers | **proved**. LinearSVC, RidgeClassifier and the like (no predict_proba) by C101_linear_labels on the estimator. Gradient boosting with the default prior estimator as init. Not covered: the two-class softmax of multi_class='multinomial', naive Bayes. |
| C102 | What no part of a fitted object reads has no influence on its answers, at any nesting | specification of what may differ and of the objects that do not read it (Spec/Unread.lean); each estimator: equal answers or results that differ where they may (Lemmas/UnreadFit.lean); induction on the nesting (Lemmas/UnreadObject.lean); C89 for the conversion | **proved**. Dense rows, documents and mappings. Columns of sparse input are not covered here. |
| C103 | Class names are names only: renaming the classes renames the predictions and changes nothing else | specification on the attributes of fitted objects (Spec/Relabel.lean); each classifier: probabilities do not read the labels, labels are looked up by position; induction on the nesting (Lemmas/Relabel.lean); C89 for the conversion | **proved**.  |
| C104 | The arrangement of the columns does not matter: refitted on rearranged columns, an object answers rearranged requests alike | specification relating the attributes of two fitted objects (Spec/Shuffle.lean); each estimator: per-column maps commute with any selection of columns, sums with permutations (foldl of a right-commutative operation), tests of trees follow their values; unions stack the arrangements; induction on the nesting (Lemmas/ShuffleObject.lean); C89 for the conversion; a double-precision witness with coefficients 1, 1, 1 for the negative part | **proved**. The restriction to exact arithmetic for sums is part of the statement; C104_false_rounding shows it cannot be dropped. |
| C105 | Label helpers: sorted distinct values, order-preserving codes, refusals, unknown values | Model/Labels.lean models the helpers on tagged values with failing hash and comparison and the set order as a parameter; the set fold keeps first occurrences, insertion sort of distinct comparable values is the unique increasing permutation, the table returns last positions | **proved**. NaN is not among the numbers (sorted has no defined result then). sorted is modelled as insertion sort; for distinct comparable values the result does not depend on the algorithm. |
| C106 | performance_comparison: report, record used, exceptions, and what slicing does to sparse requests | Model/Profile.lean: exceptions over printed lines, surroundings as parameters; computation with the monad laws | **partial**. The two claims about sparse requests and the clock are false of the code (C106_sparse_false with C106_sliced_linear; C106_instant_loading, C106_instant_prediction with C106_zero_time); everything else is proved. |
| C107 | Error certificates: intervals checked step by step bound the answers of whole objects in double precision | Spec/Enclosure.lean gives the certificates as inductive relations over fitted objects; induction over the certificate, each arithmetic step by the bound on its rounding error; convexity of the rounding bound reduces steps to the ends of the intervals | **proved**. Not in certificates: naive Bayes, Normalizer, imputation, text; sparse requests; XGBoost with more than two classes. math.exp and math.log are assumed to be within one unit in the last place (true of the model's binary64, in which they are correctly rounded). |
| C108 | Units do not matter: fitted in other units, an object answers requests in those units alike | specification relating the attributes of two fitted objects (Spec/Recode.lean); per estimator an identity of extended real arithmetic; for Gaussian naive Bayes all joint log likelihoods change by the same amount, which argmax and log-normalisation do not see; induction on the nesting (Lemmas/RecodeObject.lean); C89 for the conversion; witnesses for the two exceptions | **proved**. The exceptions (max norm, rounding) are part of the statement and shown necessary by C108_false_max_norm and C108_false_rounding. MaxAbsScaler and Normalizer allow rescaling only (no offset), as in scikit-learn. Multinomial and complement naive Bayes and sparse requests are outside unless they see unchanged columns. |
| C109 | Joining texts adds their counts and scores | words of a joined text by induction on the splitter; runs of white space do not change the words; windows of a joined list contain those of the parts as a sublist; counts through C34, scores through C02 and C04, sentence vectors through C51, hashed rows through C78 | **proved**. The exceptions are part of the statement and shown by C109_bigrams_false, C109_characters_false and C109_hashing_false. That lower-casing and NFKD treat both sides of the separator apart is a hypothesis (they are parameters of the model); for the default token pattern it is proved (C109_default_pattern). |
| C110 | Ints and floats, and the signs of zeros | a logical relation between two kinds of numbers (Spec/Alike.lean): operations with a float operand keep it, comparisons agree; every estimator keeps it by its structure, composition by induction; three instances over Python numbers (Lemmas/AlikeNum.lean) | **proved**. The text vectorizers, encoders and DictVectorizer are outside the statement (they make their numbers themselves). An int too large for a float makes + and * with a float raise in Python; in PyNum the result is NaN (see DESIGN). |
| C111 | The order of the classes | a relation `Reclass w π` between fitted objects (Spec/ClassOrder.lean), a simulation for each estimator: rows rearranged by π are kept by entrywise functions, row sums, maxima and elementwise sums of matrices; for two classes 1 - expit(-x) = expit(x) and log((1-p)/p) = -log(p/(1-p)); induction over compositions; labels through C95 | **partial**. Proved in exact arithmetic, for the deviance loss; C111_false_ties, C111_false_zero_score, C111_false_exponential and C111_false_rounding show that ties, the exponential loss and double precision are real exceptions. Labels of linear classifiers, also without probabilities, are covered by C111_linear_labels where the scores decide every record. |
| C112 | The order of members, stages and rounds | a relation `Resorted` between fitted objects (Spec/MemberOrder.lean); a lemma on monadic folds: if any two steps can be exchanged up to which exception is raised, the fold over a permuted list is the same; exchange lemmas for elementwise sums of matrices (with the shape check), stage columns and tree sums; induction over compositions; the double-precision bound from C82 | **partial**. Equality is proved where sums do not depend on the order of the summands (in particular exactly); in double precision C112_false_rounding is a counterexample with four members, C112_two_members and C112_two_subspaces prove equality for two members, and C112_close, C112_close_subspaces, C112_close_rounds and C112_close_stages bound the difference for ensembles, XGBClassifier and gradient boosting. The bounds for rounds and stages are proved for two classes (with the deviance loss for stages) only. |
| C113 | Offsets and factors common to all classes cancel | a relation `Cancelled P o o'` between fitted objects, for the requests in `P` (Spec/Gauge.lean); exact arithmetic laws including infinities and NaN, then lemmas for argmax, shares, softmax and log-sum-exp; relational lemmas through decision functions, joint log-likelihoods, tree sums and boosting stages; induction over compositions | **partial**. Proved in exact arithmetic. False in double precision: C113_false_softmax (intercepts 1000 smaller make predict_proba raise, because sfmax does not subtract the largest score) and C113_false_labels (2^60 added to all intercepts makes every class tie). C113_infinite_record shows that finite records are needed for offsets of coefficients even without rounding. |
| C114 | Of a tree only the function matters | a relation `Redrawn P o o'` between fitted objects (Spec/Redrawn.lean) built on `Tree.Encodes` (the arrays encode an inductive tree) and equality of the functions `DTree.eval`; C10's simulation of the loop by the inductive tree; relational lemmas for tree, XGBoost, boosting and bagging predictions; induction over compositions | **proved**. C114_narrow_record shows that enough columns are needed where tests are left out. That two trees are the same function is shown by the rules C114_same, C114_symm, C114_trans, C114_inside, C114_useless_test, C114_exchanged_tests, C114_decided_left and C114_decided_right, or otherwise. |
| C115 | Parts with nothing to do may be left out | a relation `Trimmed P o o'` between fitted objects (Spec/Idle.lean) with `Idle s X` for transformers; each idle transformer returns the request it was given; the methods of a pipeline as its last step after the composition of the others; induction over compositions | **proved**. C115_wide_record: a scaler with mean 0 and scale 1 for one column drops the second column of a wider record without an error; C115_sparse_request: an imputer refuses sparse requests even when nothing is missing; so such requests are not among those of the statement. |
| C116 | Averages of averages, and repeated members | a relation `Regrouped` between fitted objects (Spec/Regrouped.lean); the members' matrices form a pile under elementwise addition, which raises on different shapes: associativity up to which exception is raised flattens piles of piles, division by n is a homomorphism, induction over compositions | **proved**. Exact arithmetic for groups and repetitions; C116_false_rounding shows that double precision is a real exception, C116_false_unequal that groups must be equally large. |
| C117 | A scaler can be folded into what follows | a relation `Affine` between a fitted scaler and the factor and offset of every column (Spec/Folded.lean); running the scaler is a change of units, so the relation of C108 between an object and the object for other units applies; the formulas for linear models by induction over the columns | **proved**. Exact arithmetic; C117_false_rounding shows two models with exactly representable parameters that give different labels in double precision. |
| C118 | Trees that add nothing may be left out, and the learning rate may be put into the leaves | a relation `Unladen` between fitted objects (Spec/Unladen.lean); the running sums are numbers of the format, one per record (an invariant of the fold over the stages), so adding zero times a finite rate changes nothing; a rounded product is a number of the format, so another factor 1 changes nothing; induction over the relation | **proved**. Floats of the model have one zero, so a sum of -0.0 and 0.0 is not told apart from -0.0. Trees with splits and only zeros in the leaves are not covered: they raise on records that are too short. |
| C119 | Only the direction of a record counts where records are normalised | relations between requests (each record times a positive factor; each document repeated) and a class of fitted objects (Spec/Direction.lean); norms are multiplied by the factor, which cancels; column scalers keep the factor; argmax does not depend on it; word counts of n+1 copies are n+1 times the counts, with the columns stored in the same order; induction over the fitted object | **proved**. Exact arithmetic (C119_false_overflow: in double precision the square of a large number is infinite). Not claimed for the norm max (C119_false_max). Dense records have the same length, sparse records no repeated columns. Repeated documents need features that do not reach over the separator, as in C109. C119_normalised: normalising the records beforehand, with l1 or l2, changes no answer where only the direction counts (dense rectangular requests of finite numbers). |
| C120 | A small change of a record changes the probabilities of a linear classifier only a little | exact scores differ by at most the weighted change of the columns (Spec/Drift.lean); the logistic function is Lipschitz with 1/4 and the softmax changes by a factor of at most exp(2D); together with the error bounds of C60 and C83 for each record, carried through the conversion by C89 | **proved**. Double precision, numbers of moderate size (the terms of a score add up to at most 2^1000; with several classes scores that neither overflow the exponential nor all vanish). Two classes in multinomial mode: half instead of a quarter (C120_two_multinomial). C120_false_tree: for a tree the probability of a class can change from 0 to 1 however small the change. |
| C121 | Conversion depends on a fixed list of attributes and on nothing else | a table of attributes by class (Spec/Reads.lean), compared with the constructors one by one (Lemmas/Reads.lean), the table of constructors searched in parallel with the table of attributes; induction over the fitted object | **proved**. Equality of converted objects and of exceptions, for every kind of number. Attributes that hold objects (tree_, indicator_, _tfidf, get_booster) are compared by what is read of them. The attributes of the compound classes that are copied (names of steps, weights, classes, selected columns, loss, hyper-parameters of gradient boosting) are part of the build. fastText models are not fitted objects of this kind. |
| C122 | A missing attribute anywhere in a fitted object is noticed at conversion | a table of needed attributes by class (Spec/Needs.lean); two properties of programs, being unaffected by the removal of an attribute and raising AttributeError on it, closed under sequencing (Lemmas/Needs.lean), followed through each constructor up to the place where the attribute is read; induction over the place in the fitted object | **proved**. For every kind of number. AttributeError is shown for objects that can be converted when complete; an object with further defects may be refused with the exception of another of them. The attributes of the compound classes themselves are part of the type of fitted objects in the model and cannot be missing there. |
| C123 | Of a booster's table only the rows of the trees that count matter, tree by tree | a table as a list of rows (Spec/BoosterRows.lean); the columns of one tree computed from the rows of that tree; induction over trees and rounds with the range of numbers used | **proved**. For every kind of number. n_estimators and n_classes_ are non-negative Python ints. The table has the six columns that are read (others do not matter, C121). |

## Code that disagrees with the stated property

Each line is proved as a negation (theorem in brackets); the part that does hold
is kept as a `_partial` theorem.

* linear models check only the first record's width [C07_false]
* softmax does not subtract the maximum: overflow gives NaN/exception [C08_false, C08_underflow_raises, C08_overflow_nan]; even without overflow of a single exponential the row for scores (709.5, 709.5) is silently (0, 0) [C61_softmax_sharp]
* bagging with feature subsets: KeyError on a sparse row lacking a selected column [C14_sparse_agrees_false]
* exponential loss `predict_proba` is not a distribution [C16_exponential_false]
* XGBoost feature names are parsed by last character only [C17_false_from_ten]; splits compare with `<=` instead of `<` [C59_ties_false]
* naive Bayes probabilities are infinite when all exponentials underflow [C20_underflow_infinite]; so log-probabilities disagree too [C55_naive_bayes_false]
* DummyClassifier.predict returns the position, not the label [C21_label_false]
* scalers silently drop extra columns [C25_false]
* `normalize(norm='max')` divides by the largest value, not the largest magnitude [C27_false]
* one-hot offsets are wrong from the third feature on [C28_false]
* SimpleImputer: a missing value may remain / a second application may fail [C30_false_missing, C30_false_twice]
* MissingIndicator error_on_new compares counts with indices [C31_false_raises, C31_false_silent]
* CountVectorizer(binary=True) returns a plain list [C35_false]
* TfidfTransformer changes the caller's matrix [C36_false, C36_repeated_calls]; `sublinear_tf` is a NameError [C36_sublinear]
* feature hashing overwrites instead of accumulating [C39_false]
* FeatureUnion: a weight on a sparse output raises [C42_false]
* `convert_estimator` ignores `min_version` [C43_min_version_false]
* `check_types` accepts subclasses of builtins (numpy.float64) [C44_false]
* version comparison: missing trailing component, pre-releases [C45_false, C45_prerelease_typeError]
* `check_array` returns, instead of raising, the ValueError for an empty list [C46_false]
* cosine similarity of a sparse matrix with itself raises [C47_false]
* fastText: sentence vector of unknown words is empty [C51_false]; prediction on a list of texts raises [C52_false]
* `ravel` returns only the first column [C53_ravel_false]; transpose of a matrix without columns loses its rows [C53_transpose_no_columns]
* list slicing of sparse columns does not renumber [C54_false]
* MissingIndicator(error_on_new) and HashingVectorizer(binary=True) depend on the rest of the batch [C57_false_indicator, C57_false_hashing]
* results sharing the model's own lists: DummyClassifier.predict_proba, fastText get_word_vector [C58_dummy_false, C58_fasttext_false]
* exponential loss `predict` switches to the second label at raw score -ln 3 instead of 0 [C62_false]
* naive Bayes, gradient boosting and XGBoost refuse sparse input, so CountVectorizer followed by MultinomialNB always raises ValueError [C63_count_then_bayes_refused]
* trees, forests and naive Bayes never check the number of features: extra columns are ignored, missing ones give IndexError or a wrong score [C64_tree_false, C64_multinomial_false]
* gradient boosting checks only the first record of a request [C64_gb_later_false]
* regression trees with several outputs silently lose all outputs but the first [C65_outputs_dropped]
* base_score of a binary booster is ignored [C66_base_score_false]
* a booster with fewer trees than n_estimators (early stopping) converts but raises IndexError on every request [C66_early_stopping_false]
* two-class multi:softprob raises TypeError [C66_two_class_softprob_false]
* missing values always go to the No child; the default direction of the booster is ignored [C67_default_yes]
* a double just above a threshold takes the other branch than in scikit-learn, which rounds the records to single precision first [C68_crossed]
* supervised fastText models with subwords (maxn > 0) or word n-grams are converted without complaint and answer without these features (pure_fasttext/FastText.py:64-80)
* bagging adds the members' columns by position and ignores each member's classes_: ensembles with a member that missed a class fail or return wrong labels (ensemble/_bagging.py:35-43)
* bagging over estimators without predict_proba raises AttributeError instead of voting
* exponential loss: see C16 and C62
* C78 — a token that occurs twice in a document counts once, so the hashed rows differ from scikit-learn's for ordinary texts (`C78_repeated_false`); `binary=True` returns a plain list of dicts (`C78_binary_not_sparse`).
* C79 — a text without any known word is answered with equal probabilities for all labels and the last label first (`C79_no_words`), where fastText returns no label.
* C80 — a pipeline with a step None or 'passthrough', or a union with a step 'drop', cannot be converted (ValueError), although `_iter` would skip such steps at prediction time (`C80_passthrough_false`).
* C85 — regression trees of several outputs are converted and silently keep only the first output (`C85_multioutput_false`, see also C65).
* C86 — a feature hasher with input_type 'dict' (its default) raises NameError on every non-empty request, `_iteritems` being undefined (`C86_dict_false`).
* C87 — transformer_weights on a text vectorizer raise ValueError on every request (`C87_weight_false`, see also C42).
* C88 — a TfidfTransformer in a FeatureUnion multiplies its weights into the request that the later members see (`C88_union_false`, `C88_alias_false`); behind a step that returns its input it changes the caller's data (`C88_pipeline_false`).
* C91: a converted DummyClassifier has no classes_ attribute (dummy.py:20-31), so classes_ of a converted Pipeline ending in one raises AttributeError (C91_dummy_false).
* C92: a converted DummyClassifier answers the position of the most frequent class, not its label (dummy.py:33-34), so it is left out of the claim on labels.
* C93: `_check_stop_words_consistency` uses `warnings` without importing it (text.py:263); the NameError is caught on line 270, so the warning is never issued (C93_warning_false).
* C93: `_validate_custom_analyzer` (text.py:284) is not defined: a callable analyzer with input='file' or 'filename' raises AttributeError on every request (C93_analyzer).
* predict need not equal classes_[argmax(predict_proba)] in double precision: saturated one-vs-rest scores give ties (C95_ties_refuted); scikit-learn has the same property.
* in double precision the label of a sparse row depends on the order in which its entries are stored (C97_stored_order_matters)
* a fitted XGBClassifier with base_score other than 0.5, with early stopping or with a two-class softmax converts without error and answers differently or not at all [C98_base_score_false, C98_early_stopping_false, C98_two_class_softprob_false]
* C100: `LogisticRegressionPure.predict_proba` with three or more classes and multi_class='multinomial' (linear_model/_logistic.py:36, base.py sfmax) raises ZeroDivisionError when all scores of a record are below about -745, and `GaussianNBPure` (naive_bayes.py:77, `** 2`) raises OverflowError on values about 1e154 or more from a mean (`C100_softmax_false`, `C100_gaussian_raises`).
* DummyClassifierPure answers with the position of the largest prior instead of a label (C21), so renaming its classes has no effect.
* Sums are accumulated in column order in double precision: a ridge classifier with coefficients 1, 1, 1 labels (2^60, 1, -2^60) and (2^60, -2^60, 1) differently (C104_false_rounding).
* performance_comparison divides by measured times: ZeroDivisionError when the clock does not advance [C106_instant_loading, C106_instant_prediction]
* slices of a sparse_list are plain lists: performance_comparison on sparse requests makes linear models raise ValueError [C106_sparse_false]
* NormalizerPure with norm='max' divides by the greatest entry, 1 when that is zero: (0, -1) and (0, -2), the same record in other units, stay different (C108_false_max_norm).
* In double precision a change of origin can lose the value: a ridge classifier labels 1 'yes', and 2^60 + 1 counted from -2^60 'no' (C108_false_rounding).
* HashingVectorizerPure: a text joined with itself gets the same row as the text, where scikit-learn's counts double (C109_hashing_false; see C39).
* NormalizerPure: integer input is normalised with exact integer sums and may raise OverflowError where scikit-learn converts to float first (C110_false_l1, C110_false_l2).
* DecisionTree…Pure compares ints exactly; scikit-learn converts records to float32 first (C110_large_ints).
* ExponentialLoss: with even shares and a zero score the class listed second gets probability 1, whichever it is (C111_false_exponential).
* In double precision a common offset does not cancel: multinomial logistic regression raises ZeroDivisionError when all scores are very negative, and NaN when all are very large (sfmax, base.py:76-89, does not subtract the largest score).
* Normalizer(norm='max') divides by the greatest value, not the greatest absolute value, and by 1 where it is 0, so [-1, 0] and [-2, 0] are left as they are (C119_false_max).
* In double precision the l2 norm of [2**600] is infinite and the record becomes [0.0] (C119_false_overflow).
* A decision tree answers [0] with (1, 0) and [e] with (0, 1) for every e > 0 (C120_false_tree).

## Trusted base

* **Lean 4.33.0 kernel.**
* **Axioms.** No axiom is added. `#print axioms` was run on every theorem listed
  in MANIFEST.json; the result is at the end of this file.
  `sorryAx`, `Lean.ofReduceBool` and `Lean.trustCompiler` do not occur.
* **Faithfulness of the model.** Each definition cites the file and lines of /repo
  it models and says what it simplifies. This correspondence is by reading only;
  the code was not run.
* **The arithmetic interface.** `FP.Sound` states what rounding is assumed to do.
  It is proved for IEEE binary64 with round-to-nearest-even (`Py/Binary64.lean`:
  `FP.binary64_sound`; `FP.binary64With_sound` for any C library `exp` that is
  non-negative, exact at 0 and at most 1 on non-positive arguments), so rounded
  theorems apply to doubles, and the floating point negations (C08, C20, C55) are
  stated for `FP.binary64`. Signed zeros are not distinguished and NaN payloads
  are ignored.
* **`exp`, `log`, `sqrt`** of the `math` module: in `XR fp` they are the real
  functions followed by the rounding, with Python's exceptions. Theorems named
  rounded use only the laws in `FP.Sound`.

### Modelled

Every prediction-time method of `pure_sklearn` and `pure_fasttext`:
`base.py`, `utils.py`, `map.py`, `dummy.py`,
`naive_bayes.py`, `pipeline.py`, `linear_model/*`, `svm/_classes.py`,
`tree/_classes.py`, `ensemble/{_bagging,_forest,_gb,_gb_losses}.py`,
`xgboost/_classes.py`, `preprocessing/{_data,_encoders,_label}.py`,
`impute/_base.py`, `feature_extraction/{_dict_vectorizer,_hash,text}.py`,
`metrics/pairwise.py`, `FastText.py`.  The constructors: those of the 27 single
estimators on attribute level (`Model/Construct.lean`), the tree arrays of
`tree/_classes.py`, `XGBClassifierPure` with the XGBoost dataframe parser, the recursive conversion of pipelines, unions, bagging, forests and boosting
(`Model/Convert.lean`), `check_types`, `check_version`, `convert_type`,
`convert_estimator`.

### Not modelled

* scikit-learn, numpy, xgboost and fasttext themselves: the attributes of fitted
  objects are given values, `tolist` of an array is the data it holds, and the
  prediction models take these data as typed parameters.
* `copy`/`pickle` (parameters of the model of `performance_comparison`), file access (`input='filename'`,
  decoding errors), warnings (`warnings.warn` is a no-op; where its import is
  missing the NameError is modelled).
* Regular expressions: the default token pattern and the tag pattern are modelled
  (`Model/Regex.lean`, with the word characters as a parameter); other patterns
  are parameters of the analysers, and so are the whitespace class, unicode
  normalisation (`strip_accents`) and `lower`.
* UTF-8 encoding of tokens before hashing is modelled (`utf8`, C86); strings with lone surrogates, which `str.encode` refuses, do not exist in the model.
* Running time, recursion limits and memory.
* Python ints and signed zeros in most theorems: entries are elements of one type `F`, for the rounded and exact theorems the
  reals with infinities and NaN (`XR`).  `Py/PyNum.lean` models Python's ints, floats and signed zeros; C110 shows that objects over
  them answer as over `XR` (numeric estimators and their compositions; not the text vectorizers, encoders and DictVectorizer).
  There an int out of the range of floats gives NaN instead of OverflowError in `+`, `-`, `*` with a float.

## Axioms of each theorem

803 theorems.

**no axioms** (14): C30_indicator_converted, C38_range, C41_empty, C46_not_a_list, C46_sparse, C50_empty, C57_split, C69_encoder, C106_same_record, C106_slice, C114_same, C114_symm, C114_trans, C114_exchanged_tests

**`propext`** (26): C19_sparse_refused, C21_proba_is_prior, C23_sparse_refused, C31_missing_iff, C34_oov, C40_single, C46_list, C46_false, C46_empty_tree_partial, C46_empty_dummy_accepted, C46_not_a_list_estimators, C87_no_documents, C48_error, C56_attribute_error, C66_refused, C74_apply_dense, C80_dtype, C86_input_types, C86_dict_false, C87_no_documents, C88_tfidf_value, C88_pipeline_value, C114_inside, C114_useless_test, C115_sparse_request, C122_read

**`Quot.sound`, `propext`** (177): C01_no_columns, C04_labels_in_classes, C07_wrong_width_rejected_partial, C07_wrong_sparse_size_rejected_partial, C07_sparse_no_size, C11_feature_out_of_range, C14_no_subsets_partial, C14_stored_columns_partial, C21_predict_is_position, C21_strategy, C22_sparse_centring_refused, C23_transform, C25_unfitted, C28_unknown_block, C29_width, C30_transform, C30_indicator, C30_wrong_width, C30_no_indicator, C30_no_missing_partial, C30_no_missing_nan_partial, C30_idempotent_partial, C30_twice_raises_partial, C31_mask_partial, C31_total_partial, C31_error_on_new_partial, C31_all_features_partial, C31_wrong_width, C32_builtin_stop_words, C33_words_nonspace, C34_transform, C34_valid, C34_count, C34_columns, C34_order, C34_string, C34_no_documents, C35_transform_partial, C35_values_partial, C35_width_partial, C35_false, C36_weights_partial, C36_unchanged_partial, C36_changed_partial, C36_sublinear, C36_wrong_width, C36_dense, C36_vectorizer_binary, C38_column, C40_last, C40_row_ok, C40_sparse, C40_dense, C40_empty, C41_predict, C41_predict_proba, C41_predict_log_proba, C41_transform, C41_absent, C41_passthrough, C41_nested, C42_weight_sparse, C42_error, C42_no_transformers, C45_parse, C46_empty_linear_partial, C46_empty_gb_partial, C46_empty_xgb_partial, C46_empty_nb_partial, C46_empty_gaussian_partial, C46_empty_encoders_partial, C46_empty_impute_partial, C46_empty_vectorizers_partial, C46_empty_cosine, C46_sparse_unsupported, C46_sparse_unsupported_encoders, C46_empty_scaler_returned, C47_sparse_self_raises, C47_sparse_Y_raises, C47_width, C74_flat_refused, C48_entry, C48_diagonal, C51_unknown, C53_transpose, C53_transpose_involution, C53_transpose_no_columns, C53_ravel_first_column, C53_operate, C53_operate_errors, C53_apply, C53_matmult_dense, C53_matmult_errors, C53_accumu, C53_apply_axis, C53_apply_axis_sparse, C54_int_dense, C54_int_sparse, C54_list_dense, C54_out_of_range, C54_list_sparse_partial, C54_negative_index, C56_no_probabilities, C57_tree, C57_dummy, C57_forest, C57_bagging, C57_naive_bayes_discrete, C57_scalers, C57_normalizer, C57_imputer, C57_count_vectorizer, C57_tfidf_partial, C57_hashing_partial, C57_dict_vectorizer, C57_indicator_partial, C57_false_tfidf_binary, C62_deviance_decision, C63_bagging_sound, C63_refused_partial, C63_count_then_bayes_refused, C64_gb_first_partial, C64_multinomial_answers, C64_gaussian_long, C64_gb_later_ignored, C71_refused_error, C71_agree, C71_case, C71_verbatim, C73_predict, C73_predict_proba, C73_predict_log_proba, C73_rows, C73_steps, C74_kernel_width, C74_kernel_sparse_self, C74_apply_sparse, C74_apply_agrees, C74_flat_refused, C75_no_intercept, C75_no_intercept_error, C76_different_widths_refused, C78_string, C78_binary_not_sparse, C81_transform, C88_union_partial, C88_quiet_pure, C88_quiet_same, C88_scaler_same, C88_tfidf, C88_behind_tfidf, C91_union, C92_no_classes, C93_count, C93_tfidf, C93_hashing, C93_refused, C93_bare, C93_session, C93_analyzer, C93_callables, C93_columns_first, C94_single_row, C105_order, C105_unknown_refused, C106_report_partial, C106_first_record, C106_exceptions, C106_sliced_linear, C106_sparse_false, C106_instant_loading, C106_instant_prediction, C106_early_exceptions, C109_features, C109_counts, C109_repeated, C114_columns

**`Classical.choice`, `Quot.sound`, `propext`** (586): C01_sparse_dense_roundtrip, C01_roundtrip_any_arith, C02_sparse_dense_agree, C02_sparse_dense_agree_rounded, C02_out_of_range_index, C03_linear_batch_independence, C03_linear_batch_independence_sparse, C04_binary, C04_multiclass, C04_multiclass_rounded, C04_one_label_per_record, C05_probabilities_are_distributions, C05_lr_binary, C05_lr_multiclass, C05_multinomial, C05_multinomial_binary, C05_dispatch, C05_ovr_uses_lr, C05_sgd_log, C05_lr_rounded, C06_predict_agrees_with_proba, C07_false, C07_later_records_not_checked, C08_softmax_defined_partial, C08_softmax_defined_exact_partial, C08_false, C08_underflow_raises, C08_overflow_nan, C09_safe_log_total, C09_safe_exp_total, C09_special_values, C10_tree_follows_decision_path, C10_loop_is_unbounded_loop, C10_total, C10_regressor_predict, C11_tree_sparse_dense_agree, C12_tree_probabilities, C12_leaf_probabilities_rounded, C13_proba_is_mean, C13_proba_is_distribution, C13_order_independent, C13_predict_is_argmax, C13_mean_in_unit_rounded, C14_unstored_column_raises, C14_sparse_agrees_false, C14_forest_sparse_dense, C15_raw_scores_additive, C15_batch_independent, C15_batch_independent_trees, C16_deviance_distribution_partial, C16_deviance_predict, C16_exponential_distribution_iff, C16_exponential_false, C16_exponential_decision, C16_binomial_unit_rounded, C17_last_digit, C17_feature_right_iff, C17_child_right, C17_single_digit_partial, C17_false_from_ten, C17_conversion_faithful_false, C18_binary, C18_multi, C18_predict_is_argmax, C18_binary_unit_rounded, C19_multinomial, C19_complement, C19_gaussian, C19_predict_first_max_rounded, C20_distribution_exact_partial, C20_multinomial_exact_partial, C20_underflow_infinite, C20_finite_false, C20_api_false, C21_label_false, C21_index_labels_partial, C22_transform_formula, C22_invertible, C22_transform_rounded, C22_monotone_rounded, C22_sparse_agrees, C23_transform_formula, C23_range, C24_transform_rounded, C24_transform_formula, C24_zero_and_range, C24_sparse_agrees, C25_false, C25_preserves_width_partial, C25_narrow_raises_partial, C26_dense, C26_sparse_agrees, C26_unit, C26_zero_row, C26_direction, C26_idempotent, C26_transform_twice, C26_l1_bounded_rounded, C27_false, C27_sparse_differs, C27_dense_formula_partial, C27_nonneg_rows_partial, C27_sparse_agrees_partial, C28_false, C28_three_features_wrong, C28_two_features_partial, C28_unknown_error, C29_ordinal, C29_ordinal_exact, C29_unknown, C30_false_missing, C30_false_twice, C31_false_raises, C31_false_silent, C31_false, C32_word_ngrams, C32_mem, C32_count, C32_analyzer, C33_char, C33_char_mem, C33_char_wb, C33_char_wb_mem, C33_no_double_space, C36_tfidf_partial, C36_vectorizer_partial, C36_false, C36_repeated_calls, C36_binary_false, C37_murmur, C37_range, C38_step, C38_transform, C38_validate, C39_false, C39_last_partial, C39_no_collision_partial, C40_row, C42_concat_partial, C42_xr_partial, C42_false, C43_supported, C43_unsupported, C43_iff, C43_min_version_ignored, C43_min_version_false, C44_check_types_partial, C44_error, C44_only_plain_partial, C44_false, C45_check_partial, C45_no_min, C45_unknown, C45_same_length_partial, C45_rejects, C45_false, C45_prerelease_typeError, C45_constructors, C46_empty_scalers_partial, C47_dense, C47_self, C47_sparse_agrees, C47_bounds, C47_entry, C47_spec_bounds, C47_spec_symm, C47_spec_self, C47_spec_zero, C47_spec_scale, C47_false, C48_range_rounded, C48_exact, C48_exact_self, C49_topk, C49_finite, C49_ties, C49_negative_k, C49_errors, C50_safe_rounded, C50_exact, C50_distribution, C50_shift, C50_monotone, C51_known, C51_no_known_word, C51_newline, C51_false, C51_supervised_partial, C51_unsupervised_partial, C52_list_raises, C52_false, C52_single_partial, C53_ravel_column, C53_ravel_false, C53_matmult_sparse, C54_false, C55_logistic, C55_sgd, C55_tree, C55_bagging, C55_gb, C55_dummy, C55_naive_bayes_exact_partial, C55_naive_bayes_underflow, C55_naive_bayes_false, C56_log_loss, C56_substring_guard, C57_gradient_boosting, C57_xgb, C57_naive_bayes_gaussian, C57_encoders, C57_false_indicator, C57_false_hashing, C58_fresh_results, C58_tree, C58_bagging, C58_dummy_log_proba, C58_dummy_false, C58_dummy_not_stable, C58_dummy_predict_changes, C58_fasttext_false, C58_dummy_values, C58_tree_values, C59_converted_semantics, C59_ties_false, C59_no_ties_partial, C60_scores, C60_scores_binary, C60_double, C60_double_binary, C60_label, C60_label_binary, C60_total, C60_total_binary, C61_softmax, C61_softmax_sharp, C61_tree, C61_lr_binary, C61_lr_multiclass, C61_multinomial, C61_multinomial_binary, C61_xgb_binary, C61_xgb_multi, C61_gb_binomial, C61_fasttext, C61_bagging, C62_deviance_partial, C62_exponential_predicts, C62_exponential_iff_partial, C62_raw_to_decision_exponential, C62_false, C63_trees, C63_forests, C64_tree_extra_ignored, C64_tree_short, C64_discrete_bayes_truncates, C64_tree_false, C64_gb_later_false, C64_multinomial_false, C65_tree, C65_missing_feature, C65_outputs_dropped, C65_classifier, C65_regressor, C65_forest, C66_multi_partial, C66_binary_partial, C66_base_score_false, C66_early_stopping_false, C66_two_class_softprob_false, C67_default_no_partial, C67_always_no, C67_default_yes, C67_false, C68_not_crossed_partial, C68_regressor_partial, C68_crossed, C68_false, C69_gb_loss, C69_xgb, C69_xgb_error, C69_fasttext_loss_partial, C69_fasttext_unsupervised, C69_fasttext_no_labels, C69_buckets_ignored, C69_fasttext_subwords_false, C70_default_tokens, C70_token_chars, C70_occurrence, C70_analyzer, C70_white_space, C71_refused, C71_preprocess, C71_ascii_output, C71_unicode_output, C71_ascii_input, C71_tag, C71_no_tag, C72_binary, C72_multinomial, C72_ovr, C72_bag, C72_unknown, C73_transform, C73_union_dense, C73_union_sparse, C73_text, C74_kernel_dense, C74_kernel_self, C74_gram, C74_kernel_sparse, C74_columns, C74_normalize_refused, C74_normalizer_refused, C74_softmax_dict, C75_row_scores, C75_scalar_intercept, C75_decision_many, C75_decision_one, C76_all_classes_partial, C76_no_probabilities, C76_first_labels, C76_partial_classes_false, C77_multinomial, C77_binomial, C77_exponential_partial, C77_refused, C78_rows_partial, C78_reference_partial, C78_repeated_false, C78_invalid, C78_empty, C78_binary, C79_predict_partial, C79_bag, C79_distribution, C79_no_words, C80_converts_partial, C80_mirrors, C80_passthrough_false, C80_refused, C80_versions, C80_plain, C81_predict, C81_predict_proba, C81_predict_log_proba, C82_average, C82_average_label, C82_forest, C82_tree, C82_boosting, C82_xgb, C82_standard, C82_minmax, C82_maxabs, C83_lr_binary, C83_logistic_binary, C83_sgd_binary, C83_lr_multiclass, C83_multinomial, C83_xgb_binary, C83_gb_binomial, C83_multinomial_binary, C84_single, C84_checks, C84_plain, C84_nested, C85_unfitted, C85_tfidf_vectorizer, C85_not_plain, C85_dtype, C85_drop, C85_dummy, C85_multioutput_tree, C85_multioutput_false, C86_utf8, C86_toUTF8, C86_bytes, C86_decodes, C86_injective, C86_ascii, C86_hash, C86_vectorizer, C86_rows, C87_count, C87_tfidf, C87_hash_partial, C87_union_partial, C87_no_transformers, C87_weight_false, C87_binary, C87_multinomial, C87_ovr, C87_additive, C88_pipeline_partial, C88_union_false, C88_alias_false, C88_pipeline_false, C89_converted_behaves, C89_behaviour_unique, C90_scaled_logistic, C90_scaled_logistic_multi, C90_text_logistic, C90_forest, C90_boosting_binary, C90_boosting_multi, C90_bagging, C91_methods, C91_classes, C91_log_partial, C91_dummy_false, C92_one_per_record, C92_labels, C93_utf8, C93_says_or_refused, C93_verdict, C93_warning_false, C94_one_per_class, C94_one_per_label, C95_predict_agrees, C95_binary64, C95_exact_first, C95_ties_refuted, C96_predictions, C96_transform, C97_predictions, C97_transforms, C97_todense, C97_tosparse, C97_stored_order_matters, C98_binary_partial, C98_multi_partial, C98_base_score_false, C98_early_stopping_false, C98_two_class_softprob_false, C98_refused, C98_pipeline, C99_every_request_answered, C99_classifiers, C99_transformers, C99_grown_classifiers, C99_grown_regressors, C100_no_request_raises, C100_classifiers, C100_text_classifiers, C100_grown_classifiers, C100_grown_regressors, C100_softmax_raises, C100_softmax_false, C100_gaussian_raises, C101_answers_move, C101_two_classes, C101_one_record, C101_linear_labels, C101_counts, C101_grown_classifiers, C101_grown_regressors, C102_unread, C102_columns, C102_text, C102_mappings, C102_forest, C102_zero_coefficient_reads_nan, C103_relabelled, C103_single, C103_dummy_ignores_names, C104_rearranged, C104_answers, C104_forest, C104_false_rounding, anyOrder_exact, C105_encoded, C105_set_order, C105_refused, C105_given, C105_given_refused, C105_unknown, C105_encoders, C106_zero_time, C107_certified, C107_double_probabilities, C107_double_labels, C107_against_exact, C107_small_changes, C107_add_ends, C107_sub_ends, C107_mul_corners, C107_div_corners, C107_exp_ends, C107_log_ends, C107_grown_classifiers, C107_grown_regressors, C108_recoded, C108_answers, C108_forest, C108_threshold, C108_increasing, C108_false_max_norm, C108_false_rounding, C109_default_pattern, C109_ngrams, C109_scores, C109_two_classes, C109_sentence_vectors, C109_hashing_false, C109_bigrams_false, C109_characters_false, C110_alike, C110_equal_numbers, C110_equal_answers, C110_zero_signs, C110_model, C110_false_l2, C110_false_l1, C110_large_ints, C111_class_order_partial, C111_one_class, C111_labels_partial, C111_false_ties, C111_false_exponential, C111_false_rounding, C111_linear_labels, C111_false_zero_score, C112_any_order_partial, C112_exact, C112_two_members, C112_two_subspaces, C112_close, C112_false_rounding, C112_close_subspaces, C112_close_rounds, C112_close_stages, C113_cancel_partial, C113_columns_finite, C113_infinite_record, C113_false_softmax, C113_false_labels, C114_redrawn, C114_grown, C114_decided_left, C114_decided_right, C114_narrow_record, C115_trimmed, C115_idle, C115_unit, C115_unit_scaler, C115_one_row_each, C115_wide_record, C116_regrouped, C116_copies, C116_single, C116_false_rounding, C116_false_unequal, C117_folded, C117_one, C117_linear, C117_threshold, C117_false_rounding, C118_unladen, C118_cut, C118_last_stage, C119_direction, C119_repeated, C119_false_max, C119_false_overflow, C119_normalised, C120_two_classes, C120_several_classes, C120_multinomial, C120_labels, C120_labels_two, C120_false_tree, C120_two_multinomial, C121_unread, C121_set, C121_strip, C122_robbed, C122_complete, C122_deleted, C122_spared, C122_dummy, C122_parts, C123_rows, C123_later_trees, C123_sorted, C123_anywhere
