{
 "claims": [
  {
   "property": "C01",
   "status": "proved",
   "theorems": [
    "PurePredict.C01_sparse_dense_roundtrip",
    "PurePredict.C01_roundtrip_any_arith",
    "PurePredict.C01_no_columns"
   ],
   "note": "Every non-empty rectangular matrix with at least one column; entries may be inf/NaN; any sound rounding (zeros compare equal to 0). Error branch for zero columns shown separately."
  },
  {
   "property": "C02",
   "status": "proved",
   "theorems": [
    "PurePredict.C02_sparse_dense_agree",
    "PurePredict.C02_sparse_dense_agree_rounded",
    "PurePredict.C02_out_of_range_index"
   ],
   "note": "Exact arithmetic for any storage order; bit-for-bit in any sound rounding when rows are stored in column order."
  },
  {
   "property": "C03",
   "status": "proved",
   "theorems": [
    "PurePredict.C03_linear_batch_independence",
    "PurePredict.C03_linear_batch_independence_sparse"
   ],
   "note": "Any arithmetic; decision_function, predict, predict_proba, predict_log_proba and the SGD variants; dense and sparse requests."
  },
  {
   "property": "C04",
   "status": "proved",
   "theorems": [
    "PurePredict.C04_binary",
    "PurePredict.C04_multiclass",
    "PurePredict.C04_multiclass_rounded",
    "PurePredict.C04_labels_in_classes",
    "PurePredict.C04_one_label_per_record"
   ],
   "note": "Scores and labels in exact arithmetic, first-maximum rule also for computed scores under any rounding, labels in classes_ for any arithmetic and any request."
  },
  {
   "property": "C05",
   "status": "proved",
   "theorems": [
    "PurePredict.C05_probabilities_are_distributions",
    "PurePredict.C05_lr_binary",
    "PurePredict.C05_lr_multiclass",
    "PurePredict.C05_multinomial",
    "PurePredict.C05_multinomial_binary",
    "PurePredict.C05_dispatch",
    "PurePredict.C05_ovr_uses_lr",
    "PurePredict.C05_sgd_log",
    "PurePredict.C05_lr_rounded"
   ],
   "note": "Exact arithmetic, every multi_class/solver combination, and SGD with log loss."
  },
  {
   "property": "C06",
   "status": "proved",
   "theorems": [
    "PurePredict.C06_predict_agrees_with_proba"
   ],
   "note": "Exact arithmetic."
  },
  {
   "property": "C07",
   "status": "partial",
   "theorems": [
    "PurePredict.C07_wrong_width_rejected_partial",
    "PurePredict.C07_wrong_sparse_size_rejected_partial",
    "PurePredict.C07_false",
    "PurePredict.C07_later_records_not_checked",
    "PurePredict.C07_sparse_no_size"
   ],
   "note": "False of the code: only the first record's width is checked (C07_false gives a request that is answered). Proved: wrong width in the first record, or a wrong sparse size, raises ValueError."
  },
  {
   "property": "C08",
   "status": "partial",
   "theorems": [
    "PurePredict.C08_softmax_defined_partial",
    "PurePredict.C08_softmax_defined_exact_partial",
    "PurePredict.C08_false",
    "PurePredict.C08_underflow_raises",
    "PurePredict.C08_overflow_nan"
   ],
   "note": "False of the code in floating point: no maximum is subtracted (C08_false). Proved for exact arithmetic and, in any sound rounding, whenever no exponential overflows and their sum is finite and non-zero."
  },
  {
   "property": "C09",
   "status": "proved",
   "theorems": [
    "PurePredict.C09_safe_log_total",
    "PurePredict.C09_safe_exp_total",
    "PurePredict.C09_special_values"
   ],
   "note": "Every float of every sound arithmetic."
  },
  {
   "property": "C10",
   "status": "proved",
   "theorems": [
    "PurePredict.C10_tree_follows_decision_path",
    "PurePredict.C10_loop_is_unbounded_loop",
    "PurePredict.C10_total",
    "PurePredict.C10_regressor_predict"
   ],
   "note": "For tree arrays encoding a decision tree from node 0 (shown to hold for any array tree with increasing child indices). Fuel is proved adequate: bounded walk equals the unbounded loop."
  },
  {
   "property": "C11",
   "status": "proved",
   "theorems": [
    "PurePredict.C11_tree_sparse_dense_agree",
    "PurePredict.C11_feature_out_of_range"
   ],
   "note": "Any arithmetic; arrays of any shape whose tests stay within the declared columns; the hypothesis is shown to be needed."
  },
  {
   "property": "C12",
   "status": "proved",
   "theorems": [
    "PurePredict.C12_tree_probabilities",
    "PurePredict.C12_leaf_probabilities_rounded"
   ],
   "note": "Exact arithmetic: counts/sum, distribution, predict is the first most probable class. Any sound rounding: probabilities in [0,1], chosen class has maximal probability."
  },
  {
   "property": "C13",
   "status": "proved",
   "theorems": [
    "PurePredict.C13_proba_is_mean",
    "PurePredict.C13_proba_is_distribution",
    "PurePredict.C13_order_independent",
    "PurePredict.C13_predict_is_argmax",
    "PurePredict.C13_mean_in_unit_rounded"
   ],
   "note": "Exact arithmetic for the mean/distribution/order/argmax statements; the [0,1] bound also in any sound rounding."
  },
  {
   "property": "C14",
   "status": "partial",
   "theorems": [
    "PurePredict.C14_unstored_column_raises",
    "PurePredict.C14_sparse_agrees_false",
    "PurePredict.C14_no_subsets_partial",
    "PurePredict.C14_stored_columns_partial",
    "PurePredict.C14_forest_sparse_dense"
   ],
   "note": "Full statement is false of the code (C14_sparse_agrees_false): a column of a feature subset that is not stored in a sparse row raises. Proved without feature subsets, and with subsets when every subset column is stored."
  },
  {
   "property": "C15",
   "status": "proved",
   "theorems": [
    "PurePredict.C15_raw_scores_additive",
    "PurePredict.C15_batch_independent",
    "PurePredict.C15_batch_independent_trees"
   ],
   "note": ""
  },
  {
   "property": "C16",
   "status": "partial",
   "theorems": [
    "PurePredict.C16_deviance_distribution_partial",
    "PurePredict.C16_deviance_predict",
    "PurePredict.C16_exponential_distribution_iff",
    "PurePredict.C16_exponential_false",
    "PurePredict.C16_exponential_decision",
    "PurePredict.C16_binomial_unit_rounded"
   ],
   "note": "False for the exponential loss (C16_exponential_false); proved for deviance."
  },
  {
   "property": "C17",
   "status": "partial",
   "theorems": [
    "PurePredict.C17_last_digit",
    "PurePredict.C17_feature_right_iff",
    "PurePredict.C17_child_right",
    "PurePredict.C17_single_digit_partial",
    "PurePredict.C17_false_from_ten",
    "PurePredict.C17_conversion_faithful_false"
   ],
   "note": "False from column 10 on (only the last digit is kept); proved for columns 0..9 without ties."
  },
  {
   "property": "C18",
   "status": "proved",
   "theorems": [
    "PurePredict.C18_binary",
    "PurePredict.C18_multi",
    "PurePredict.C18_predict_is_argmax",
    "PurePredict.C18_binary_unit_rounded"
   ],
   "note": "Exact arithmetic; the [0,1] bound of the binary case in any sound rounding."
  },
  {
   "property": "C19",
   "status": "proved",
   "theorems": [
    "PurePredict.C19_multinomial",
    "PurePredict.C19_complement",
    "PurePredict.C19_gaussian",
    "PurePredict.C19_predict_first_max_rounded",
    "PurePredict.C19_sparse_refused"
   ],
   "note": "Textbook formula in exact arithmetic; first maximum of the computed likelihoods in any rounding."
  },
  {
   "property": "C20",
   "status": "partial",
   "theorems": [
    "PurePredict.C20_distribution_exact_partial",
    "PurePredict.C20_multinomial_exact_partial",
    "PurePredict.C20_underflow_infinite",
    "PurePredict.C20_finite_false",
    "PurePredict.C20_api_false"
   ],
   "note": "Proved in exact arithmetic; false in floating point (underflow gives infinite probabilities)."
  },
  {
   "property": "C21",
   "status": "partial",
   "theorems": [
    "PurePredict.C21_predict_is_position",
    "PurePredict.C21_proba_is_prior",
    "PurePredict.C21_strategy",
    "PurePredict.C21_label_false",
    "PurePredict.C21_index_labels_partial"
   ],
   "note": "predict returns the position, not the label; right only when labels are 0..k-1."
  },
  {
   "property": "C22",
   "status": "proved",
   "theorems": [
    "PurePredict.C22_transform_formula",
    "PurePredict.C22_invertible",
    "PurePredict.C22_transform_rounded",
    "PurePredict.C22_monotone_rounded",
    "PurePredict.C22_sparse_agrees",
    "PurePredict.C22_sparse_centring_refused"
   ],
   "note": "Formula and invertibility over the reals; formula, monotonicity and sparse/dense agreement in every sound rounded arithmetic; centring sparse raises ValueError."
  },
  {
   "property": "C23",
   "status": "proved",
   "theorems": [
    "PurePredict.C23_transform",
    "PurePredict.C23_transform_formula",
    "PurePredict.C23_range",
    "PurePredict.C23_sparse_refused"
   ],
   "note": "Formula in any arithmetic and over the reals; range claim over the reals for the parameters fit stores."
  },
  {
   "property": "C24",
   "status": "proved",
   "theorems": [
    "PurePredict.C24_transform_rounded",
    "PurePredict.C24_transform_formula",
    "PurePredict.C24_zero_and_range",
    "PurePredict.C24_sparse_agrees"
   ],
   "note": "Formula over the reals; zeros, [-1,1] bound and sparse/dense agreement in every sound rounded arithmetic."
  },
  {
   "property": "C25",
   "status": "partial",
   "theorems": [
    "PurePredict.C25_false",
    "PurePredict.C25_preserves_width_partial",
    "PurePredict.C25_narrow_raises_partial",
    "PurePredict.C25_unfitted"
   ],
   "note": "False as stated: columns beyond the fitted number are silently dropped by all three scalers (C25_false). Proved for records at most as wide as the fitted data."
  },
  {
   "property": "C26",
   "status": "proved",
   "theorems": [
    "PurePredict.C26_dense",
    "PurePredict.C26_sparse_agrees",
    "PurePredict.C26_unit",
    "PurePredict.C26_zero_row",
    "PurePredict.C26_direction",
    "PurePredict.C26_idempotent",
    "PurePredict.C26_transform_twice",
    "PurePredict.C26_l1_bounded_rounded"
   ],
   "note": "Formula, unit norm, zero rows, direction, idempotence and sparse/dense agreement over the reals; entries in [-1,1] for l1 in every sound rounded arithmetic."
  },
  {
   "property": "C27",
   "status": "partial",
   "theorems": [
    "PurePredict.C27_false",
    "PurePredict.C27_sparse_differs",
    "PurePredict.C27_dense_formula_partial",
    "PurePredict.C27_nonneg_rows_partial",
    "PurePredict.C27_sparse_agrees_partial"
   ],
   "note": "False: the code divides by the largest value, not the largest absolute value (C27_false, C27_sparse_differs). Proved for rows without negative values, and sparse/dense agreement for rows with a non-negative column."
  },
  {
   "property": "C28",
   "status": "partial",
   "theorems": [
    "PurePredict.C28_false",
    "PurePredict.C28_three_features_wrong",
    "PurePredict.C28_two_features_partial",
    "PurePredict.C28_unknown_error",
    "PurePredict.C28_unknown_block"
   ],
   "note": "False for three or more features: the column offset is the size of the previous feature instead of the running total (C28_false, C28_three_features_wrong). Proved for one and two features, and ValueError on unknown categories for any number."
  },
  {
   "property": "C29",
   "status": "proved",
   "theorems": [
    "PurePredict.C29_ordinal",
    "PurePredict.C29_ordinal_exact",
    "PurePredict.C29_unknown",
    "PurePredict.C29_width"
   ],
   "note": "Codes are positions in categories_, decoding recovers the record, unseen values and wrong widths raise ValueError."
  },
  {
   "property": "C30",
   "status": "partial",
   "theorems": [
    "PurePredict.C30_transform",
    "PurePredict.C30_indicator",
    "PurePredict.C30_indicator_converted",
    "PurePredict.C30_wrong_width",
    "PurePredict.C30_no_indicator",
    "PurePredict.C30_no_missing_partial",
    "PurePredict.C30_no_missing_nan_partial",
    "PurePredict.C30_idempotent_partial",
    "PurePredict.C30_twice_raises_partial",
    "PurePredict.C30_false_missing",
    "PurePredict.C30_false_twice"
   ],
   "note": "Entrywise imputation, dropped columns, indicator columns, width error: proved in any arithmetic. 'No missing value left' is proved when no kept statistic is itself a missing value (automatic for NaN marker and non-constant strategy) and 'twice changes nothing' when no column is dropped; both are false otherwise (witnesses C30_false_missing, C30_false_twice)."
  },
  {
   "property": "C31",
   "status": "partial",
   "theorems": [
    "PurePredict.C31_missing_iff",
    "PurePredict.C31_mask_partial",
    "PurePredict.C31_total_partial",
    "PurePredict.C31_error_on_new_partial",
    "PurePredict.C31_all_features_partial",
    "PurePredict.C31_wrong_width",
    "PurePredict.C31_false_raises",
    "PurePredict.C31_false_silent",
    "PurePredict.C31_false"
   ],
   "note": "Mask part proved in any arithmetic. The error_on_new part is false of the code: it compares missing-value counts with feature indices (witnesses in both directions); the condition actually tested is proved."
  },
  {
   "property": "C32",
   "status": "proved",
   "theorems": [
    "PurePredict.C32_word_ngrams",
    "PurePredict.C32_mem",
    "PurePredict.C32_count",
    "PurePredict.C32_analyzer",
    "PurePredict.C32_builtin_stop_words"
   ],
   "note": "Equality with an independent window specification, membership and counting forms, and through build_analyzer; ngram_range with 1 <= min <= max."
  },
  {
   "property": "C33",
   "status": "proved",
   "theorems": [
    "PurePredict.C33_char",
    "PurePredict.C33_char_mem",
    "PurePredict.C33_char_wb",
    "PurePredict.C33_char_wb_mem",
    "PurePredict.C33_words_nonspace",
    "PurePredict.C33_no_double_space"
   ],
   "note": "Equality with the specification by maximal runs (whitespace normalisation, words) and windows; membership forms. Whitespace predicate is a parameter."
  },
  {
   "property": "C34",
   "status": "proved",
   "theorems": [
    "PurePredict.C34_transform",
    "PurePredict.C34_valid",
    "PurePredict.C34_count",
    "PurePredict.C34_columns",
    "PurePredict.C34_oov",
    "PurePredict.C34_order",
    "PurePredict.C34_string",
    "PurePredict.C34_no_documents"
   ],
   "note": "Any arithmetic; counts, validity and width of the sparse result, out-of-vocabulary features, order independence, error cases."
  },
  {
   "property": "C35",
   "status": "partial",
   "theorems": [
    "PurePredict.C35_transform_partial",
    "PurePredict.C35_values_partial",
    "PurePredict.C35_width_partial",
    "PurePredict.C35_false"
   ],
   "note": "Values proved; the claim is false of the code for every input, because a plain list of dicts is returned (text.py:380)."
  },
  {
   "property": "C36",
   "status": "partial",
   "theorems": [
    "PurePredict.C36_weights_partial",
    "PurePredict.C36_unchanged_partial",
    "PurePredict.C36_changed_partial",
    "PurePredict.C36_sublinear",
    "PurePredict.C36_wrong_width",
    "PurePredict.C36_dense",
    "PurePredict.C36_tfidf_partial",
    "PurePredict.C36_vectorizer_partial",
    "PurePredict.C36_vectorizer_binary",
    "PurePredict.C36_false",
    "PurePredict.C36_repeated_calls",
    "PurePredict.C36_binary_false"
   ],
   "note": "tf*idf and normalisation proved for sparse input without sublinear_tf, also through TfidfVectorizer. 'Caller's data unchanged' is false with use_idf (witness; k calls multiply k times); sublinear_tf, width mismatch and dense rows fail with NameError/AttributeError. With binary=True the vectorizer fails, or answers with column numbers instead of weights (C36_binary_false)."
  },
  {
   "property": "C37",
   "status": "proved",
   "theorems": [
    "PurePredict.C37_murmur",
    "PurePredict.C37_range"
   ],
   "note": "murmurhash3_32 equals the published MurmurHash3_x86_32 (stated on BitVec 32) for every byte string shorter than 2^32 and every seed, read as a signed 32-bit integer."
  },
  {
   "property": "C38",
   "status": "proved",
   "theorems": [
    "PurePredict.C38_range",
    "PurePredict.C38_column",
    "PurePredict.C38_step",
    "PurePredict.C38_transform",
    "PurePredict.C38_validate"
   ],
   "note": "Column, sign and zero-skipping of each feature, for 1 <= n_features <= 2^31-1; the encoding of strings to bytes is a parameter."
  },
  {
   "property": "C39",
   "status": "partial",
   "theorems": [
    "PurePredict.C39_false",
    "PurePredict.C39_last_partial",
    "PurePredict.C39_no_collision_partial"
   ],
   "note": "False of the code: row[index] = value overwrites (_hash.py:112), a repeated token counts once (C39_false, for every encoding, width and sign setting). Proved: a column holds the last contribution, and the sum when there is at most one."
  },
  {
   "property": "C40",
   "status": "proved",
   "theorems": [
    "PurePredict.C40_row",
    "PurePredict.C40_last",
    "PurePredict.C40_row_ok",
    "PurePredict.C40_sparse",
    "PurePredict.C40_dense",
    "PurePredict.C40_single",
    "PurePredict.C40_empty"
   ],
   "note": "Rows, errors, sparse/dense agreement, single mapping; colliding names: last one wins."
  },
  {
   "property": "C41",
   "status": "proved",
   "theorems": [
    "PurePredict.C41_predict",
    "PurePredict.C41_predict_proba",
    "PurePredict.C41_predict_log_proba",
    "PurePredict.C41_transform",
    "PurePredict.C41_absent",
    "PurePredict.C41_passthrough",
    "PurePredict.C41_nested",
    "PurePredict.C41_empty"
   ],
   "note": "Pipelines are the composition of their steps, all methods, nested pipelines, absent methods and passthrough."
  },
  {
   "property": "C42",
   "status": "partial",
   "theorems": [
    "PurePredict.C42_concat_partial",
    "PurePredict.C42_xr_partial",
    "PurePredict.C42_weight_sparse",
    "PurePredict.C42_false",
    "PurePredict.C42_error",
    "PurePredict.C42_no_transformers"
   ],
   "note": "Concatenation proved for dense/sparse blocks without weights on sparse outputs; the claim with a weight on a sparse output is false (ValueError)."
  },
  {
   "property": "C43",
   "status": "partial",
   "theorems": [
    "PurePredict.C43_supported",
    "PurePredict.C43_unsupported",
    "PurePredict.C43_iff",
    "PurePredict.C43_min_version_ignored",
    "PurePredict.C43_min_version_false"
   ],
   "note": "Conversion succeeds exactly for the listed classes; the min_version part is false of the code (argument ignored)."
  },
  {
   "property": "C44",
   "status": "partial",
   "theorems": [
    "PurePredict.C44_check_types_partial",
    "PurePredict.C44_error",
    "PurePredict.C44_only_plain_partial",
    "PurePredict.C44_false"
   ],
   "note": "check_types accepts exactly trees of plain builtins and their subclasses; the 'only plain builtins' claim is false for subclasses such as numpy.float64."
  },
  {
   "property": "C45",
   "status": "partial",
   "theorems": [
    "PurePredict.C45_parse",
    "PurePredict.C45_check_partial",
    "PurePredict.C45_no_min",
    "PurePredict.C45_unknown",
    "PurePredict.C45_same_length_partial",
    "PurePredict.C45_rejects",
    "PurePredict.C45_false",
    "PurePredict.C45_prerelease_typeError",
    "PurePredict.C45_constructors"
   ],
   "note": "Version check correct for purely numeric versions of equal length; false in general (missing trailing zero, prereleases)."
  },
  {
   "property": "C46",
   "status": "partial",
   "theorems": [
    "PurePredict.C46_not_a_list",
    "PurePredict.C46_sparse",
    "PurePredict.C46_list",
    "PurePredict.C46_false",
    "PurePredict.C46_empty_linear_partial",
    "PurePredict.C46_empty_tree_partial",
    "PurePredict.C46_empty_gb_partial",
    "PurePredict.C46_empty_xgb_partial",
    "PurePredict.C46_empty_nb_partial",
    "PurePredict.C46_empty_gaussian_partial",
    "PurePredict.C46_empty_scalers_partial",
    "PurePredict.C46_empty_encoders_partial",
    "PurePredict.C46_empty_impute_partial",
    "PurePredict.C46_empty_vectorizers_partial",
    "PurePredict.C46_empty_dummy_accepted",
    "PurePredict.C46_empty_cosine",
    "PurePredict.C46_sparse_unsupported",
    "PurePredict.C46_sparse_unsupported_encoders",
    "PurePredict.C46_not_a_list_estimators",
    "PurePredict.C46_empty_scaler_returned",
    "PurePredict.C87_no_documents"
   ],
   "note": "Non-lists and unsupported sparse input are rejected as claimed; the empty list is not: check_array returns the exception object and the estimators raise TypeError (or IndexError, or accept it; a StandardScaler with nothing to do returns the exception object)."
  },
  {
   "property": "C47",
   "status": "partial",
   "theorems": [
    "PurePredict.C47_dense",
    "PurePredict.C47_self",
    "PurePredict.C47_sparse_agrees",
    "PurePredict.C47_bounds",
    "PurePredict.C47_entry",
    "PurePredict.C47_spec_bounds",
    "PurePredict.C47_spec_symm",
    "PurePredict.C47_spec_self",
    "PurePredict.C47_spec_zero",
    "PurePredict.C47_spec_scale",
    "PurePredict.C47_sparse_self_raises",
    "PurePredict.C47_sparse_Y_raises",
    "PurePredict.C47_false",
    "PurePredict.C47_width",
    "PurePredict.C74_flat_refused"
   ],
   "note": "Proved for dense X, dense Y, dense Y omitted, sparse X with dense Y; false for sparse X with Y omitted (ValueError), proved as a negation. One-dimensional arguments are refused (C74_flat_refused)."
  },
  {
   "property": "C48",
   "status": "proved",
   "theorems": [
    "PurePredict.C48_entry",
    "PurePredict.C48_error",
    "PurePredict.C48_diagonal",
    "PurePredict.C48_range_rounded",
    "PurePredict.C48_exact",
    "PurePredict.C48_exact_self"
   ],
   "note": "Range and zero diagonal in every sound rounding; values in exact arithmetic."
  },
  {
   "property": "C49",
   "status": "proved",
   "theorems": [
    "PurePredict.C49_topk",
    "PurePredict.C49_finite",
    "PurePredict.C49_ties",
    "PurePredict.C49_negative_k",
    "PurePredict.C49_errors"
   ],
   "note": "For k >= 0; negative k is characterised separately."
  },
  {
   "property": "C50",
   "status": "proved",
   "theorems": [
    "PurePredict.C50_safe_rounded",
    "PurePredict.C50_exact",
    "PurePredict.C50_distribution",
    "PurePredict.C50_shift",
    "PurePredict.C50_monotone",
    "PurePredict.C50_empty"
   ],
   "note": "Success in every sound rounding; values in exact arithmetic."
  },
  {
   "property": "C51",
   "status": "partial",
   "theorems": [
    "PurePredict.C51_known",
    "PurePredict.C51_unknown",
    "PurePredict.C51_no_known_word",
    "PurePredict.C51_newline",
    "PurePredict.C51_false",
    "PurePredict.C51_supervised_partial",
    "PurePredict.C51_unsupervised_partial"
   ],
   "note": "True when some word is known; false (empty vector) when none is, proved as a negation."
  },
  {
   "property": "C52",
   "status": "partial",
   "theorems": [
    "PurePredict.C52_list_raises",
    "PurePredict.C52_false",
    "PurePredict.C52_single_partial"
   ],
   "note": "Single-string case proved; a list of strings raises AttributeError, proved as a negation."
  },
  {
   "property": "C53",
   "status": "partial",
   "theorems": [
    "PurePredict.C53_transpose",
    "PurePredict.C53_transpose_involution",
    "PurePredict.C53_transpose_no_columns",
    "PurePredict.C53_ravel_column",
    "PurePredict.C53_ravel_first_column",
    "PurePredict.C53_ravel_false",
    "PurePredict.C53_operate",
    "PurePredict.C53_operate_errors",
    "PurePredict.C53_apply",
    "PurePredict.C53_matmult_dense",
    "PurePredict.C53_matmult_sparse",
    "PurePredict.C53_matmult_errors",
    "PurePredict.C53_accumu",
    "PurePredict.C53_apply_axis",
    "PurePredict.C53_apply_axis_sparse"
   ],
   "note": "All helpers proved except ravel (returns only the first column, negation proved) and transpose of a matrix with no columns."
  },
  {
   "property": "C54",
   "status": "partial",
   "theorems": [
    "PurePredict.C54_int_dense",
    "PurePredict.C54_int_sparse",
    "PurePredict.C54_list_dense",
    "PurePredict.C54_out_of_range",
    "PurePredict.C54_list_sparse_partial",
    "PurePredict.C54_false",
    "PurePredict.C54_negative_index"
   ],
   "note": "List selection on sparse input does not renumber columns, negation proved."
  },
  {
   "property": "C55",
   "status": "partial",
   "theorems": [
    "PurePredict.C55_logistic",
    "PurePredict.C55_sgd",
    "PurePredict.C55_tree",
    "PurePredict.C55_bagging",
    "PurePredict.C55_gb",
    "PurePredict.C55_dummy",
    "PurePredict.C55_naive_bayes_exact_partial",
    "PurePredict.C55_naive_bayes_underflow",
    "PurePredict.C55_naive_bayes_false"
   ],
   "note": "Every classifier except naive Bayes in every sound rounding; naive Bayes in exact arithmetic only, negation proved for floating point. XGBClassifier has no predict_log_proba."
  },
  {
   "property": "C56",
   "status": "proved",
   "theorems": [
    "PurePredict.C56_attribute_error",
    "PurePredict.C56_no_probabilities",
    "PurePredict.C56_log_loss",
    "PurePredict.C56_substring_guard"
   ],
   "note": "For every loss name of scikit-learn; for arbitrary strings no probabilities are returned but the exception can be NotImplementedError (C56_substring_guard)."
  },
  {
   "property": "C57",
   "status": "partial",
   "theorems": [
    "PurePredict.C57_tree",
    "PurePredict.C57_dummy",
    "PurePredict.C57_forest",
    "PurePredict.C57_bagging",
    "PurePredict.C57_gradient_boosting",
    "PurePredict.C57_xgb",
    "PurePredict.C57_naive_bayes_gaussian",
    "PurePredict.C57_naive_bayes_discrete",
    "PurePredict.C57_scalers",
    "PurePredict.C57_normalizer",
    "PurePredict.C57_encoders",
    "PurePredict.C57_imputer",
    "PurePredict.C57_count_vectorizer",
    "PurePredict.C57_tfidf_partial",
    "PurePredict.C57_hashing_partial",
    "PurePredict.C57_dict_vectorizer",
    "PurePredict.C57_indicator_partial",
    "PurePredict.C57_split",
    "PurePredict.C57_false_indicator",
    "PurePredict.C57_false_hashing",
    "PurePredict.C57_false_tfidf_binary"
   ],
   "note": "False of MissingIndicator with error_on_new and of HashingVectorizer and TfidfVectorizer with binary=True (counterexamples proved); proved for all other estimators and transformers listed, over any arithmetic. Linear models are in C03."
  },
  {
   "property": "C58",
   "status": "partial",
   "theorems": [
    "PurePredict.C58_fresh_results",
    "PurePredict.C58_tree",
    "PurePredict.C58_bagging",
    "PurePredict.C58_dummy_log_proba",
    "PurePredict.C58_dummy_false",
    "PurePredict.C58_dummy_not_stable",
    "PurePredict.C58_dummy_predict_changes",
    "PurePredict.C58_fasttext_false",
    "PurePredict.C58_dummy_values",
    "PurePredict.C58_tree_values"
   ],
   "note": "Heap model of calls and caller mutations. Proved for trees, bagging and every method that builds fresh lists; false (proved) of DummyClassifier.predict_proba and fastText get_word_vector, whose results are the model's own lists. Other estimators are covered only through C58_fresh_results. The calls are shown to compute what the value-level models compute."
  },
  {
   "property": "C59",
   "status": "partial",
   "theorems": [
    "PurePredict.C59_converted_semantics",
    "PurePredict.C59_ties_false",
    "PurePredict.C59_no_ties_partial"
   ],
   "note": "False at ties; proved without ties."
  },
  {
   "property": "C60",
   "status": "proved",
   "theorems": [
    "PurePredict.C60_scores",
    "PurePredict.C60_scores_binary",
    "PurePredict.C60_double",
    "PurePredict.C60_double_binary",
    "PurePredict.C60_label",
    "PurePredict.C60_label_binary",
    "PurePredict.C60_total",
    "PurePredict.C60_total_binary"
   ],
   "note": "general bound for any accurate arithmetic, then IEEE double precision in closed form; label theorems with and without conditions on computed values"
  },
  {
   "property": "C61",
   "status": "proved",
   "theorems": [
    "PurePredict.C61_softmax",
    "PurePredict.C61_softmax_sharp",
    "PurePredict.C61_tree",
    "PurePredict.C61_lr_binary",
    "PurePredict.C61_lr_multiclass",
    "PurePredict.C61_multinomial",
    "PurePredict.C61_multinomial_binary",
    "PurePredict.C61_xgb_binary",
    "PurePredict.C61_xgb_multi",
    "PurePredict.C61_gb_binomial",
    "PurePredict.C61_fasttext",
    "PurePredict.C61_bagging"
   ],
   "note": "IEEE double precision; naive Bayes and multi-class gradient boosting (exp of a difference of logarithms) are not covered since no accuracy of exp and log is assumed; C61_softmax_sharp shows the bound on the scores is needed"
  },
  {
   "property": "C62",
   "status": "partial",
   "theorems": [
    "PurePredict.C62_deviance_partial",
    "PurePredict.C62_exponential_predicts",
    "PurePredict.C62_exponential_iff_partial",
    "PurePredict.C62_raw_to_decision_exponential",
    "PurePredict.C62_deviance_decision",
    "PurePredict.C62_false"
   ],
   "note": "proved for the deviance losses (exact arithmetic; in any arithmetic predict equals _raw_prediction_to_decision). For the exponential loss the claim is refuted: the threshold is -ln 3 instead of 0, and an exact criterion for agreement is proved."
  },
  {
   "property": "C63",
   "status": "partial",
   "theorems": [
    "PurePredict.C63_trees",
    "PurePredict.C63_forests",
    "PurePredict.C63_bagging_sound",
    "PurePredict.C63_refused_partial",
    "PurePredict.C63_count_then_bayes_refused"
   ],
   "note": "proved for trees and forests; for bagging with any members an answer to a sparse request equals the answer to the dense form (it may raise KeyError instead, C14); naive Bayes, gradient boosting and XGBoost refuse every sparse_list with ValueError, so a CountVectorizer followed by naive Bayes never answers (claim refuted there)."
  },
  {
   "property": "C64",
   "status": "partial",
   "theorems": [
    "PurePredict.C64_gb_first_partial",
    "PurePredict.C64_tree_extra_ignored",
    "PurePredict.C64_tree_short",
    "PurePredict.C64_discrete_bayes_truncates",
    "PurePredict.C64_multinomial_answers",
    "PurePredict.C64_gaussian_long",
    "PurePredict.C64_tree_false",
    "PurePredict.C64_gb_later_ignored",
    "PurePredict.C64_gb_later_false",
    "PurePredict.C64_multinomial_false"
   ],
   "note": "proved for gradient boosting when the first record is the wrong one; refuted for everything else, with what happens instead: trees ignore extra columns on all requests and raise IndexError on short paths, naive Bayes truncates silently, gradient boosting does not look at later records."
  },
  {
   "property": "C65",
   "status": "partial",
   "theorems": [
    "PurePredict.C65_tree",
    "PurePredict.C65_missing_feature",
    "PurePredict.C65_outputs_dropped",
    "PurePredict.C65_classifier",
    "PurePredict.C65_regressor",
    "PurePredict.C65_forest"
   ],
   "note": "proved for classifiers, single-output regressors and forests; regression trees with several outputs keep only the first (any two trees that agree in output 0 convert to the same predictions). Single precision of the comparisons is C68."
  },
  {
   "property": "C66",
   "status": "partial",
   "theorems": [
    "PurePredict.C66_multi_partial",
    "PurePredict.C66_binary_partial",
    "PurePredict.C66_base_score_false",
    "PurePredict.C66_early_stopping_false",
    "PurePredict.C66_two_class_softprob_false",
    "PurePredict.C66_refused"
   ],
   "note": "proved for columns below 10 and records without ties (C17, C59): multi-class in full, binary for the default bias 0.5. Refuted: other biases, n_estimators larger than the number of trees (early stopping), two-class multi:softprob."
  },
  {
   "property": "C67",
   "status": "partial",
   "theorems": [
    "PurePredict.C67_default_no_partial",
    "PurePredict.C67_always_no",
    "PurePredict.C67_default_yes",
    "PurePredict.C67_false"
   ],
   "note": "the Missing column is never read: a NaN always goes to the No child (C67_always_no, for all trees and requests). So the claim holds when missing values only meet splits that default to No, and is refuted for a default Yes at every column."
  },
  {
   "property": "C68",
   "status": "partial",
   "theorems": [
    "PurePredict.C68_not_crossed_partial",
    "PurePredict.C68_regressor_partial",
    "PurePredict.C68_crossed",
    "PurePredict.C68_false"
   ],
   "note": "proved when rounding moves no entry across a threshold it is compared with, in particular for records of single precision numbers (integers below 2^24) and for entries with a relative distance above 2^-24 from the thresholds; refuted otherwise: the code compares in double precision."
  },
  {
   "property": "C69",
   "status": "partial",
   "theorems": [
    "PurePredict.C69_encoder",
    "PurePredict.C69_gb_loss",
    "PurePredict.C69_xgb",
    "PurePredict.C69_xgb_error",
    "PurePredict.C69_fasttext_loss_partial",
    "PurePredict.C69_fasttext_unsupervised",
    "PurePredict.C69_fasttext_no_labels",
    "PurePredict.C69_buckets_ignored",
    "PurePredict.C69_fasttext_subwords_false"
   ],
   "note": "false for supervised fastText models trained with subwords or word n-grams: maxn is only inspected for unsupervised models, so they convert and answer from the rows of the words alone (C69_fasttext_subwords_false, C69_buckets_ignored). The other refusals are proved."
  },
  {
   "property": "C70",
   "status": "proved",
   "theorems": [
    "PurePredict.C70_default_tokens",
    "PurePredict.C70_token_chars",
    "PurePredict.C70_occurrence",
    "PurePredict.C70_analyzer",
    "PurePredict.C70_white_space"
   ],
   "note": "findall and sub of the fragment of regular expressions the code uses are modelled as backtracking matchers (Model/Regex); which characters are word or white space characters is a parameter."
  },
  {
   "property": "C71",
   "status": "proved",
   "theorems": [
    "PurePredict.C71_refused",
    "PurePredict.C71_refused_error",
    "PurePredict.C71_preprocess",
    "PurePredict.C71_ascii_output",
    "PurePredict.C71_unicode_output",
    "PurePredict.C71_ascii_input",
    "PurePredict.C71_agree",
    "PurePredict.C71_case",
    "PurePredict.C71_verbatim",
    "PurePredict.C71_tag",
    "PurePredict.C71_no_tag"
   ],
   "note": "the Unicode tables (lower, NFKD, combining) are parameters; the statements about ASCII input use two laws of them (UnicodeLaws), which are checked for a model of ASCII text."
  },
  {
   "property": "C72",
   "status": "proved",
   "theorems": [
    "PurePredict.C72_binary",
    "PurePredict.C72_multinomial",
    "PurePredict.C72_ovr",
    "PurePredict.C72_bag",
    "PurePredict.C72_unknown"
   ],
   "note": "exact arithmetic; vectorizer options binary=False, sublinear_tf=False, use_idf=True (the others are C35 and C36)."
  },
  {
   "property": "C73",
   "status": "proved",
   "theorems": [
    "PurePredict.C73_predict",
    "PurePredict.C73_predict_proba",
    "PurePredict.C73_predict_log_proba",
    "PurePredict.C73_transform",
    "PurePredict.C73_union_dense",
    "PurePredict.C73_union_sparse",
    "PurePredict.C73_rows",
    "PurePredict.C73_steps",
    "PurePredict.C73_text"
   ],
   "note": "any arithmetic. Steps are described by the presentation of their records (dense of a width, sparse of a size, documents); in mixed unions dense blocks have at least one column (an empty one cannot be made sparse); a weight on a sparse block always raises (C42). CountVectorizer(binary=True) returns a plain list of dicts (C35) and is excluded."
  },
  {
   "property": "C74",
   "status": "proved",
   "theorems": [
    "PurePredict.C74_kernel_dense",
    "PurePredict.C74_kernel_self",
    "PurePredict.C74_gram",
    "PurePredict.C74_kernel_sparse",
    "PurePredict.C74_kernel_width",
    "PurePredict.C74_kernel_sparse_self",
    "PurePredict.C74_columns",
    "PurePredict.C74_normalize_refused",
    "PurePredict.C74_normalizer_refused",
    "PurePredict.C74_softmax_dict",
    "PurePredict.C74_apply_sparse",
    "PurePredict.C74_apply_agrees",
    "PurePredict.C74_apply_dense",
    "PurePredict.C74_flat_refused"
   ],
   "note": "values in exact arithmetic, refusals in every arithmetic."
  },
  {
   "property": "C75",
   "status": "proved",
   "theorems": [
    "PurePredict.C75_row_scores",
    "PurePredict.C75_scalar_intercept",
    "PurePredict.C75_decision_many",
    "PurePredict.C75_decision_one",
    "PurePredict.C75_no_intercept",
    "PurePredict.C75_no_intercept_error"
   ],
   "note": "equality of all outputs is proved in every arithmetic; the values in exact arithmetic."
  },
  {
   "property": "C76",
   "status": "partial",
   "theorems": [
    "PurePredict.C76_all_classes_partial",
    "PurePredict.C76_different_widths_refused",
    "PurePredict.C76_no_probabilities",
    "PurePredict.C76_first_labels",
    "PurePredict.C76_partial_classes_false"
   ],
   "note": "true when every member saw all classes (C76_all_classes_partial). False otherwise: members with different numbers of classes make every request fail with ValueError; members with equally many but not all classes are added column by column, so only the first labels are ever predicted and wrong labels are returned (C76_partial_classes_false). Members without predict_proba give AttributeError."
  },
  {
   "property": "C77",
   "status": "partial",
   "theorems": [
    "PurePredict.C77_multinomial",
    "PurePredict.C77_binomial",
    "PurePredict.C77_exponential_partial",
    "PurePredict.C77_refused"
   ],
   "note": "proved for deviance with two and with several classes; with exponential loss scores are right but probabilities and the threshold are not (C16, C62), C77_exponential_partial states what is returned. Exact arithmetic."
  },
  {
   "property": "C78",
   "status": "partial",
   "theorems": [
    "PurePredict.C78_rows_partial",
    "PurePredict.C78_reference_partial",
    "PurePredict.C78_repeated_false",
    "PurePredict.C78_invalid",
    "PurePredict.C78_string",
    "PurePredict.C78_empty",
    "PurePredict.C78_binary",
    "PurePredict.C78_binary_not_sparse"
   ],
   "note": "exact arithmetic, norms None, l1, l2. Proved for documents in which no two token occurrences share a column (C78_reference_partial); in general every column holds the sign of the last of its tokens (C78_rows_partial), so the claim is refuted as soon as a token occurs twice (C78_repeated_false). With binary=True the result is never a sparse matrix."
  },
  {
   "property": "C79",
   "status": "partial",
   "theorems": [
    "PurePredict.C79_predict_partial",
    "PurePredict.C79_bag",
    "PurePredict.C79_distribution",
    "PurePredict.C79_no_words"
   ],
   "note": "exact arithmetic; texts with at least one known word (or an end-of-sentence token in the vocabulary). Without any, the code answers with the uniform distribution (C79_no_words). Lists of texts are C52, subwords and word n-grams C69."
  },
  {
   "property": "C80",
   "status": "partial",
   "theorems": [
    "PurePredict.C80_converts_partial",
    "PurePredict.C80_mirrors",
    "PurePredict.C80_passthrough_false",
    "PurePredict.C80_refused",
    "PurePredict.C80_versions",
    "PurePredict.C80_plain",
    "PurePredict.C80_dtype"
   ],
   "note": "The constructors of single estimators are parameters that end with their own check_types. Proved with None and strings counted as not convertible (C80_converts_partial); the claim that switched-off steps are kept is refuted: such a pipeline cannot be converted at all (C80_passthrough_false). float(v) of union weights is taken as read."
  },
  {
   "property": "C81",
   "status": "proved",
   "theorems": [
    "PurePredict.C81_predict",
    "PurePredict.C81_predict_proba",
    "PurePredict.C81_predict_log_proba",
    "PurePredict.C81_transform"
   ],
   "note": "For estimators lacking transform in the middle both raise AttributeError but possibly at different points, which is excluded by the hypothesis."
  },
  {
   "property": "C82",
   "status": "proved",
   "theorems": [
    "PurePredict.C82_average",
    "PurePredict.C82_average_label",
    "PurePredict.C82_forest",
    "PurePredict.C82_tree",
    "PurePredict.C82_boosting",
    "PurePredict.C82_xgb",
    "PurePredict.C82_standard",
    "PurePredict.C82_minmax",
    "PurePredict.C82_maxabs"
   ],
   "note": "Members' and init estimator's outputs are hypotheses (doubles); trees are covered end to end from the leaf counts. Dense requests for (c) to (e)."
  },
  {
   "property": "C83",
   "status": "proved",
   "theorems": [
    "PurePredict.C83_lr_binary",
    "PurePredict.C83_logistic_binary",
    "PurePredict.C83_sgd_binary",
    "PurePredict.C83_lr_multiclass",
    "PurePredict.C83_multinomial",
    "PurePredict.C83_xgb_binary",
    "PurePredict.C83_gb_binomial",
    "PurePredict.C83_multinomial_binary"
   ],
   "note": "The exponential is assumed correctly rounded (binary64 model). In (b) \u03b4 is at most 1 and some score is at least -399; in (c) scores are at most 599 and some score is at least -599, and there are at least three classes; two classes in multinomial mode are C83_multinomial_binary: within \u03b4/2 + 3\u00b72^-51 of the probabilities of twice the score. Gradient boosting with several classes and fastText are outside this property."
  },
  {
   "property": "C84",
   "status": "proved",
   "theorems": [
    "PurePredict.C84_single",
    "PurePredict.C84_checks",
    "PurePredict.C84_plain",
    "PurePredict.C84_nested"
   ],
   "note": "XGBClassifier's constructor is a parameter here (what it makes is C66, C89, C98). numpy.float64 and numpy.str_ count as plain data, because check_types accepts subclasses of float and str (C44). A fitted attribute vocabulary_ holds numbers."
  },
  {
   "property": "C85",
   "status": "partial",
   "theorems": [
    "PurePredict.C85_unfitted",
    "PurePredict.C85_tfidf_vectorizer",
    "PurePredict.C85_not_plain",
    "PurePredict.C85_dtype",
    "PurePredict.C85_drop",
    "PurePredict.C85_dummy",
    "PurePredict.C85_multioutput_tree",
    "PurePredict.C85_multioutput_false"
   ],
   "note": "All but the last sentence hold; regression trees of several outputs are converted to their first output (C85_multioutput_false). Where several conditions fail, the theorems name the error of the first one in the order the constructor reads."
  },
  {
   "property": "C86",
   "status": "partial",
   "theorems": [
    "PurePredict.C86_utf8",
    "PurePredict.C86_toUTF8",
    "PurePredict.C86_bytes",
    "PurePredict.C86_decodes",
    "PurePredict.C86_injective",
    "PurePredict.C86_ascii",
    "PurePredict.C86_hash",
    "PurePredict.C86_vectorizer",
    "PurePredict.C86_rows",
    "PurePredict.C86_input_types",
    "PurePredict.C86_dict_false"
   ],
   "note": "Mappings are not accepted: `_iteritems` is not defined, every non-empty request raises NameError (C86_dict_false). Strings with lone surrogates are outside the model (Lean's Char has none; str.encode refuses them)."
  },
  {
   "property": "C87",
   "status": "partial",
   "theorems": [
    "PurePredict.C87_count",
    "PurePredict.C87_tfidf",
    "PurePredict.C87_hash_partial",
    "PurePredict.C87_union_partial",
    "PurePredict.C87_no_transformers",
    "PurePredict.C87_weight_false",
    "PurePredict.C87_binary",
    "PurePredict.C87_multinomial",
    "PurePredict.C87_ovr",
    "PurePredict.C87_additive",
    "PurePredict.C87_no_documents"
   ],
   "note": "The last sentence is false: a weight for a vectorizer raises ValueError on every request (C87_weight_false). Hashing vectorizers: only documents in which no two tokens share a column (C78). Norms l1, l2; not binary, not sublinear (C35, C36)."
  },
  {
   "property": "C88",
   "status": "partial",
   "theorems": [
    "PurePredict.C88_union_partial",
    "PurePredict.C88_quiet_pure",
    "PurePredict.C88_quiet_same",
    "PurePredict.C88_scaler_same",
    "PurePredict.C88_tfidf",
    "PurePredict.C88_tfidf_value",
    "PurePredict.C88_behind_tfidf",
    "PurePredict.C88_pipeline_value",
    "PurePredict.C88_pipeline_partial",
    "PurePredict.C88_union_false",
    "PurePredict.C88_alias_false",
    "PurePredict.C88_pipeline_false"
   ],
   "note": "Holds whenever no member modifies the object it is given (C88_union_partial, C88_pipeline_partial; C88_pipeline_value needs nothing). False of TfidfTransformer with use_idf: members behind it work on weighted data (C88_behind_tfidf, C88_union_false), two of them without norm share one object (C88_alias_false), and a pipeline whose first step returns its input changes the caller's data (C88_pipeline_false). Objects left half modified by an exception are not modelled."
  },
  {
   "property": "C89",
   "status": "proved",
   "theorems": [
    "PurePredict.C89_converted_behaves",
    "PurePredict.C89_behaviour_unique"
   ],
   "note": "XGBClassifier is among the objects, given the table of its trees (C98). Encoders with categories that are not strings are not covered; callables as analyzer, tokenizer or preprocessor neither. Boosting with the hyperparameters learning_rate and n_features_."
  },
  {
   "property": "C90",
   "status": "proved",
   "theorems": [
    "PurePredict.C90_scaled_logistic",
    "PurePredict.C90_scaled_logistic_multi",
    "PurePredict.C90_text_logistic",
    "PurePredict.C90_forest",
    "PurePredict.C90_boosting_binary",
    "PurePredict.C90_boosting_multi",
    "PurePredict.C90_bagging"
   ],
   "note": "Scaler with both centring and scaling, no zero scale; tf-idf with norm l1 or l2, neither binary nor sublinear; forests on all features whose members saw all classes."
  },
  {
   "property": "C91",
   "status": "partial",
   "theorems": [
    "PurePredict.C91_methods",
    "PurePredict.C91_classes",
    "PurePredict.C91_log_partial",
    "PurePredict.C91_union",
    "PurePredict.C91_dummy_false"
   ],
   "note": "(b) is false of DummyClassifier: C91_dummy_false. (c) is not claimed for objects that end in a naive Bayes classifier, where predict_proba is computed from predict_log_proba by exp (C55). XGBClassifier has no predict_log_proba, so (c) is not claimed for objects that end in one either."
  },
  {
   "property": "C92",
   "status": "proved",
   "theorems": [
    "PurePredict.C92_one_per_record",
    "PurePredict.C92_labels",
    "PurePredict.C92_no_classes"
   ],
   "note": "Without a class, GaussianNB answers the empty list (C92_no_classes), which is why the quantifier asks for one."
  },
  {
   "property": "C93",
   "status": "partial",
   "theorems": [
    "PurePredict.C93_utf8",
    "PurePredict.C93_says_or_refused",
    "PurePredict.C93_count",
    "PurePredict.C93_tfidf",
    "PurePredict.C93_hashing",
    "PurePredict.C93_refused",
    "PurePredict.C93_bare",
    "PurePredict.C93_session",
    "PurePredict.C93_verdict",
    "PurePredict.C93_analyzer",
    "PurePredict.C93_callables",
    "PurePredict.C93_warning_false",
    "PurePredict.C93_columns_first"
   ],
   "note": "The warning of (e) is never issued: `warnings` is not imported and the NameError is swallowed (C93_warning_false; C93_verdict says what is returned instead). (d) with input='file' or 'filename' and an analyzer class fails with AttributeError, `_validate_custom_analyzer` is not defined (C93_analyzer). The codec and the file system are parameters; the UTF-8 codec is modelled. strip_accents given as a class and tokens that are not texts are not modelled."
  },
  {
   "property": "C94",
   "status": "proved",
   "theorems": [
    "PurePredict.C94_one_per_class",
    "PurePredict.C94_one_per_label",
    "PurePredict.C94_single_row"
   ],
   "note": "The number of classes is read off the fitted parameters (Spec/Columns.lean); C94_single_row shows what happens when labels and coefficients disagree."
  },
  {
   "property": "C95",
   "status": "proved",
   "theorems": [
    "PurePredict.C95_predict_agrees",
    "PurePredict.C95_binary64",
    "PurePredict.C95_exact_first",
    "PurePredict.C95_ties_refuted"
   ],
   "note": "FP.MonoExp (exp monotone, 2 and 1/2 are floats) is assumed of the arithmetic and proved of exact arithmetic and of binary64 with correctly rounded functions. NaN probabilities are excluded: argmax of a row with NaN is not meaningful. C95_ties_refuted: in double precision a one-vs-rest model with scores 1000, 2000, -1000 answers 0.5, 0.5, 0 and the second label."
  },
  {
   "property": "C96",
   "status": "proved",
   "theorems": [
    "PurePredict.C96_predictions",
    "PurePredict.C96_transform"
   ],
   "note": "Serves (Spec/Requests.lean) says from the learned parameters which requests an object takes and what its transform makes of them; naive Bayes models raise on every sparse request, which is batch independent too. Pipelines are not limited to matrices: text and mapping vectorizers and encoders may be first."
  },
  {
   "property": "C97",
   "status": "proved",
   "theorems": [
    "PurePredict.C97_predictions",
    "PurePredict.C97_transforms",
    "PurePredict.C97_todense",
    "PurePredict.C97_tosparse",
    "PurePredict.C97_stored_order_matters"
   ],
   "note": "Not among the objects: classes that refuse or fail on sparse requests (naive Bayes, MinMaxScaler, the imputer and indicator, gradient boosting, bagging over feature subsets, centering scalers) and weighted unions (C42). C97_stored_order_matters shows that in double precision the column order is needed: a linear classifier labels (2^60, 1, -2^60) \"no\" when dense and \"yes\" when stored as columns 0, 2, 1."
  },
  {
   "property": "C98",
   "status": "partial",
   "theorems": [
    "PurePredict.C98_binary_partial",
    "PurePredict.C98_multi_partial",
    "PurePredict.C98_base_score_false",
    "PurePredict.C98_early_stopping_false",
    "PurePredict.C98_two_class_softprob_false",
    "PurePredict.C98_refused",
    "PurePredict.C98_pipeline"
   ],
   "note": "False as stated, negations proved: another base_score than 0.5 is lost (C98_base_score_false), fewer trees than n_estimators raise on every request (C98_early_stopping_false), a two-class multi:softprob raises TypeError on every request (C98_two_class_softprob_false); from column 10 on and at ties the trees themselves differ (C17, C59). Proved for everything else."
  },
  {
   "property": "C99",
   "status": "proved",
   "theorems": [
    "PurePredict.C99_every_request_answered",
    "PurePredict.C99_classifiers",
    "PurePredict.C99_transformers",
    "PurePredict.C99_grown_classifiers",
    "PurePredict.C99_grown_regressors"
   ],
   "note": "Exact arithmetic: in double precision exp and sums can overflow. Naive Bayes, XGBoost and bagging on column subsets for dense matrices, as the code takes them; union weights on dense blocks, as the code takes them."
  },
  {
   "property": "C100",
   "status": "proved",
   "theorems": [
    "PurePredict.C100_no_request_raises",
    "PurePredict.C100_classifiers",
    "PurePredict.C100_text_classifiers",
    "PurePredict.C100_grown_classifiers",
    "PurePredict.C100_grown_regressors",
    "PurePredict.C100_softmax_raises",
    "PurePredict.C100_softmax_false",
    "PurePredict.C100_gaussian_raises"
   ],
   "note": "Tfidf without sublinear counts; vectorizers with binary=False. What the answers are for such numbers is not claimed here (NaN in, NaN out)."
  },
  {
   "property": "C101",
   "status": "proved",
   "theorems": [
    "PurePredict.C101_answers_move",
    "PurePredict.C101_two_classes",
    "PurePredict.C101_one_record",
    "PurePredict.C101_linear_labels",
    "PurePredict.C101_counts",
    "PurePredict.C101_grown_classifiers",
    "PurePredict.C101_grown_regressors"
   ],
   "note": "LinearSVC, RidgeClassifier and the like (no predict_proba) by C101_linear_labels on the estimator. Gradient boosting with the default prior estimator as init. Not covered: the two-class softmax of multi_class='multinomial', naive Bayes."
  },
  {
   "property": "C102",
   "status": "proved",
   "theorems": [
    "PurePredict.C102_unread",
    "PurePredict.C102_columns",
    "PurePredict.C102_text",
    "PurePredict.C102_mappings",
    "PurePredict.C102_forest",
    "PurePredict.C102_zero_coefficient_reads_nan"
   ],
   "note": "Dense rows, documents and mappings. Columns of sparse input are not covered here."
  },
  {
   "property": "C103",
   "status": "proved",
   "theorems": [
    "PurePredict.C103_relabelled",
    "PurePredict.C103_single",
    "PurePredict.C103_dummy_ignores_names"
   ],
   "note": ""
  },
  {
   "property": "C104",
   "status": "proved",
   "theorems": [
    "PurePredict.C104_rearranged",
    "PurePredict.C104_answers",
    "PurePredict.C104_forest",
    "PurePredict.C104_false_rounding",
    "PurePredict.anyOrder_exact"
   ],
   "note": "The restriction to exact arithmetic for sums is part of the statement; C104_false_rounding shows it cannot be dropped."
  },
  {
   "property": "C105",
   "status": "proved",
   "theorems": [
    "PurePredict.C105_encoded",
    "PurePredict.C105_order",
    "PurePredict.C105_set_order",
    "PurePredict.C105_refused",
    "PurePredict.C105_given",
    "PurePredict.C105_given_refused",
    "PurePredict.C105_unknown",
    "PurePredict.C105_unknown_refused",
    "PurePredict.C105_encoders"
   ],
   "note": "NaN is not among the numbers (sorted has no defined result then). sorted is modelled as insertion sort; for distinct comparable values the result does not depend on the algorithm."
  },
  {
   "property": "C106",
   "status": "partial",
   "theorems": [
    "PurePredict.C106_report_partial",
    "PurePredict.C106_first_record",
    "PurePredict.C106_same_record",
    "PurePredict.C106_exceptions",
    "PurePredict.C106_slice",
    "PurePredict.C106_sliced_linear",
    "PurePredict.C106_sparse_false",
    "PurePredict.C106_instant_loading",
    "PurePredict.C106_instant_prediction",
    "PurePredict.C106_zero_time",
    "PurePredict.C106_early_exceptions"
   ],
   "note": "The two claims about sparse requests and the clock are false of the code (C106_sparse_false with C106_sliced_linear; C106_instant_loading, C106_instant_prediction with C106_zero_time); everything else is proved."
  },
  {
   "property": "C107",
   "status": "proved",
   "theorems": [
    "PurePredict.C107_certified",
    "PurePredict.C107_double_probabilities",
    "PurePredict.C107_double_labels",
    "PurePredict.C107_against_exact",
    "PurePredict.C107_small_changes",
    "PurePredict.C107_add_ends",
    "PurePredict.C107_sub_ends",
    "PurePredict.C107_mul_corners",
    "PurePredict.C107_div_corners",
    "PurePredict.C107_exp_ends",
    "PurePredict.C107_log_ends",
    "PurePredict.C107_grown_classifiers",
    "PurePredict.C107_grown_regressors"
   ],
   "note": "Not in certificates: naive Bayes, Normalizer, imputation, text; sparse requests; XGBoost with more than two classes. math.exp and math.log are assumed to be within one unit in the last place (true of the model's binary64, in which they are correctly rounded)."
  },
  {
   "property": "C108",
   "status": "proved",
   "theorems": [
    "PurePredict.C108_recoded",
    "PurePredict.C108_answers",
    "PurePredict.C108_forest",
    "PurePredict.C108_threshold",
    "PurePredict.C108_increasing",
    "PurePredict.C108_false_max_norm",
    "PurePredict.C108_false_rounding"
   ],
   "note": "The exceptions (max norm, rounding) are part of the statement and shown necessary by C108_false_max_norm and C108_false_rounding. MaxAbsScaler and Normalizer allow rescaling only (no offset), as in scikit-learn. Multinomial and complement naive Bayes and sparse requests are outside unless they see unchanged columns."
  },
  {
   "property": "C109",
   "status": "proved",
   "theorems": [
    "PurePredict.C109_default_pattern",
    "PurePredict.C109_features",
    "PurePredict.C109_ngrams",
    "PurePredict.C109_counts",
    "PurePredict.C109_repeated",
    "PurePredict.C109_scores",
    "PurePredict.C109_two_classes",
    "PurePredict.C109_sentence_vectors",
    "PurePredict.C109_hashing_false",
    "PurePredict.C109_bigrams_false",
    "PurePredict.C109_characters_false"
   ],
   "note": "The exceptions are part of the statement and shown by C109_bigrams_false, C109_characters_false and C109_hashing_false. That lower-casing and NFKD treat both sides of the separator apart is a hypothesis (they are parameters of the model); for the default token pattern it is proved (C109_default_pattern)."
  },
  {
   "property": "C110",
   "status": "proved",
   "theorems": [
    "PurePredict.C110_alike",
    "PurePredict.C110_equal_numbers",
    "PurePredict.C110_equal_answers",
    "PurePredict.C110_zero_signs",
    "PurePredict.C110_model",
    "PurePredict.C110_false_l2",
    "PurePredict.C110_false_l1",
    "PurePredict.C110_large_ints"
   ],
   "note": "The text vectorizers, encoders and DictVectorizer are outside the statement (they make their numbers themselves). An int too large for a float makes + and * with a float raise in Python; in PyNum the result is NaN (see DESIGN)."
  },
  {
   "property": "C111",
   "status": "partial",
   "theorems": [
    "PurePredict.C111_class_order_partial",
    "PurePredict.C111_one_class",
    "PurePredict.C111_labels_partial",
    "PurePredict.C111_false_ties",
    "PurePredict.C111_false_exponential",
    "PurePredict.C111_false_rounding",
    "PurePredict.C111_linear_labels",
    "PurePredict.C111_false_zero_score"
   ],
   "note": "Proved in exact arithmetic, for the deviance loss; C111_false_ties, C111_false_zero_score, C111_false_exponential and C111_false_rounding show that ties, the exponential loss and double precision are real exceptions. Labels of linear classifiers, also without probabilities, are covered by C111_linear_labels where the scores decide every record."
  },
  {
   "property": "C112",
   "status": "partial",
   "theorems": [
    "PurePredict.C112_any_order_partial",
    "PurePredict.C112_exact",
    "PurePredict.C112_two_members",
    "PurePredict.C112_two_subspaces",
    "PurePredict.C112_close",
    "PurePredict.C112_false_rounding",
    "PurePredict.C112_close_subspaces",
    "PurePredict.C112_close_rounds",
    "PurePredict.C112_close_stages"
   ],
   "note": "Equality is proved where sums do not depend on the order of the summands (in particular exactly); in double precision C112_false_rounding is a counterexample with four members, C112_two_members and C112_two_subspaces prove equality for two members, and C112_close, C112_close_subspaces, C112_close_rounds and C112_close_stages bound the difference for ensembles, XGBClassifier and gradient boosting. The bounds for rounds and stages are proved for two classes (with the deviance loss for stages) only."
  },
  {
   "property": "C113",
   "status": "partial",
   "theorems": [
    "PurePredict.C113_cancel_partial",
    "PurePredict.C113_columns_finite",
    "PurePredict.C113_infinite_record",
    "PurePredict.C113_false_softmax",
    "PurePredict.C113_false_labels"
   ],
   "note": "Proved in exact arithmetic. False in double precision: C113_false_softmax (intercepts 1000 smaller make predict_proba raise, because sfmax does not subtract the largest score) and C113_false_labels (2^60 added to all intercepts makes every class tie). C113_infinite_record shows that finite records are needed for offsets of coefficients even without rounding."
  },
  {
   "property": "C114",
   "status": "proved",
   "theorems": [
    "PurePredict.C114_redrawn",
    "PurePredict.C114_grown",
    "PurePredict.C114_same",
    "PurePredict.C114_symm",
    "PurePredict.C114_trans",
    "PurePredict.C114_inside",
    "PurePredict.C114_useless_test",
    "PurePredict.C114_exchanged_tests",
    "PurePredict.C114_decided_left",
    "PurePredict.C114_decided_right",
    "PurePredict.C114_columns",
    "PurePredict.C114_narrow_record"
   ],
   "note": "C114_narrow_record shows that enough columns are needed where tests are left out. That two trees are the same function is shown by the rules C114_same, C114_symm, C114_trans, C114_inside, C114_useless_test, C114_exchanged_tests, C114_decided_left and C114_decided_right, or otherwise."
  },
  {
   "property": "C115",
   "status": "proved",
   "theorems": [
    "PurePredict.C115_trimmed",
    "PurePredict.C115_idle",
    "PurePredict.C115_unit",
    "PurePredict.C115_unit_scaler",
    "PurePredict.C115_one_row_each",
    "PurePredict.C115_wide_record",
    "PurePredict.C115_sparse_request"
   ],
   "note": "C115_wide_record: a scaler with mean 0 and scale 1 for one column drops the second column of a wider record without an error; C115_sparse_request: an imputer refuses sparse requests even when nothing is missing; so such requests are not among those of the statement."
  },
  {
   "property": "C116",
   "status": "proved",
   "theorems": [
    "PurePredict.C116_regrouped",
    "PurePredict.C116_copies",
    "PurePredict.C116_single",
    "PurePredict.C116_false_rounding",
    "PurePredict.C116_false_unequal"
   ],
   "note": "Exact arithmetic for groups and repetitions; C116_false_rounding shows that double precision is a real exception, C116_false_unequal that groups must be equally large."
  },
  {
   "property": "C117",
   "status": "proved",
   "theorems": [
    "PurePredict.C117_folded",
    "PurePredict.C117_one",
    "PurePredict.C117_linear",
    "PurePredict.C117_threshold",
    "PurePredict.C117_false_rounding"
   ],
   "note": "Exact arithmetic; C117_false_rounding shows two models with exactly representable parameters that give different labels in double precision."
  },
  {
   "property": "C118",
   "status": "proved",
   "theorems": [
    "PurePredict.C118_unladen",
    "PurePredict.C118_cut",
    "PurePredict.C118_last_stage"
   ],
   "note": "Floats of the model have one zero, so a sum of -0.0 and 0.0 is not told apart from -0.0. Trees with splits and only zeros in the leaves are not covered: they raise on records that are too short."
  },
  {
   "property": "C119",
   "status": "proved",
   "theorems": [
    "PurePredict.C119_direction",
    "PurePredict.C119_repeated",
    "PurePredict.C119_false_max",
    "PurePredict.C119_false_overflow",
    "PurePredict.C119_normalised"
   ],
   "note": "Exact arithmetic (C119_false_overflow: in double precision the square of a large number is infinite). Not claimed for the norm max (C119_false_max). Dense records have the same length, sparse records no repeated columns. Repeated documents need features that do not reach over the separator, as in C109. C119_normalised: normalising the records beforehand, with l1 or l2, changes no answer where only the direction counts (dense rectangular requests of finite numbers)."
  },
  {
   "property": "C120",
   "status": "proved",
   "theorems": [
    "PurePredict.C120_two_classes",
    "PurePredict.C120_several_classes",
    "PurePredict.C120_multinomial",
    "PurePredict.C120_labels",
    "PurePredict.C120_labels_two",
    "PurePredict.C120_false_tree",
    "PurePredict.C120_two_multinomial"
   ],
   "note": "Double precision, numbers of moderate size (the terms of a score add up to at most 2^1000; with several classes scores that neither overflow the exponential nor all vanish). Two classes in multinomial mode: half instead of a quarter (C120_two_multinomial). C120_false_tree: for a tree the probability of a class can change from 0 to 1 however small the change."
  },
  {
   "property": "C121",
   "status": "proved",
   "theorems": [
    "PurePredict.C121_unread",
    "PurePredict.C121_set",
    "PurePredict.C121_strip"
   ],
   "note": "Equality of converted objects and of exceptions, for every kind of number. Attributes that hold objects (tree_, indicator_, _tfidf, get_booster) are compared by what is read of them. The attributes of the compound classes that are copied (names of steps, weights, classes, selected columns, loss, hyper-parameters of gradient boosting) are part of the build. fastText models are not fitted objects of this kind."
  },
  {
   "property": "C122",
   "status": "proved",
   "theorems": [
    "PurePredict.C122_robbed",
    "PurePredict.C122_complete",
    "PurePredict.C122_deleted",
    "PurePredict.C122_read",
    "PurePredict.C122_spared",
    "PurePredict.C122_dummy",
    "PurePredict.C122_parts"
   ],
   "note": "For every kind of number. AttributeError is shown for objects that can be converted when complete; an object with further defects may be refused with the exception of another of them. The attributes of the compound classes themselves are part of the type of fitted objects in the model and cannot be missing there."
  },
  {
   "property": "C123",
   "status": "proved",
   "theorems": [
    "PurePredict.C123_rows",
    "PurePredict.C123_later_trees",
    "PurePredict.C123_sorted",
    "PurePredict.C123_anywhere"
   ],
   "note": "For every kind of number. n_estimators and n_classes_ are non-negative Python ints. The table has the six columns that are read (others do not matter, C121)."
  }
 ]
}