{"id": "C01", "title": "Sparse/dense round trip", "statement": "Converting any non-empty rectangular dense 2-D list to a sparse_list and back with todense returns exactly the original matrix; the sparse form stores only non-zero entries and every stored column index lies in [0,size).", "quantifier": "every rectangular non-empty 2-D list, any number of rows and columns, any values", "why_tests_cant": "tests convert one 2x2 matrix; the claim ranges over all shapes and zero patterns", "anchors": ["pure_sklearn/utils.py: sparse_list.__init__, sparse_list.todense, tosparse, todense"]}
{"id": "C02", "title": "Sparse and dense linear scores agree", "statement": "For every linear classifier, decision_function, predict and predict_proba on a sparse_list give the same result as on its todense() form (exact arithmetic).", "quantifier": "every coefficient matrix, intercept, and well-formed sparse matrix", "why_tests_cant": "the agreement must hold for every sparsity pattern and key order", "anchors": ["pure_sklearn/base.py: dot", "pure_sklearn/linear_model/_base.py: LinearClassifierMixinPure.decision_function, predict"]}
{"id": "C03", "title": "Batch independence (linear models)", "statement": "Predicting a batch that is the concatenation of two non-empty batches (all rows of the fitted width) returns the concatenation of the two results; in particular each record's prediction does not depend on the other records in the request.", "quantifier": "all models, all batches and split points, any arithmetic including NaN/inf", "why_tests_cant": "mini-batch composition is unbounded", "anchors": ["pure_sklearn/linear_model/_base.py", "pure_sklearn/linear_model/_logistic.py"]}
{"id": "C04", "title": "Linear predict is the decision rule", "statement": "predict returns classes_[argmax] of the class scores (first maximal class on ties) for multi-class models, and classes_[1] iff the score is strictly positive for binary ones; the score of class c is the inner product of the record with coef_[c] plus intercept_[c]; the output has one label per record and each label is one of classes_.", "quantifier": "all fitted coefficients, all records", "why_tests_cant": "argmax/tie behaviour ranges over all score vectors", "anchors": ["pure_sklearn/linear_model/_base.py: decision_function, predict"]}
{"id": "C05", "title": "Logistic probabilities are a distribution", "statement": "LogisticRegression/SGD(log) predict_proba returns for each record one non-negative number per class summing to 1 (exact arithmetic), given by softmax of scores (multinomial), or normalised sigmoid of scores (one-vs-rest), or [1-sigmoid, sigmoid] (binary).", "quantifier": "all fitted coefficients and all records, all multi_class/solver combinations", "why_tests_cant": "real-valued quantification over all inputs", "anchors": ["pure_sklearn/linear_model/_logistic.py: predict_proba", "pure_sklearn/linear_model/_base.py: _predict_proba_lr", "pure_sklearn/base.py: sfmax, expit"]}
{"id": "C06", "title": "Predict agrees with predict_proba (linear)", "statement": "The label returned by predict is a most probable class according to predict_proba, for binary, one-vs-rest and multinomial logistic models.", "quantifier": "all coefficients and records", "why_tests_cant": "monotonicity argument over all reals", "anchors": ["pure_sklearn/linear_model/_base.py: predict", "pure_sklearn/linear_model/_logistic.py: predict_proba"]}
{"id": "C07", "title": "Wrong feature count is rejected", "statement": "A linear classifier given records whose number of features differs from the fitted number raises ValueError and never returns predictions.", "quantifier": "all models, all record widths, every row of the batch", "why_tests_cant": "width mismatch may be in any row", "anchors": ["pure_sklearn/linear_model/_base.py: decision_function"]}
{"id": "C08", "title": "Softmax robustness", "statement": "Softmax-based predict_proba is defined (no exception, no NaN) for all finite class scores.", "quantifier": "all finite score vectors of floating point numbers, including very large or very negative ones", "why_tests_cant": "overflow/underflow only appears at extreme inputs tests do not sample", "anchors": ["pure_sklearn/base.py: sfmax, safe_exp", "pure_sklearn/linear_model/_logistic.py", "pure_sklearn/xgboost/_classes.py"]}
{"id": "C09", "title": "safe_log and safe_exp are total", "statement": "safe_log and safe_exp never raise on any float (including 0, negatives, NaN, infinities, overflow) and return -inf/NaN/inf as numpy does.", "quantifier": "every floating point value", "why_tests_cant": "the whole float domain", "anchors": ["pure_sklearn/base.py: safe_log, safe_exp"]}
{"id": "C10", "title": "Tree prediction follows the decision path", "statement": "For every fitted tree stored as parallel arrays, tree prediction terminates and returns the leaf reached from the root by going left exactly when feature value <= threshold; the value returned is that leaf's value.", "quantifier": "all trees of any size and depth, all records", "why_tests_cant": "depth and shape of trees is unbounded; termination", "anchors": ["pure_sklearn/tree/_classes.py: _get_leaf_node, predict"]}
{"id": "C11", "title": "Tree: sparse and dense agree", "statement": "Decision tree predict/predict_proba on a sparse_list equal those on its dense form.", "quantifier": "all trees, all sparse matrices", "why_tests_cant": "all sparsity patterns and depths", "anchors": ["pure_sklearn/tree/_classes.py: _get_leaf_node"]}
{"id": "C12", "title": "Tree probabilities", "statement": "A classification tree's predict_proba is the leaf's class counts divided by their sum: non-negative, sums to 1 (exact arithmetic), each in [0,1] also under floating point rounding; predict returns a class of maximal probability (first on ties).", "quantifier": "all trees with non-negative non-zero leaf counts, all records", "why_tests_cant": "all leaf count vectors", "anchors": ["pure_sklearn/tree/_classes.py: DecisionTreeClassifierPure"]}
{"id": "C13", "title": "Ensemble probabilities are averages", "statement": "Random forest, extra trees and bagging predict_proba equals the arithmetic mean of the member estimators' predict_proba (each on its own feature subset), is a probability distribution when the members' are, does not depend on the order of the members (exact arithmetic), and predict is its argmax.", "quantifier": "any number of members, any member estimators, all records", "why_tests_cant": "number and order of members unbounded", "anchors": ["pure_sklearn/ensemble/_bagging.py: _BaseBaggingPure", "pure_sklearn/ensemble/_forest.py"]}
{"id": "C14", "title": "Bagging with feature subsets accepts sparse input", "statement": "A bagging classifier given sparse input returns the same as on the dense form.", "quantifier": "all sparse inputs and feature subsets", "why_tests_cant": "depends on which entries are stored", "anchors": ["pure_sklearn/ensemble/_bagging.py: _feat_slice, predict_proba"]}
{"id": "C15", "title": "Gradient boosting additive model", "statement": "Raw gradient boosting scores equal the init estimator's log-odds plus learning_rate times the sum of all stage trees' predictions per class; batch predictions are row-independent.", "quantifier": "any number of stages, classes and records", "why_tests_cant": "unbounded number of stages", "anchors": ["pure_sklearn/ensemble/_gb.py: _raw_predict, _raw_predict_init"]}
{"id": "C16", "title": "Gradient boosting probabilities are a distribution", "statement": "predict_proba of GradientBoostingClassifier (deviance and exponential loss) returns values in [0,1] that sum to 1.", "quantifier": "all raw scores, both losses", "why_tests_cant": "all real scores", "anchors": ["pure_sklearn/ensemble/_gb_losses.py: _raw_prediction_to_proba"]}
{"id": "C17", "title": "XGBoost trees use the right feature", "statement": "A converted XGBClassifier tests, at each split, the same feature the booster's split names ('f<k>' means column k).", "quantifier": "all feature indices k, all trees", "why_tests_cant": "arbitrary many features; tests use iris with 4", "anchors": ["pure_sklearn/tree/_classes.py: _DecisionTreeBase.__init__", "pure_sklearn/xgboost/_classes.py"]}
{"id": "C18", "title": "XGBoost probabilities", "statement": "XGBClassifier predict_proba is sigmoid (binary) or softmax (multi) of the summed tree outputs, non-negative and summing to 1; predict is its argmax label.", "quantifier": "any number of trees/classes/records", "why_tests_cant": "unbounded ensembles", "anchors": ["pure_sklearn/xgboost/_classes.py: predict_proba, predict, _predict, _predict_binary"]}
{"id": "C19", "title": "Naive Bayes predicts the maximum posterior class", "statement": "MultinomialNB, ComplementNB and GaussianNB predict the first class maximising the joint log likelihood given by the textbook formula.", "quantifier": "all parameters and records", "why_tests_cant": "all real records", "anchors": ["pure_sklearn/naive_bayes.py: _joint_log_likelihood, predict"]}
{"id": "C20", "title": "Naive Bayes probabilities are a distribution", "statement": "NB predict_proba returns exp(jll - logsumexp(jll)): finite, non-negative and summing to 1.", "quantifier": "all joint log likelihood vectors of finite floats", "why_tests_cant": "underflow for long documents lies outside small tests", "anchors": ["pure_sklearn/naive_bayes.py: predict_log_proba, predict_proba"]}
{"id": "C21", "title": "Dummy classifier returns a class label", "statement": "DummyClassifier.predict returns, for each record, the class label with the largest prior; predict_proba returns the prior for every record.", "quantifier": "all priors, label sets and batches", "why_tests_cant": "labels are arbitrary", "anchors": ["pure_sklearn/dummy.py"]}
{"id": "C22", "title": "StandardScaler", "statement": "transform is (x-mean)/scale per column, invertible when scale is non-zero, monotone per column (also under rounding), and sparse and dense input agree when with_mean is false; centring sparse data is refused.", "quantifier": "all parameters and matrices", "why_tests_cant": "all reals", "anchors": ["pure_sklearn/preprocessing/_data.py: StandardScalerPure.transform"]}
{"id": "C23", "title": "MinMaxScaler", "statement": "transform is x*scale+min per column; values inside the fitted data range land inside feature_range; sparse input is refused with TypeError.", "quantifier": "all parameters and matrices", "why_tests_cant": "all reals", "anchors": ["pure_sklearn/preprocessing/_data.py: MinMaxScalerPure.transform"]}
{"id": "C24", "title": "MaxAbsScaler", "statement": "transform is x/scale per column, preserves zeros, maps values bounded by the fitted maximum absolute value into [-1,1], and sparse and dense agree.", "quantifier": "all parameters and matrices", "why_tests_cant": "all reals", "anchors": ["pure_sklearn/preprocessing/_data.py: MaxAbsScalerPure.transform"]}
{"id": "C25", "title": "Scalers reject or preserve column count", "statement": "A scaler never silently drops columns: output has as many columns as the input, or an error is raised.", "quantifier": "all widths", "why_tests_cant": "width mismatch ranges over all inputs", "anchors": ["pure_sklearn/preprocessing/_data.py: StandardScalerPure, MinMaxScalerPure, MaxAbsScalerPure"]}
{"id": "C26", "title": "Normalizer unit norm", "statement": "normalize with l1/l2 norm gives every non-zero row norm 1 and leaves zero rows unchanged; direction is preserved (each row is a positive multiple of the input); sparse and dense agree; normalising twice equals normalising once.", "quantifier": "all matrices", "why_tests_cant": "all reals", "anchors": ["pure_sklearn/preprocessing/_data.py: normalize_pure, NormalizerPure, _row_norms, _handle_zeros_in_scale"]}
{"id": "C27", "title": "Max-normalisation preserves sign and bounds", "statement": "normalize with norm='max' returns values of absolute value at most 1, preserves signs, and treats sparse and dense input alike.", "quantifier": "all matrices", "why_tests_cant": "negative rows are not in the tests", "anchors": ["pure_sklearn/preprocessing/_data.py: normalize_pure"]}
{"id": "C28", "title": "One-hot encoding", "statement": "Each record is mapped to the concatenation over features of indicator vectors of its category; unknown categories give an all-zero block (handle_unknown='ignore') or ValueError ('error').", "quantifier": "any number of features and categories, all records", "why_tests_cant": "tests use only 2 features", "anchors": ["pure_sklearn/preprocessing/_encoders.py: OneHotEncoderPure.transform, _transform"]}
{"id": "C29", "title": "Ordinal encoding round trip", "statement": "OrdinalEncoder maps each value to the index at which categories_ lists it, so decoding recovers the record; unseen values raise ValueError.", "quantifier": "all category lists without duplicates, all records", "why_tests_cant": "all values", "anchors": ["pure_sklearn/preprocessing/_encoders.py: _BaseEncoderPure._transform, OrdinalEncoderPure", "pure_sklearn/preprocessing/_label.py"]}
{"id": "C30", "title": "Imputation", "statement": "SimpleImputer replaces exactly the missing entries by the column statistic, leaves other entries unchanged, drops exactly the columns with undefined statistics (unless strategy is constant), and its output contains no missing value; applying it twice changes nothing more.", "quantifier": "all matrices, missing markers and statistics", "why_tests_cant": "all missing patterns", "anchors": ["pure_sklearn/impute/_base.py: SimpleImputerPure.transform, _to_impute"]}
{"id": "C31", "title": "Missing indicator", "statement": "MissingIndicator returns a mask marking exactly the missing entries in the selected features, and with error_on_new raises exactly when a feature not seen missing during fit has a missing value.", "quantifier": "all matrices and feature subsets", "why_tests_cant": "all missing patterns; counts vs indices confusions", "anchors": ["pure_sklearn/impute/_base.py: MissingIndicatorPure"]}
{"id": "C32", "title": "Word n-grams", "statement": "The word analyser yields exactly the space-joined contiguous windows of the stop-word-filtered token list, of every size n in ngram_range, each occurrence once, in order of size then position.", "quantifier": "all token lists, ngram ranges and stop word sets", "why_tests_cant": "document lengths and ranges unbounded", "anchors": ["pure_sklearn/feature_extraction/text.py: _word_ngrams"]}
{"id": "C33", "title": "Character n-grams", "statement": "The char analyser yields exactly the contiguous substrings of the whitespace-normalised text with length in ngram_range; char_wb yields those of each padded word, counting a short word once.", "quantifier": "all texts and ranges", "why_tests_cant": "document lengths unbounded", "anchors": ["pure_sklearn/feature_extraction/text.py: _char_ngrams, _char_wb_ngrams"]}
{"id": "C34", "title": "CountVectorizer counts", "statement": "transform returns for each document and each vocabulary term the number of occurrences of the term among the document's analysed features; out-of-vocabulary features are ignored; counts do not depend on the order of the features.", "quantifier": "all documents and vocabularies", "why_tests_cant": "all token multisets", "anchors": ["pure_sklearn/feature_extraction/text.py: CountVectorizerPure._count_vocab, transform"]}
{"id": "C35", "title": "Binary CountVectorizer output is a usable sparse matrix", "statement": "With binary=True, transform returns a sparse matrix (with its column count) holding 1 exactly for the terms present.", "quantifier": "all documents and vocabularies", "why_tests_cant": "type of the result matters to every consumer", "anchors": ["pure_sklearn/feature_extraction/text.py: CountVectorizerPure.transform"]}
{"id": "C36", "title": "Tf-idf weighting", "statement": "TfidfTransformer returns tf*idf per entry, then row-normalised; a transform does not change the caller's data.", "quantifier": "all count matrices, idf vectors, any number of repeated calls", "why_tests_cant": "history of calls on the same data", "anchors": ["pure_sklearn/feature_extraction/text.py: TfidfTransformerPure.transform, TfidfVectorizerPure.transform"]}
{"id": "C37", "title": "MurmurHash3", "statement": "The hash used for feature hashing equals the 32-bit MurmurHash3_x86_32 reference function on every byte string, returned as a signed 32-bit integer.", "quantifier": "all byte strings (shorter than 2^32 bytes), all seeds", "why_tests_cant": "bit-level function over all strings", "anchors": ["pure_sklearn/feature_extraction/_hash.py: _hash"]}
{"id": "C38", "title": "Hashing column range and sign", "statement": "Every column index produced by feature hashing lies in [0,n_features) and equals the reference hasher's column for every hash including -2^31; the sign is that of the hash.", "quantifier": "all tokens, all n_features in [1,2^31)", "why_tests_cant": "all hashes", "anchors": ["pure_sklearn/feature_extraction/_hash.py: _hashing_transform"]}
{"id": "C39", "title": "Hashing accumulates", "statement": "HashingVectorizer returns for each column the sum of the signed contributions of all tokens hashed to it.", "quantifier": "all documents with repeated tokens or collisions", "why_tests_cant": "tests have no repeated token", "anchors": ["pure_sklearn/feature_extraction/_hash.py: _hashing_transform"]}
{"id": "C40", "title": "DictVectorizer", "statement": "Each known feature name (or name=value for string values) is put in its vocabulary column, unknown ones ignored, all other columns zero; sparse and dense outputs agree; a single mapping is one row.", "quantifier": "all dicts and vocabularies", "why_tests_cant": "all mappings", "anchors": ["pure_sklearn/feature_extraction/_dict_vectorizer.py"]}
{"id": "C41", "title": "Pipeline composition", "statement": "Pipeline.predict/predict_proba/transform equals applying each step's transform in order, then the final step's method; an error in any step is propagated; a method the final step lacks is absent.", "quantifier": "all step lists of any length", "why_tests_cant": "any number of steps", "anchors": ["pure_sklearn/pipeline.py: PipelinePure"]}
{"id": "C42", "title": "FeatureUnion is horizontal concatenation", "statement": "FeatureUnion.transform concatenates the transformers' outputs column-wise, scaled by their weight; if any output is sparse the result is sparse and equals the dense concatenation.", "quantifier": "any number of transformers, any shapes", "why_tests_cant": "index shifting over arbitrary many blocks", "anchors": ["pure_sklearn/pipeline.py: FeatureUnionPure.transform, _iter, _transform_one", "pure_sklearn/base.py: accumu"]}
{"id": "C43", "title": "convert_estimator dispatch", "statement": "convert_estimator raises ValueError for exactly the estimator classes without a counterpart, otherwise constructs '<Name>Pure' from the documented module; the min_version argument is enforced.", "quantifier": "all class names and versions", "why_tests_cant": "names are unbounded", "anchors": ["pure_sklearn/map.py: MAPPING, convert_estimator"]}
{"id": "C44", "title": "Converted models contain only plain Python data", "statement": "If conversion succeeds, every value reachable from the converted estimator is of a built-in type (list, dict, tuple, int, float, str, bool, type, None) or a pure_sklearn object, so it unpickles without third-party packages.", "quantifier": "all object graphs of any depth", "why_tests_cant": "nesting depth unbounded", "anchors": ["pure_sklearn/utils.py: check_types"]}
{"id": "C45", "title": "Version check is numeric", "statement": "An estimator fitted with a version below the required minimum is rejected, compared component-wise numerically (0.9 < 0.20 < 0.100), never lexicographically as strings; newer versions are accepted.", "quantifier": "all version lists", "why_tests_cant": "all versions", "anchors": ["pure_sklearn/utils.py: check_version"]}
{"id": "C46", "title": "Empty and malformed input is rejected", "statement": "check_array raises ValueError for an empty list, TypeError for non-lists, ValueError for sparse input where unsupported; so every estimator rejects empty input with ValueError.", "quantifier": "all inputs", "why_tests_cant": "error paths", "anchors": ["pure_sklearn/utils.py: check_array"]}
{"id": "C47", "title": "Cosine similarity", "statement": "cosine_similarity is the inner product of the normalised rows: within [-1,1], symmetric, 1 between a non-zero row and itself, invariant under positive scaling of a row, 0 for zero rows; sparse X agrees with dense X.", "quantifier": "all matrices", "why_tests_cant": "all reals", "anchors": ["pure_sklearn/metrics/pairwise.py: cosine_similarity_pure"]}
{"id": "C48", "title": "Cosine distance", "statement": "cosine_distances is 1 - similarity clipped to [0,2] (also under floating point rounding), with exact zeros on the diagonal when comparing a matrix with itself.", "quantifier": "all matrices", "why_tests_cant": "rounding only shows on some inputs", "anchors": ["pure_sklearn/metrics/pairwise.py: cosine_distances_pure"]}
{"id": "C49", "title": "fastText top-k", "statement": "predict(text,k,threshold) returns at most k labels, in order of non-increasing probability, each with probability >= threshold, and no omitted label that passes the threshold is more probable than a returned one; labels and scores correspond.", "quantifier": "all score vectors, k, thresholds", "why_tests_cant": "all rankings including ties", "anchors": ["pure_fasttext/FastText.py: _predict, argsort"]}
{"id": "C50", "title": "fastText softmax is safe and correct", "statement": "The fastText softmax never raises and returns numbers in [0,1] for all finite floating point scores, sums to 1 (exact arithmetic), and is invariant under adding a constant.", "quantifier": "all non-empty finite score vectors, any sound rounding", "why_tests_cant": "extreme scores", "anchors": ["pure_fasttext/FastText.py: sfmax"]}
{"id": "C51", "title": "fastText word and sentence vectors", "statement": "get_word_vector returns the matrix row of a known word and the zero vector of length dim for an unknown one; get_sentence_vector is the mean over known words (plus </s>) of their (unit-normalised when unsupervised) vectors and always has length dim.", "quantifier": "all vocabularies and texts", "why_tests_cant": "all texts, including those with no known word", "anchors": ["pure_fasttext/FastText.py: get_word_vector, get_sentence_vector, average, div_norm"]}
{"id": "C52", "title": "fastText batch prediction", "statement": "predict on a list of texts returns the list of per-text predictions.", "quantifier": "all lists of texts", "why_tests_cant": "any list", "anchors": ["pure_fasttext/FastText.py: predict"]}
{"id": "C53", "title": "Matrix helper laws", "statement": "transpose is an involution on rectangular matrices, operate_2d/matmult_same_dim act entrywise and agree between sparse and dense, accumu returns prefix sums, apply_axis_2d and ravel follow numpy.", "quantifier": "all matrices", "why_tests_cant": "all shapes", "anchors": ["pure_sklearn/base.py"]}
{"id": "C54", "title": "Column slicing", "statement": "slice_column returns the selected columns, the same for sparse and dense input.", "quantifier": "all matrices and index lists", "why_tests_cant": "all index lists", "anchors": ["pure_sklearn/base.py: slice_column"]}
{"id": "C55", "title": "Log-probabilities", "statement": "predict_log_proba is the entrywise safe logarithm of predict_proba, for every classifier.", "quantifier": "all classifiers and records", "why_tests_cant": "all inputs", "anchors": ["pure_sklearn/linear_model/_logistic.py, pure_sklearn/tree/_classes.py, pure_sklearn/ensemble/*.py, pure_sklearn/dummy.py: predict_log_proba"]}
{"id": "C56", "title": "Probability methods only for log loss", "statement": "SGD-type classifiers offer predict_proba/predict_log_proba only for loss='log'; otherwise attribute access raises AttributeError (Perceptron, hinge losses).", "quantifier": "all loss names", "why_tests_cant": "loss is an arbitrary string", "anchors": ["pure_sklearn/linear_model/_stochastic_gradient.py"]}
{"id": "C57", "title": "Batch independence (trees, forests, boosting, naive Bayes, transformers)", "statement": "For trees, forests, gradient boosting, XGBoost, naive Bayes, scalers, normaliser, encoders, imputer and vectorizers, processing a concatenated batch gives the concatenation of results.", "quantifier": "all models and batches", "why_tests_cant": "mini-batch composition unbounded", "anchors": ["pure_sklearn/tree/_classes.py", "pure_sklearn/ensemble", "pure_sklearn/naive_bayes.py", "pure_sklearn/preprocessing"]}
{"id": "C58", "title": "Results do not alias model state", "statement": "Mutating a returned prediction never changes later predictions.", "quantifier": "all models, all histories of calls and caller mutations", "why_tests_cant": "histories are unbounded", "anchors": ["pure_sklearn/dummy.py: predict_proba"]}
{"id": "C59", "title": "XGBoost split comparison", "statement": "A converted XGBClassifier sends a record to the Yes child of a split exactly when the record's value is strictly below the split value, as the booster does.", "quantifier": "all trees, all records including values equal to a split", "why_tests_cant": "Equality with a split value is a measure-zero event in random test data; a test suite with continuous features never hits it.", "anchors": ["pure_sklearn/tree/_classes.py:57-72", "pure_sklearn/tree/_classes.py:17-40"]}
{"id": "C60", "title": "Linear scores are accurate in double precision", "statement": "For a linear model with w features and finite parameters, every finite score returned by decision_function, for a dense or a sparse request, is within (w+1)·2^-52·(sum of |x_i·W_ci| + |b_c|) + w·2^-1074 of the exact inner product plus intercept. When no score's terms add up to more than 2^1000 in magnitude all scores are finite and predict succeeds; when the exact score of one class leads every other by more than the two bounds (or, with two classes, is further from zero than the bound), predict returns that class.", "quantifier": "all linear models, all widths below 2^52, all dense and sparse requests", "why_tests_cant": "rounding errors depend on all bits of all inputs and grow with the number of features; tests compare a handful of vectors with a tolerance", "anchors": ["pure_sklearn/base.py:11-24", "pure_sklearn/linear_model/_base.py:29-57"]}
{"id": "C61", "title": "Probabilities sum to one up to rounding", "statement": "In double precision every row of probabilities returned by logistic regression (one-vs-rest, multinomial, two or more classes), the SGD classifier with log loss, decision trees, bagging and forests, gradient boosting with binary deviance, XGBoost and fastText consists of numbers in [0,1] whose exact sum differs from one by at most k·2^-50 (k classes; averaging T members adds T·2^-51+k·2^-1075), provided the scores fed to the unshifted softmax are at most 600 with one not below -600 (one-vs-rest: one not below -600).", "quantifier": "all scores, all leaf counts, all numbers of classes up to 2^51, all ensembles", "why_tests_cant": "the rounding of sums and quotients depends on every bit; tests check a few rows with a tolerance", "anchors": ["pure_sklearn/base.py:69-83", "pure_sklearn/linear_model/_base.py:59-74", "pure_sklearn/tree/_classes.py:86-98", "pure_sklearn/ensemble/_bagging.py:35-43", "pure_fasttext/FastText.py:37-40"]}
{"id": "C62", "title": "Gradient boosting predict follows its loss", "statement": "GradientBoostingClassifier.predict returns the label its loss decides for from the raw scores: the first largest score for multi-class deviance, the second label exactly when the raw score is positive for binary deviance, and exactly when it is non-negative for the exponential loss.", "quantifier": "all fitted ensembles, all requests whose raw scores are finite", "why_tests_cant": "predict goes through predict_proba, so a wrong probability map moves the decision threshold; tests on well separated data never look at scores near it", "anchors": ["pure_sklearn/ensemble/_gb.py:36-61", "pure_sklearn/ensemble/_gb_losses.py:30-119"]}
{"id": "C63", "title": "Classifiers on sparse requests", "statement": "For every classifier other than the linear ones, predict and predict_proba on a valid sparse_list return what they return on its dense form; in particular a text pipeline that counts words and classifies the counts with a naive Bayes model answers.", "quantifier": "all fitted models, all valid sparse requests", "why_tests_cant": "whether a sparse input is handled, refused or misread depends on which columns each record stores", "anchors": ["pure_sklearn/utils.py:12-31", "pure_sklearn/naive_bayes.py:24-35", "pure_sklearn/ensemble/_bagging.py:20-43", "pure_sklearn/tree/_classes.py:17-40"]}
{"id": "C64", "title": "Wrong feature count given to non-linear classifiers", "statement": "A dense request containing a record whose number of features differs from the number the model was fitted on makes predict and predict_proba of trees, forests, gradient boosting and naive Bayes raise ValueError instead of returning an answer.", "quantifier": "all fitted models, all dense requests with at least one record of the wrong width", "why_tests_cant": "a short or long record is answered or not depending on which features its own decision path tests, and on its position in the batch", "anchors": ["pure_sklearn/ensemble/_gb.py:53-66", "pure_sklearn/tree/_classes.py:57-72", "pure_sklearn/naive_bayes.py:65-136", "pure_sklearn/base.py:11-24"]}
{"id": "C65", "title": "Conversion of scikit-learn trees and forests end to end", "statement": "Converting a fitted decision tree from the arrays of its tree_ attribute and predicting gives, for every record, the class frequencies, label or regression values stored at the leaf the fitted tree reaches; a converted forest gives the mean of the trees' class frequencies.", "quantifier": "all fitted trees (any shape, any number of classes and outputs), all dense requests of sufficiently wide records", "why_tests_cant": "the array encoding must be right for every tree shape; tests convert a few trees", "anchors": ["pure_sklearn/tree/_classes.py:41-55", "pure_sklearn/tree/_classes.py:57-118", "pure_sklearn/ensemble/_bagging.py:22-43"]}
{"id": "C66", "title": "Conversion of XGBoost classifiers end to end", "statement": "A classifier converted from a booster returns the booster's probabilities: softmax of the margins (several classes) or the logistic function of the margin (two classes), where a margin is the bias base_score plus the sum of the trees of that class.", "quantifier": "all boosters (any number of rounds, classes and trees), all dense requests", "why_tests_cant": "tree indexing over rounds and classes and the bias must be right for every booster size", "anchors": ["pure_sklearn/xgboost/_classes.py:25-109", "pure_sklearn/tree/_classes.py:17-40"]}
{"id": "C67", "title": "Missing values in XGBoost trees", "statement": "A NaN entry of a record follows the default branch (column Missing of the dump) of every split that tests it, so a converted tree predicts what the booster predicts also for records with missing values.", "quantifier": "all dumped trees with columns below 10, all dense requests without ties", "why_tests_cant": "default directions only matter for records with missing values, which no test uses", "anchors": ["pure_sklearn/tree/_classes.py:17-40", "pure_sklearn/tree/_classes.py:57-72"]}
{"id": "C68", "title": "Single precision of scikit-learn's trees", "statement": "scikit-learn's trees compare the single precision value of an entry with the threshold; a converted tree answers with the leaf that the fitted tree reaches in this way.", "quantifier": "all fitted trees, all dense requests of numbers in single precision range", "why_tests_cant": "differs only for entries closer to a threshold than half a unit of the 24th bit", "anchors": ["pure_sklearn/tree/_classes.py:57-72"]}
{"id": "C69", "title": "Fitted models that cannot be reproduced are refused at conversion", "statement": "A fitted estimator whose configuration the library cannot reproduce is refused at conversion with an exception, never converted into a model that answers differently: one-hot encoders with drop, gradient boosting with a loss other than deviance or exponential (or with an unsuitable number of classes), XGBoost models with another objective or booster, fastText models with hierarchical or other losses, with subwords or without labels. Every supported configuration converts.", "quantifier": "all configurations of the fitted estimators", "why_tests_cant": "the set of configurations is open ended and a wrong acceptance only shows up as different predictions", "anchors": ["pure_sklearn/preprocessing/_encoders.py:23-33", "pure_sklearn/ensemble/_gb.py:26-51", "pure_sklearn/ensemble/_gb_losses.py:25-29", "pure_sklearn/ensemble/_gb_losses.py:58-64", "pure_sklearn/ensemble/_gb_losses.py:92-98", "pure_sklearn/xgboost/_classes.py:25-44", "pure_fasttext/FastText.py:64-80", "pure_fasttext/FastText.py:90-114"]}
{"id": "C70", "title": "What the default token pattern finds", "statement": "With the default token_pattern the tokens of a text are exactly its maximal runs of word characters of length at least two, in order of appearance; runs of length one are dropped and every occurrence of a token is a whole run. The substitution of white space used by the character analysers turns every run of at least two white space characters into one blank.", "quantifier": "all texts, any set of word and white space characters", "why_tests_cant": "token boundaries depend on every character of the text and its neighbours", "anchors": ["pure_sklearn/feature_extraction/text.py:95-97", "pure_sklearn/feature_extraction/text.py:116", "pure_sklearn/feature_extraction/text.py:170", "pure_sklearn/feature_extraction/text.py:193", "pure_sklearn/feature_extraction/text.py:235-240", "pure_sklearn/feature_extraction/text.py:341"]}
{"id": "C71", "title": "Preprocessing of documents", "statement": "Preprocessing a document lowercases it exactly when lowercase is set, then strips accents as asked: 'ascii' gives only ASCII characters, 'unicode' removes exactly the combining characters of the decomposed text, None changes nothing, and any other strip_accents is refused with ValueError. Text that is already plain ASCII is unchanged by either kind of stripping, and documents that differ only in case have the same features when lowercase is set.", "quantifier": "all documents, all option combinations", "why_tests_cant": "ranges over all Unicode strings and all option combinations", "anchors": ["pure_sklearn/feature_extraction/text.py:34-43", "pure_sklearn/feature_extraction/text.py:77-97", "pure_sklearn/feature_extraction/text.py:214-233"]}
{"id": "C72", "title": "Text classification pipelines end to end", "statement": "A pipeline of a default TfidfVectorizer (idf weighting, l1 or l2 norm) and a LogisticRegression answers every batch of documents with the class probabilities and labels of the fitted pipeline: the score of a class is the linear function of the normalised vector of term counts times idf; probabilities are the logistic function (two classes), softmax (multinomial) or normalised logistic functions (one-vs-rest) of the scores; the label is that of the positive side or the first largest score. Only the counts of vocabulary terms matter, and a document without known terms is scored by the intercepts.", "quantifier": "all fitted vectorizers and classifiers, all non-empty batches of documents", "why_tests_cant": "composes sparse rows, normalisation and dot products for arbitrary vocabularies and documents", "anchors": ["pure_sklearn/feature_extraction/text.py:369-400", "pure_sklearn/pipeline.py:75-125", "pure_sklearn/linear_model/_base.py:34-57", "pure_sklearn/linear_model/_logistic.py:23-44"]}
{"id": "C73", "title": "Batch independence of pipelines and feature unions", "statement": "If every transformer of a converted pipeline processes the records of a request one by one and the final estimator is batch independent, then predict, predict_proba, predict_log_proba and transform of the pipeline are batch independent; likewise a feature union of such transformers, with or without weights, dense or (as soon as one block is sparse) sparse. The converted scalers, the normaliser and the tf-idf transformer are such steps, and a tf-idf vectorizer followed by a linear classifier treats the documents of a request independently.", "quantifier": "all pipelines and unions of any length, all transformers, all batches", "why_tests_cant": "the composition of steps and the batch are unbounded; a leak between records can depend on their combination", "anchors": ["pure_sklearn/pipeline.py:59-64", "pure_sklearn/pipeline.py:83-142", "pure_sklearn/pipeline.py:162-218", "pure_sklearn/preprocessing/_data.py:34-219", "pure_sklearn/feature_extraction/text.py:351-443"]}
{"id": "C74", "title": "Linear kernel, column normalisation and helpers on sparse rows", "statement": "linear_kernel_pure returns the matrix of inner products of the rows of X and Y (of X with itself when Y is omitted), for dense X and for sparse X with dense Y, and refuses different widths and sparse Y. normalize_pure with axis=0 divides every column by its norm and keeps zero columns; unknown norms, other axes and sparse data with axis=0 are refused. softmax of a sparse row is the softmax of its stored entries, and apply_2d_sparse applies the function to the stored entries only.", "quantifier": "all matrices, all norms and axes", "why_tests_cant": "numerical identities over all matrices", "anchors": ["pure_sklearn/metrics/pairwise.py:31-40", "pure_sklearn/metrics/pairwise.py:65-68", "pure_sklearn/preprocessing/_data.py:34-86", "pure_sklearn/preprocessing/_data.py:103-107", "pure_sklearn/base.py:74-83", "pure_sklearn/base.py:120-125"]}
{"id": "C75", "title": "Scalar intercepts of linear classifiers", "statement": "Converting a linear classifier whose fitted intercept is a single number gives a classifier that adds this number to the score of every class: decision_function, predict and the probability methods agree on every request with the classifier whose intercept is a vector with that number once per row of coefficients. A classifier without intercept never returns scores.", "quantifier": "all coefficient matrices, intercepts, class lists with at least as many classes as coefficient rows, all requests dense or sparse", "why_tests_cant": "fitting without intercept is the only way to get a scalar intercept; the broadcast length differs from the number of coefficient rows in the binary case", "anchors": ["pure_sklearn/linear_model/_base.py:14-28", "pure_sklearn/linear_model/_base.py:44-48"]}
{"id": "C76", "title": "Bagging members that saw only some of the classes", "statement": "predict_proba of a bagging ensemble gives each class the mean of the probabilities its members give to that class, a member that did not see a class giving it 0; members without predict_proba vote with their labels.", "quantifier": "all ensembles, all class subsets seen by the members, all batches", "why_tests_cant": "depends on which classes each bootstrap sample happened to contain", "anchors": ["pure_sklearn/ensemble/_bagging.py:22-33", "pure_sklearn/ensemble/_bagging.py:35-43", "pure_sklearn/ensemble/_bagging.py:48-51"]}
{"id": "C77", "title": "Gradient boosting from the fitted arrays to the predictions", "statement": "Converting a fitted gradient boosting classifier (stages of regression trees stored as arrays, prior, loss, learning rate) gives a model that for every batch returns the probabilities of the fitted model: the softmax (or logistic function) of the prior score plus learning rate times the sum of the leaf values each record reaches, and the label of the largest score. Unsupported init, loss or number of classes is refused.", "quantifier": "all fitted models, all non-empty batches of the right width", "why_tests_cant": "composition of tree layout, accumulation over stages and link over all models and records", "anchors": ["pure_sklearn/ensemble/_gb.py:26-92", "pure_sklearn/tree/_classes.py:41-72", "pure_sklearn/dummy.py:20-37"]}
{"id": "C78", "title": "Hashing vectorizer end to end", "statement": "transform of a converted HashingVectorizer turns every document into the row whose entry in column j is the sum of the signs of the document's tokens that hash to j (signed MurmurHash3, absolute value modulo n_features), divided by the row's norm if norm is l1 or l2; the result is a sparse matrix with n_features columns. An n_features outside [1, 2^31) and a bare string are refused with ValueError.", "quantifier": "all vectorizer settings, all encodings, all lists of documents", "why_tests_cant": "collisions and repeated tokens depend on the hash of unbounded texts; a test only sees the tokens it happens to contain", "anchors": ["pure_sklearn/feature_extraction/text.py:446-497", "pure_sklearn/feature_extraction/_hash.py:27-154", "pure_sklearn/preprocessing/_data.py:144-219"]}
{"id": "C79", "title": "fastText classification from text to labels", "statement": "A supervised softmax fastText model converts, and predict(text, k, threshold) on one line of text returns the (at most) k most probable labels whose probability reaches the threshold, best first, with their probabilities: the softmax of the inner products of the output matrix's rows with the mean of the vectors of the text's known words and the end-of-sentence token. Unknown words and the order of the words do not matter.", "quantifier": "all vocabularies, matrices, label sets, texts, k and thresholds", "why_tests_cant": "text, vocabulary and matrices are unbounded; ties, thresholds and unknown words combine", "anchors": ["pure_fasttext/FastText.py:64-80", "pure_fasttext/FastText.py:90-142", "pure_fasttext/FastText.py:144-165", "pure_fasttext/FastText.py:25-55"]}
{"id": "C80", "title": "Conversion of compound estimators", "statement": "convert_estimator of a pipeline, feature union, bagging ensemble, forest or boosting model, nested to any depth, succeeds exactly when every estimator in it is of a supported class and converts by itself, saved by a readable version, with plain labels and parameters; steps switched off with None, 'passthrough' or 'drop' are kept. The result has the same nesting, step names, order, weights, feature lists and labels, contains plain data only, and every single estimator in it is what its own class builds. dtypes are turned into builtin types.", "quantifier": "all estimators of any nesting depth, all constructors of single estimators, all versions", "why_tests_cant": "nesting depth and combinations of classes are unbounded; tests convert one or two fixed shapes", "anchors": ["pure_sklearn/map.py:43-58", "pure_sklearn/pipeline.py:75-81", "pure_sklearn/pipeline.py:162-176", "pure_sklearn/ensemble/_bagging.py:22-33", "pure_sklearn/ensemble/_gb.py:26-51", "pure_sklearn/utils.py:16-40", "pure_sklearn/utils.py:67-73"]}
{"id": "C81", "title": "Nested pipelines are flat pipelines", "statement": "predict, predict_proba, predict_log_proba and transform of a pipeline whose steps are again pipelines (to any depth) return the same result, or raise the same exception, as the flat pipeline of all the estimators in order.", "quantifier": "all nestings without empty pipelines whose estimators other than the last have a transform; all inputs", "why_tests_cant": "nesting is unbounded; the delegation of attributes through inner pipelines is easily broken at depth two", "anchors": ["pure_sklearn/pipeline.py:24-55", "pure_sklearn/pipeline.py:83-151"]}
{"id": "C82", "title": "Averages, additive models and scalers are accurate in double precision", "statement": "In IEEE double precision: (a) the probabilities of a bagging ensemble or forest with T members are the exact mean of the members' probabilities up to T·2^-52 relative plus 2^-1074, and a class whose exact mean leads every other by more than both errors is the one predict returns; if every member is within e of an exact value, the ensemble is within e + T·2^-52 + 2^-1074 of the exact mean; (b) every probability of a decision tree with k classes is the share of its class in the leaf the record reaches, up to 2k·2^-52 relative plus 2^-1074; (c) every finite raw score of a gradient boosting model with S stages is the initial score plus the learning rate times the sum of the stages' predictions, up to (S+1)·2^-52 relative to the sum of the magnitudes plus S·2^-1074; (d) every finite margin of a two-class XGBoost model with T trees is the sum of the leaf values up to T·2^-52 relative to the sum of their magnitudes; (e) every finite output of StandardScaler, MinMaxScaler and MaxAbsScaler is within two, two and one roundings of the exact value.", "quantifier": "all ensembles of up to 2^51 members, stages or trees, all requests, all double parameters", "why_tests_cant": "rounding errors depend on all bits of all inputs and grow with the number of members; tests compare with scikit-learn at a fixed tolerance", "anchors": ["pure_sklearn/ensemble/_bagging.py:36-56", "pure_sklearn/tree/_classes.py:83-98", "pure_sklearn/ensemble/_gb.py: _raw_predict", "pure_sklearn/xgboost/_classes.py:81-86", "pure_sklearn/preprocessing/_data.py"]}
{"id": "C83", "title": "Probabilities are accurate in double precision", "statement": "In IEEE double precision every probability the package returns is close to the probability the same fitted model has in exact arithmetic: with δ the error bound of the score (C60), (a) binary logistic regression and SGD with log loss: within δ/4 + 2^-50; (b) one-vs-rest logistic regression and SGD with k classes: within exp(2δ)-1+(k+4)·2^-51; (c) multinomial logistic regression with k classes: within exp(2δ)-1+(k+1)·2^-51, with two classes within δ/2+3·2^-51; (d) a two-class XGBoost model with T trees: within T·2^-52·Σ|leaf|/4 + 2^-50; (e) a two-class gradient boosting model with deviance loss: within a quarter of the raw-score bound of C82 plus 2^-50.", "quantifier": "all coefficients, intercepts, trees and dense requests of doubles whose scores stay in range; all numbers of classes and features", "why_tests_cant": "the error depends on all the bits of all inputs and on the number of features and classes; tests compare a few data sets with scikit-learn at a fixed tolerance", "anchors": ["pure_sklearn/base.py:69-82", "pure_sklearn/linear_model/_base.py:59-74", "pure_sklearn/linear_model/_logistic.py:23-36", "pure_sklearn/xgboost/_classes.py:92-109", "pure_sklearn/ensemble/_gb_losses.py:67-75"]}
{"id": "C84", "title": "Conversion copies the fitted attributes of single estimators", "statement": "For each of the 27 supported single estimators (linear models, trees, naive Bayes, imputer, indicator, dummy, encoders, scalers, normalizer, vectorizers; XGBoost apart) convert_estimator succeeds exactly when the version is readable, every attribute the class needs is there in the required form, and everything kept is plain Python data; the result then has exactly the attributes listed for the class, each with the value of the fitted object: arrays as nested lists of the same values in the same order, types as builtin types, vocabularies with builtin integers, a scalar intercept once per class, optional attributes only if the fitted object has them. This also holds at any depth inside pipelines, unions, bagging ensembles, forests and boosting models.", "quantifier": "all attribute values of all fitted objects, all versions, any nesting", "why_tests_cant": "each class reads its own list of attributes; a forgotten, swapped or wrongly converted attribute shows only for models that use it, and tests convert a few default models", "anchors": ["pure_sklearn/linear_model/_base.py:14-28", "pure_sklearn/naive_bayes.py:57-63", "pure_sklearn/naive_bayes.py:96-101", "pure_sklearn/naive_bayes.py:124-129", "pure_sklearn/dummy.py:20-31", "pure_sklearn/preprocessing/_data.py:97-209", "pure_sklearn/preprocessing/_encoders.py:23-34", "pure_sklearn/impute/_base.py:26-37", "pure_sklearn/impute/_base.py:85-101", "pure_sklearn/feature_extraction/_dict_vectorizer.py:18-25", "pure_sklearn/feature_extraction/text.py:333-349", "pure_sklearn/feature_extraction/text.py:392-395", "pure_sklearn/feature_extraction/text.py:411-419", "pure_sklearn/feature_extraction/text.py:454-472", "pure_sklearn/tree/_classes.py:41-55", "pure_sklearn/utils.py:16-40"]}
{"id": "C85", "title": "Refusals of conversion of single estimators", "statement": "convert_estimator refuses, before any prediction is made: (a) an unfitted estimator, and a tf-idf transformer or vectorizer with use_idf=False: AttributeError; (b) an estimator with something that is not plain data in an attribute that would be copied (callable analyzer, tokenizer or preprocessor, stop words in a set, numpy integers as parameters): ValueError; (c) a dtype that is not a class: TypeError; (d) an encoder with dropped categories, a dummy classifier with another strategy than prior: ValueError; (e) dummy and tree classifiers of several outputs: AttributeError. Regression trees of several outputs are refused as well.", "quantifier": "all classes of single estimators, all attribute values", "why_tests_cant": "the refused configurations are combinations of parameters and values without end; tests exercise almost none", "anchors": ["pure_sklearn/linear_model/_base.py:14-28", "pure_sklearn/dummy.py:20-31", "pure_sklearn/preprocessing/_data.py:97-209", "pure_sklearn/preprocessing/_encoders.py:23-34", "pure_sklearn/feature_extraction/text.py:333-349", "pure_sklearn/feature_extraction/text.py:411-419", "pure_sklearn/tree/_classes.py:41-55", "pure_sklearn/utils.py:16-40", "pure_sklearn/utils.py:67-73"]}
{"id": "C86", "title": "Texts are hashed as their UTF-8 bytes", "statement": "Feature names and tokens are hashed as the UTF-8 encoding of the text: one to four bytes per character, each byte below 256, ASCII characters as themselves, and different texts as different byte sequences, so the hash of a text shorter than 2^30 characters is MurmurHash3 (x86, 32 bit, seed 0) of its UTF-8 bytes. The hashing vectorizer on text, for documents in which no two tokens share a column, returns the normalised rows of the reference hasher on those bytes. The feature hasher accepts mappings, lists of pairs and lists of strings, a string s counting as the pair (s, 1).", "quantifier": "all texts of Unicode scalar values, all documents, options and feature counts", "why_tests_cant": "non-ASCII text takes other branches of the encoding at three thresholds; tests hash ASCII words, and never a mapping", "anchors": ["pure_sklearn/feature_extraction/_hash.py:20-24", "pure_sklearn/feature_extraction/_hash.py:27-89", "pure_sklearn/feature_extraction/_hash.py:92-114", "pure_sklearn/feature_extraction/_hash.py:122-154", "pure_sklearn/feature_extraction/text.py:474-497"]}
{"id": "C87", "title": "Text pipelines with feature unions end to end", "statement": "A FeatureUnion of fitted text vectorizers (counts, tf-idf, hashing, nested unions, in any number and order) maps every non-empty list of documents to a sparse matrix whose row for a document is the vectorizers' rows side by side. A pipeline of any such transformer and a logistic regression gives, for every document, the logistic function, softmax or normalised one-vs-rest probabilities of the linear scores of that row, and the matching label; the score of a union is the sum of the scores of its members, each against its own columns of the coefficients, plus the intercept. transformer_weights scale the members' columns.", "quantifier": "all documents, vocabularies, idf weights, coefficients, numbers of members and nestings; exact arithmetic", "why_tests_cant": "column offsets of sparse blocks depend on the widths of all members before; tests use one or two members and compare on one corpus", "anchors": ["pure_sklearn/pipeline.py:59-64", "pure_sklearn/pipeline.py:103-125", "pure_sklearn/pipeline.py:178-218", "pure_sklearn/feature_extraction/text.py:351-400", "pure_sklearn/feature_extraction/text.py:421-443", "pure_sklearn/feature_extraction/text.py:474-497", "pure_sklearn/linear_model/_base.py:30-57", "pure_sklearn/linear_model/_logistic.py:23-44"]}
{"id": "C88", "title": "Unions and pipelines leave the request alone", "statement": "Every member of a FeatureUnion sees the caller's data, whatever members run before it, and after transform the caller's data is unchanged; the same for the steps of a Pipeline, so a second call with the same object returns the same result. The value a pipeline returns is that of its steps one after the other.", "quantifier": "any number of members or steps, any transformers (modelled by what they return and what they do to the object they are given), any requests, any arithmetic", "why_tests_cant": "whether a member modifies or returns the object it was given is invisible in its own result; only combinations and repeated calls show it", "anchors": ["pure_sklearn/pipeline.py:59-64", "pure_sklearn/pipeline.py:138-142", "pure_sklearn/pipeline.py:186-218", "pure_sklearn/feature_extraction/text.py:421-443", "pure_sklearn/preprocessing/_data.py:133-154"]}
{"id": "C89", "title": "Converted objects behave as their fitted parts", "statement": "For every fitted scikit-learn object built from the supported single estimators (XGBClassifier included, given the table of its trees), Pipelines, FeatureUnions, bagging and forests, and gradient boosting, nested to any depth, conversion succeeds, and the methods of the converted object (transform, predict, predict_proba, predict_log_proba: which exist and what they return on every request, errors included) are those of the estimators with the learned attributes of its parts, put together in the way of the compound. Attributes that play no role may be anything. What an object should do is determined by its attributes.", "quantifier": "all fitted objects of any shape and depth, all attribute values of the listed kinds, all requests, any arithmetic", "why_tests_cant": "the tests convert one fitted object per class and compare a few predictions; an attribute read under the wrong name or a method table for the wrong class shows only for particular classes and nestings", "anchors": ["pure_sklearn/map.py:10-58", "pure_sklearn/linear_model/_base.py:14-57", "pure_sklearn/tree/_classes.py:16-56", "pure_sklearn/pipeline.py:75-152", "pure_sklearn/pipeline.py:162-218", "pure_sklearn/ensemble/_bagging.py:22-56", "pure_sklearn/ensemble/_gb.py:26-92", "pure_sklearn/feature_extraction/text.py:351-400"]}
{"id": "C90", "title": "Fitted pipelines, forests and boosting models end to end", "statement": "From the fitted objects with their attributes to the answers: (a) a Pipeline of StandardScaler and LogisticRegression converts and gives the logistic function of b + sum coef_j (x_j - mean_j) / scale_j for two classes, softmax or normalised one-vs-rest probabilities of those scores for more, with the matching labels; (b) a Pipeline of TfidfVectorizer and LogisticRegression converts and gives the logistic function of the linear score of the normalised tf-idf row; (c) a forest of tree classifiers converts and gives the mean of the class proportions at the leaves reached, and the label of the first largest mean; (d) a gradient boosting classifier with deviance loss converts and gives the logistic function or softmax of prior log-odds plus learning rate times the leaf values. (e) an ensemble of any fitted members, each on its own feature subset, converts and gives the mean of the members' probabilities on their columns, and the label of the first largest mean.", "quantifier": "all fitted parameters (real numbers), numbers of features, classes, trees and stages, all non-empty requests of the fitted width; exact arithmetic", "why_tests_cant": "conversion, attribute reading, transformers and classifiers are tested separately or on one data set; the composed formula is never stated", "anchors": ["pure_sklearn/map.py:48-58", "pure_sklearn/pipeline.py:75-152", "pure_sklearn/preprocessing/_data.py:118-152", "pure_sklearn/linear_model/_base.py:14-57", "pure_sklearn/linear_model/_logistic.py:23-44", "pure_sklearn/feature_extraction/text.py:474-497", "pure_sklearn/ensemble/_bagging.py:22-56", "pure_sklearn/ensemble/_gb.py:26-92", "pure_sklearn/tree/_classes.py:16-102"]}
{"id": "C91", "title": "Methods and labels of converted objects", "statement": "For every fitted object of C89, nested to any depth: (a) the converted object has exactly the methods that the classes of its parts say: transform for transformers and unions, predict for classifiers and regressors, predict_proba and predict_log_proba for the probabilistic classifiers, for SGD-type classifiers only when the loss allows it, for pipelines as the last step and, for transform, all steps; (b) classes_ of the converted object is the list of labels the classifier was fitted on; (c) for objects with both methods, whenever predict_proba answers, predict_log_proba answers with the logarithm of every entry; (d) the transform of a union is the joined, weighted output of its parts, on numeric rows and on documents.", "quantifier": "all fitted objects of any shape and depth, all requests, any arithmetic ((c): any sound rounding)", "why_tests_cant": "hasattr-based delegation and the labels of nested objects are tested on one pipeline; which methods exist for which loss and last step is never tabulated", "anchors": ["pure_sklearn/pipeline.py:24-57", "pure_sklearn/pipeline.py:99-152", "pure_sklearn/pipeline.py:162-218", "pure_sklearn/linear_model/_stochastic_gradient.py:24-63", "pure_sklearn/dummy.py:20-40", "pure_sklearn/ensemble/_bagging.py:22-56", "pure_sklearn/ensemble/_gb.py:26-92", "pure_sklearn/map.py:10-58"]}
{"id": "C92", "title": "One answer per record, drawn from the labels", "statement": "For every converted object of C89, nested to any depth, and every request of n records with n not zero: whenever transform answers, its output holds n records; whenever predict, predict_proba or predict_log_proba answers, the answer has exactly n entries.  Every entry of predict of a classifier other than DummyClassifier is one of the labels the classifier (or the last step of the pipeline) was fitted on.", "quantifier": "all fitted objects of any shape and depth whose GaussianNB parts have at least one class, all non-empty requests (dense rows, sparse rows, documents, mappings, tables), any arithmetic", "why_tests_cant": "tests compare the output with scikit-learn on one data set; a row lost by zip, a column of the wrong length or a position answered instead of a label in one branch of one nested part shows only on other shapes", "anchors": ["pure_sklearn/linear_model/_base.py:30-74", "pure_sklearn/naive_bayes.py:21-46", "pure_sklearn/naive_bayes.py:65-85", "pure_sklearn/tree/_classes.py:89-118", "pure_sklearn/ensemble/_bagging.py:35-51", "pure_sklearn/ensemble/_gb.py:53-92", "pure_sklearn/pipeline.py:103-142", "pure_sklearn/pipeline.py:186-218", "pure_sklearn/preprocessing/_encoders.py:48-144"]}
{"id": "C93", "title": "Raw documents: bytes, files, non-texts, callables, stop words", "statement": "transform of CountVectorizer, TfidfVectorizer and HashingVectorizer on raw documents: (a) documents given as texts, as bytes in the vectorizer's encoding, as open files (input='file') or file names (input='filename') are answered exactly as their texts; strict UTF-8 bytes decode to the one text they encode and all other bytes raise UnicodeDecodeError; (b) every document without a text is refused: NaN with ValueError, None, lists and other objects with TypeError, other numbers with AttributeError or TypeError, and the first such document decides the error; (c) a bare string raises ValueError, a bare bytes object or a non-iterable raises too; (d) an analyzer, tokenizer or preprocessor class given by the user replaces the built-in one and its tokens are counted; (e) answers do not depend on earlier calls; stop words that do not survive their own tokenisation are reported by a warning the first time.", "quantifier": "all documents, requests, settings, codecs, file systems, callables and earlier calls, any arithmetic", "why_tests_cant": "tests pass lists of text only; bytes, files, NaN, wrong objects in the middle of a list and inconsistent stop words are never tried", "anchors": ["pure_sklearn/feature_extraction/text.py:34-74", "pure_sklearn/feature_extraction/text.py:118-135", "pure_sklearn/feature_extraction/text.py:214-244", "pure_sklearn/feature_extraction/text.py:246-274", "pure_sklearn/feature_extraction/text.py:276-322", "pure_sklearn/feature_extraction/text.py:351-381", "pure_sklearn/feature_extraction/text.py:397-400", "pure_sklearn/feature_extraction/text.py:474-497", "pure_sklearn/utils.py:11-40"]}
{"id": "C94", "title": "One probability per class", "statement": "On every request that a converted classifier answers, every row of predict_proba and of predict_log_proba has exactly as many entries as classes the classifier was fitted for (one row of coefficients: two; otherwise one per row of coefficients; trees: values per node; naive Bayes: labels; ensembles: as their members; boosting and XGBoost: labels, for logistic objectives two), at any nesting of pipelines and ensembles; with as many labels as classes, one entry per element of classes_.", "quantifier": "all fitted objects of the supported classes at any nesting, all requests (dense, sparse, malformed), any arithmetic", "why_tests_cant": "tests compare outputs on one or two datasets; the number of columns on requests where the code takes another path (a single score column, raveled raw predictions, transposes) is never checked for nested objects", "anchors": ["pure_sklearn/linear_model/_base.py:25-74", "pure_sklearn/linear_model/_logistic.py:23-40", "pure_sklearn/tree/_classes.py:95-102", "pure_sklearn/naive_bayes.py:21-50", "pure_sklearn/ensemble/_bagging.py:35-60", "pure_sklearn/ensemble/_gb.py:83-92", "pure_sklearn/ensemble/_gb_losses.py:33-118", "pure_sklearn/pipeline.py:104-127"]}
{"id": "C95", "title": "The predicted label has the largest probability", "statement": "Whenever a converted classifier answers a request both with labels and with probabilities none of which is NaN, each label stands in classes_ at a position whose probability no entry of its row exceeds; at any nesting, in every floating point arithmetic with monotone rounding and a monotone exp, in particular IEEE double precision. In exact arithmetic it is the first largest probability, i.e. classes_[argmax(predict_proba)]. In double precision it need not be the first one: saturated scores give equal probabilities.", "quantifier": "all fitted objects of the supported classifiers at any nesting (the node values of a deciding decision tree are counts), all requests with answers, all sound floating point arithmetics with monotone exp", "why_tests_cant": "tests compare predict with scikit-learn's predict on one dataset; that the rounded links (sigmoid, normalisation, softmax, log-sum-exp, division by the leaf total) never move the largest entry away from the decision, for all parameters and requests, needs a proof about rounding", "anchors": ["pure_sklearn/linear_model/_base.py:50-74", "pure_sklearn/linear_model/_logistic.py:23-36", "pure_sklearn/linear_model/_stochastic_gradient.py:20-45", "pure_sklearn/tree/_classes.py:60-102", "pure_sklearn/naive_bayes.py:21-50", "pure_sklearn/ensemble/_bagging.py:35-60", "pure_sklearn/ensemble/_gb.py:83-92", "pure_sklearn/base.py:56-82"]}
{"id": "C96", "title": "No record's answer depends on the other records of the request, at any nesting", "statement": "For every fitted object of the supported classes at any nesting (pipelines, feature unions with weights, bagging with or without feature subsets, forests, gradient boosting) whose parts are fitted for each other's number of columns: the converted object answers a request of n records exactly when it answers each of the n records alone, and then with those n answers in order, for predict, predict_proba and predict_log_proba; and transform makes a dense matrix of the fitted width or a sparse_list of the fitted size whose i-th row is that of the i-th record alone. Requests may be dense or sparse matrices, lists of documents, lists of mappings or tables of strings, as the first steps demand.", "quantifier": "all fitted objects at any nesting with fitting widths (not: vectorizers with binary=True and indicators with error_on_new=True, for which it is false, C35 and C57), all requests, all text libraries, any arithmetic", "why_tests_cant": "tests send one batch per estimator and compare the whole; that a caller may split, merge and reorder requests of any pipeline without changing an answer is a statement about all batches and all nestings", "anchors": ["pure_sklearn/pipeline.py:75-142", "pure_sklearn/pipeline.py:186-218", "pure_sklearn/ensemble/_bagging.py:35-60", "pure_sklearn/ensemble/_gb.py:53-92", "pure_sklearn/linear_model/_base.py:30-74", "pure_sklearn/tree/_classes.py:57-118", "pure_sklearn/naive_bayes.py:21-136", "pure_sklearn/impute/_base.py:39-167", "pure_sklearn/preprocessing/_data.py:44-219", "pure_sklearn/preprocessing/_encoders.py:35-144", "pure_sklearn/feature_extraction/text.py:351-497", "pure_sklearn/feature_extraction/_dict_vectorizer.py:27-46"]}
{"id": "C97", "title": "Dense and sparse forms of one matrix get the same answers, at any nesting", "statement": "For every fitted object at any nesting built from linear classifiers, decision trees, dummy classifiers, forests and bagging over all columns, unweighted feature unions, pipelines, MaxAbsScaler, StandardScaler(with_mean=False) and Normalizer(l1, l2): predict, predict_proba and predict_log_proba return the same value, or raise the same exception, whether the request is a list of rows or a sparse_list of the same matrix, in particular for X and todense(X) and for X and tosparse(X); transform makes the same matrix of both, dense or sparse. Two such objects that differ only in the option `sparse` of their DictVectorizers and OneHotEncoders give the same answers.", "quantifier": "all such objects, all matrices of the fitted width with at least one row, any numbers in double precision if the entries of the sparse rows are stored in column order (as tosparse stores them), in any order over the reals; dict vectorizers, one-hot encoders and the normalizer over the reals only", "why_tests_cant": "tests compare one sparse and one dense request per estimator to a tolerance; that the two code paths agree for all matrices, also inside unions and ensembles and when they raise, and bit for bit in double precision, is out of their reach", "anchors": ["pure_sklearn/base.py:11-33", "pure_sklearn/utils.py:96-226", "pure_sklearn/linear_model/_base.py:30-74", "pure_sklearn/tree/_classes.py:57-118", "pure_sklearn/preprocessing/_data.py:90-219", "pure_sklearn/preprocessing/_encoders.py:35-144", "pure_sklearn/feature_extraction/_dict_vectorizer.py:27-46", "pure_sklearn/pipeline.py:75-218", "pure_sklearn/ensemble/_bagging.py:35-60", "pure_sklearn/dummy.py:18-40"]}
{"id": "C98", "title": "A fitted XGBClassifier converts to the booster's probabilities and labels", "statement": "A fitted XGBClassifier, given by its attributes and the table of its trees (trees_to_dataframe), converts to an object with the same classes_ whose predict_proba is the booster's: sigmoid of base margin plus the sum of the tree outputs for binary:logistic, softmax of the class margins for multi:softprob; and whose predict is the label of the first largest margin (binary: the second label exactly when the margin is positive). Another objective or booster is refused with ValueError. A converted pipeline answers with its last step's answers to what the earlier steps make of the request.", "quantifier": "all boosters, tables of trees, class labels and attribute values; all dense requests of at least one row with no missing value, none equal to a split, on columns 0 to 9; exact arithmetic for the probabilities, any arithmetic for refusals and pipelines", "why_tests_cant": "tests fit one booster on iris with few columns and compare to a tolerance; they do not meet ten columns, ties, early stopping, another base_score or a two-class softmax, and cannot range over all tables of trees", "anchors": ["pure_sklearn/xgboost/_classes.py:26-109", "pure_sklearn/map.py:1-58", "pure_sklearn/base.py:54-75", "pure_sklearn/pipeline.py:75-150"]}
{"id": "C99", "title": "Every well-formed request to a converted object is answered, at any nesting", "statement": "Let a fitted object - a transformer, a predictor, or pipelines, unions, forests, bagging and gradient boosting of them nested to any depth - have finite parameters of matching sizes. It converts, and the converted object answers every request that is well formed for it (documents, mappings, known categories, finite matrices of its width, dense or sparse as it takes them) without raising. transform gives as many rows as there are records, of the expected width and layout, all finite; predict gives as many labels as records, each one of classes_; predict_proba as many rows, each a probability distribution over the classes; predict_log_proba as many rows; a regression tree as many finite numbers. Trees grown by scikit-learn, of any shape, have such parameters.", "quantifier": "all fitted objects of any nesting, shapes and parameter values meeting the size conditions; all requests with at least one record; any tokenizer and text encoding; exact arithmetic", "why_tests_cant": "tests run one request through a handful of fitted objects; that no combination of parts, layout and record count raises or returns a malformed answer is a statement about all nestings and all inputs", "anchors": ["pure_sklearn/pipeline.py:67-218", "pure_sklearn/ensemble/_bagging.py:19-66", "pure_sklearn/ensemble/_gb.py:18-92", "pure_sklearn/ensemble/_gb_losses.py:20-125", "pure_sklearn/linear_model/_base.py:11-74", "pure_sklearn/linear_model/_logistic.py:10-44", "pure_sklearn/tree/_classes.py:13-140", "pure_sklearn/naive_bayes.py:1-136", "pure_sklearn/feature_extraction/text.py:325-497", "pure_sklearn/preprocessing/_data.py:89-219", "pure_sklearn/preprocessing/_encoders.py:17-144", "pure_sklearn/impute/_base.py:1-167", "pure_sklearn/map.py:1-58"]}
{"id": "C100", "title": "In double precision no well-formed request makes a converted object raise, whatever numbers it contains", "statement": "Let a fitted object - scalers, normalizers, imputers, encoders, vectorizers; linear classifiers with one-vs-rest or two-class probabilities; trees; multinomial and complement naive Bayes; dummy; XGBoost with binary:logistic; pipelines, unions, forests, bagging and gradient boosting of them nested to any depth - have parameters of matching sizes and no zero divisors. In double precision arithmetic the converted object answers every request of the right form without raising, even if the request contains NaN, infinities or numbers of any size: transform gives a matrix with a row for each record and the expected width and layout, predict a label among classes_ for each record (a number, for a regression tree), predict_proba and predict_log_proba a row of the right length for each record. The models left out do raise: a softmax over several scores of -1000 or less raises ZeroDivisionError, Gaussian naive Bayes raises OverflowError on a finite value far from a mean.", "quantifier": "all fitted objects of any nesting, shapes and parameter values (finite or not) meeting the size conditions; all requests of the form with at least one record, whatever floats they contain; IEEE binary64, and any arithmetic with monotone rounding and exp", "why_tests_cant": "which floats overflow, underflow or turn into NaN on the way through nested objects cannot be enumerated; that no branch divides by zero or takes the log of a negative number for any of them is a statement about all floats", "anchors": ["pure_sklearn/utils.py:1-226", "pure_sklearn/pipeline.py:67-218", "pure_sklearn/ensemble/_bagging.py:19-66", "pure_sklearn/ensemble/_gb.py:18-92", "pure_sklearn/ensemble/_gb_losses.py:8-125", "pure_sklearn/linear_model/_base.py:11-74", "pure_sklearn/linear_model/_logistic.py:10-44", "pure_sklearn/tree/_classes.py:13-140", "pure_sklearn/naive_bayes.py:1-136", "pure_sklearn/preprocessing/_data.py:14-219", "pure_sklearn/impute/_base.py:1-167", "pure_sklearn/xgboost/_classes.py:70-109"]}
{"id": "C101", "title": "Raising columns of one direction never lowers the probability of the second class, at any nesting and with all rounding errors", "statement": "Let a fitted object with two classes be built from scalers with positive scales, linear models whose coefficients are not negative on the columns that may rise and not positive on those that may fall, trees whose splits on such columns have the leaves of smaller share (or value) on the matching side, XGBoost binary:logistic and gradient boosting of such trees, forests and bagging (also on column subsets) of such models, and pipelines and weighted dense unions of such scalers, nested to any depth. Take two requests in double precision where every record of the second comes from that of the first by raising some of the rising columns, lowering some of the falling ones, and leaving the others alone. The converted object answers both; in every row the probability of the second class as computed is not smaller and that of the first not larger in the second answer, however small the change and whatever the rounding errors; and a record labelled with the second class keeps that label (unless its probabilities are NaN).", "quantifier": "all fitted objects of any nesting with parameters of those signs and matching sizes; all pairs of requests of any number of records, finite or infinite numbers; IEEE binary64, and any arithmetic with monotone rounding and exp", "why_tests_cant": "rounding errors could reverse the order of two nearby answers; tests see a few pairs of records, and the property is about all pairs arbitrarily close together and all nestings", "anchors": ["pure_sklearn/linear_model/_base.py:11-74", "pure_sklearn/linear_model/_logistic.py:10-44", "pure_sklearn/linear_model/_stochastic_gradient.py:10-63", "pure_sklearn/base.py:1-173", "pure_sklearn/utils.py:60-226", "pure_sklearn/tree/_classes.py:13-140", "pure_sklearn/xgboost/_classes.py:70-109", "pure_sklearn/ensemble/_gb.py:18-92", "pure_sklearn/ensemble/_gb_losses.py:8-125", "pure_sklearn/ensemble/_bagging.py:19-66", "pure_sklearn/preprocessing/_data.py:14-219", "pure_sklearn/pipeline.py:67-218"]}
{"id": "C102", "title": "What no part of a fitted object reads has no influence on its answers, at any nesting", "statement": "Take a converted object and two requests that differ only in what the object does not read: columns that no tree, forest, booster or gradient boosting model tests (anything may stand there, NaN and infinities included), finite values of columns with coefficient zero, columns an imputer drops, words outside the vocabulary of a CountVectorizer or TfidfVectorizer, characters outside all words of a HashingVectorizer, and features of mappings a DictVectorizer does not know. Then predict, predict_proba, predict_log_proba and transform give the two requests the same answers, down to the last bit and with the same exception if one is raised, also when such objects are nested in pipelines, unions, bagging on column subsets and boosting. The restriction to finite values is needed: an infinity or NaN in a column with coefficient zero turns a score into NaN and can change a label.", "quantifier": "all fitted objects of any nesting described by Unread; all pairs of requests of any number of records that agree on what is read; any floating point arithmetic (scalers before a column with coefficient zero: arithmetic without overflow)", "why_tests_cant": "tests compare answers of a few requests with those of scikit-learn and hardly ever vary an unused column, still less a word or key outside the vocabulary in every combination; that no hidden dependence exists is a statement about all pairs of requests", "anchors": ["pure_sklearn/tree/_classes.py:13-140", "pure_sklearn/linear_model/_base.py:11-74", "pure_sklearn/linear_model/_logistic.py:10-44", "pure_sklearn/linear_model/_stochastic_gradient.py:10-63", "pure_sklearn/xgboost/_classes.py:70-109", "pure_sklearn/dummy.py:8-40", "pure_sklearn/impute/_base.py:20-167", "pure_sklearn/preprocessing/_data.py:14-219", "pure_sklearn/feature_extraction/text.py:200-497", "pure_sklearn/feature_extraction/_dict_vectorizer.py:8-46", "pure_sklearn/ensemble/_gb.py:18-92", "pure_sklearn/ensemble/_bagging.py:19-66", "pure_sklearn/pipeline.py:67-218"]}
{"id": "C103", "title": "Class names are names only: renaming the classes renames the predictions and changes nothing else", "statement": "Take a fitted object and the same object with other names for its classes (the attribute classes_ mapped by any function, possibly identifying classes; any plain values). Both convert, and on every request, well-formed or not, the second predicts the first's labels renamed, with the same exception if one is raised; predict_proba, predict_log_proba and transform answer exactly alike. This holds for the twelve single classifiers that answer with labels, for the final step of pipelines of any length, for ensembles (whatever other names their members have) and for gradient boosting (whatever names its initial estimator has), nested in any way. DummyClassifier is the exception: it never reads the names of its classes and answers with positions.", "quantifier": "all fitted objects of any nesting described by Relabel; all renamings; all requests (lists, sparse rows, documents, mappings, tables, malformed ones); any arithmetic, no law assumed", "why_tests_cant": "tests use one labelling (small integers in sorted order), under which positions and labels coincide; the property relates two fitted objects for every renaming and every request", "anchors": ["pure_sklearn/linear_model/_base.py:11-74", "pure_sklearn/linear_model/_logistic.py:10-44", "pure_sklearn/linear_model/_stochastic_gradient.py:10-63", "pure_sklearn/tree/_classes.py:43-101", "pure_sklearn/naive_bayes.py:14-136", "pure_sklearn/xgboost/_classes.py:22-109", "pure_sklearn/dummy.py:8-40", "pure_sklearn/ensemble/_bagging.py:19-66", "pure_sklearn/ensemble/_gb.py:18-92", "pure_sklearn/pipeline.py:67-142", "pure_sklearn/map.py:40-58"]}
{"id": "C104", "title": "The arrangement of the columns does not matter: refitted on rearranged columns, an object answers rearranged requests alike", "statement": "Take a fitted object for tables of w columns and the same object for those columns arranged in another way (per-column parameters, coefficients, log-probabilities, means and variances, tested features, feature subsets and n_features permuted accordingly). Both convert, and on every dense request with at least one record the second gives to the rearranged records the labels, probabilities, log-probabilities or exceptions that the first gives to the original ones; transformers give the rearranged rows. For trees, forests, XGBoost, per-column scalers, the imputer and feature subsets of bagging the arrangement may drop unread columns and repeat columns, and any arithmetic is allowed, double precision included. For sums over columns (linear models, naive Bayes, normalizers) the arrangement is a permutation and arithmetic is exact, infinities and NaN included; in double precision the claim is false of the code, because sums are rounded in column order.", "quantifier": "all pairs of fitted objects of any nesting (pipelines, unions, ensembles, feature subsets, gradient boosting) described by Rearrange; all dense non-empty requests; all rearrangements", "why_tests_cant": "a relation between two fitted objects over all permutations, selections and requests; tests fix one column order", "anchors": ["pure_sklearn/base.py:11-33", "pure_sklearn/linear_model/_base.py:11-74", "pure_sklearn/tree/_classes.py:43-140", "pure_sklearn/naive_bayes.py:14-136", "pure_sklearn/xgboost/_classes.py:22-109", "pure_sklearn/preprocessing/_data.py:12-219", "pure_sklearn/impute/_base.py:12-167", "pure_sklearn/ensemble/_bagging.py:19-66", "pure_sklearn/ensemble/_gb.py:18-92", "pure_sklearn/pipeline.py:67-218", "pure_sklearn/map.py:40-58"]}
{"id": "C105", "title": "Label helpers: sorted distinct values, order-preserving codes, refusals, unknown values", "statement": "_encode(values) on strings only, numbers only (1 == 1.0 == True) or None only returns the different values in strictly increasing order, each in the spelling that occurs first, and with encode=True also the position of every value's equal among them; codes compare as the values do. The result does not depend on the iteration order of sets. It raises, always TypeError, exactly when a value cannot be hashed or two values are of different kinds. With given uniques these are returned unchecked; codes are the position of the last equal entry; the first value without a code decides between ValueError (not among the uniques) and TypeError (cannot be hashed); check_unknown has no effect. _encode_check_unknown lists each value equal to none of the uniques exactly once and marks the known ones; the list is empty exactly when the mask is all True; anything that cannot be hashed raises TypeError. On strings these are the helpers used by OneHotEncoder and OrdinalEncoder.", "quantifier": "all lists of strings, numbers, None and unhashable objects, over any linearly ordered strings and numbers; all iteration orders of sets; all options", "why_tests_cant": "equality across number types, the arbitrary order of sets and the position of the first offending value cannot be enumerated", "anchors": ["pure_sklearn/preprocessing/_label.py:6-18", "pure_sklearn/preprocessing/_label.py:21-27", "pure_sklearn/preprocessing/_label.py:30-41", "pure_sklearn/preprocessing/_encoders.py:68-97"]}
{"id": "C106", "title": "performance_comparison: report, record used, exceptions, and what slicing does to sparse requests", "statement": "When pickling, loading and both predictions succeed and the clock advances, performance_comparison prints nine lines: sizes, loading times and prediction times, each pair with its quotient. Only the first record of X is used, and both estimators get the same record. Exceptions of the predictions are passed on with the lines printed so far; a table without tolist is refused with AttributeError. A sparse request should be compared as such: false, because a slice of a sparse_list is a plain list of dicts, in which the number of entries stored in the first record passes for the number of columns; linear models then raise ValueError unless that number happens to be right. It should not raise when both estimators work: false, ZeroDivisionError when the clock does not advance during one of the two divisor measurements.", "quantifier": "all outcomes of pickle, the clock and the two estimators; all requests (lists, sparse lists, arrays, tables); any arithmetic", "why_tests_cant": "depends on clock readings and on failures of other libraries, which tests cannot force", "anchors": ["pure_sklearn/utils.py:187-226", "pure_sklearn/utils.py:139-184", "pure_sklearn/utils.py:100-120", "pure_sklearn/linear_model/_base.py:30-48"]}
{"id": "C107", "title": "Error certificates: intervals checked step by step bound the answers of whole objects in double precision", "statement": "Give an interval for every column of the requests and for every intermediate number of an evaluation, each wide enough for the exact result of its step at the ends of its operands and for one rounding error of double precision (half a unit in the last place; one unit for exp and log). Then the converted object answers every request in the box, with probabilities, transformed columns or predicted numbers that are finite and within the certified intervals, and with the certified label where the intervals of the scores do not overlap. In particular rounding errors and input changes within the box cannot change that label, and the probabilities differ from those of exact arithmetic under the same certificate by at most the lengths of the intervals.", "quantifier": "all boxes, all requests in them and all certificates; scalers, linear classifiers with sign, softmax or one-vs-rest probabilities, trees, XGBoost two-class models, constant models, pipelines, weighted unions, ensembles on all or some columns and gradient boosting with any of the three losses, in any nesting; double precision, exact arithmetic and any arithmetic as close", "why_tests_cant": "the worst rounding error over a box of records is not attained at points that tests can find", "anchors": ["pure_sklearn/preprocessing/_data.py:110-219", "pure_sklearn/linear_model/_base.py:30-74", "pure_sklearn/linear_model/_logistic.py:26-44", "pure_sklearn/tree/_classes.py:66-140", "pure_sklearn/ensemble/_bagging.py:35-55", "pure_sklearn/ensemble/_gb.py:53-92", "pure_sklearn/ensemble/_gb_losses.py:20-125", "pure_sklearn/xgboost/_classes.py:70-109", "pure_sklearn/pipeline.py:104-218", "pure_sklearn/base.py:60-110"]}
{"id": "C108", "title": "Units do not matter: fitted in other units, an object answers requests in those units alike", "statement": "Take a fitted object and the same object with its columns coded in another way. In exact arithmetic (infinities and NaN included) a column may change its units, x to factor*x + offset with factor > 0 (for linear models any factor other than 0): scaler means and scales, min_ and scale_, coefficients and intercepts, Gaussian means and variances are then those of the new units. For trees, forests, boosted trees and the imputer any recoding is allowed that keeps the tests or the missing marks, in any arithmetic, double precision included. Both objects convert, and on every dense request with at least one record the second gives to the recoded records the labels, probabilities, log-probabilities or exceptions the first gives to the original ones; transformers give rows that are the same or differ by a stated recoding. With the max norm, and for sums in double precision, the claim is false of the code.", "quantifier": "all pairs of fitted objects of any nesting (pipelines, weighted unions, ensembles on all or some columns, gradient boosting) described by Recode; all dense non-empty requests; all changes of units, for trees all recodings that keep the order", "why_tests_cant": "a relation between two fitted objects over all units and requests; tests fix one unit", "anchors": ["pure_sklearn/preprocessing/_data.py:12-219", "pure_sklearn/linear_model/_base.py:11-74", "pure_sklearn/linear_model/_logistic.py:10-44", "pure_sklearn/tree/_classes.py:43-140", "pure_sklearn/naive_bayes.py:14-100", "pure_sklearn/xgboost/_classes.py:22-109", "pure_sklearn/impute/_base.py:12-167", "pure_sklearn/ensemble/_bagging.py:19-66", "pure_sklearn/ensemble/_gb.py:18-92", "pure_sklearn/pipeline.py:67-218"]}
{"id": "C109", "title": "Joining texts adds their counts and scores", "statement": "Let a CountVectorizer count single words or character n-grams within words (char_wb), with any stop words, lower-casing and accent setting, and let a separator be a character over which lower-casing, normalisation and the token pattern do not reach (for the default pattern: any ASCII character that is no word character). The features of two texts joined by the separator are the features of the first followed by those of the second, so in every column the count of the joined text is the sum of the counts, in either order, and a text repeated n times has n times its counts. Apart from the intercept, the scores of a linear classifier behind the vectorizer add too; with two classes and an intercept that is not positive, two texts of the second class joined are of the second class. With word n-grams the joined text has at least the n-grams of its parts. A fastText sentence vector of a joined text is the mean of the vectors of its parts weighted by their known words. False of the analyzer 'char', of exact equality for word pairs, and of HashingVectorizer, where a text joined with itself gets the row of the text.", "quantifier": "all texts, separators, vocabularies, settings within words; counts in any arithmetic, scores and sentence vectors in exact arithmetic", "why_tests_cant": "an additive law over all pairs of texts; tests compare single texts with scikit-learn", "anchors": ["pure_sklearn/feature_extraction/text.py:34-74", "pure_sklearn/feature_extraction/text.py:137-212", "pure_sklearn/feature_extraction/text.py:276-322", "pure_sklearn/feature_extraction/text.py:351-381", "pure_sklearn/feature_extraction/text.py:474-497", "pure_sklearn/feature_extraction/_hash.py:92-114", "pure_sklearn/linear_model/_base.py:20-57", "pure_fasttext/FastText.py:90-114"]}
{"id": "C110", "title": "Ints and floats, and the signs of zeros", "statement": "Take a converted estimator whose learned numbers are floats: scalers, imputers, linear classifiers, naive Bayes, trees, DummyClassifier, XGBClassifier, or a pipeline, union, bagging, forest or boosting of these. Two requests with equal numbers (a == b), where one has ints and the other floats, get the same labels, probabilities that are floats of the same values, and the same exceptions; dense and sparse. If fitted objects and requests differ only in the signs of zeros, so do the answers (Normalizer included). And the object over the reals with infinities and NaN, on which the other properties are proved, answers as the object over Python's ints, floats and signed zeros. False of Normalizer for ints: [2**600] raises OverflowError under l2 where the equal float gives 0.0, and under l1 ints are summed exactly. Ints are compared exactly in trees, so an int beyond 2**53 may go elsewhere than float() of it.", "quantifier": "all such objects, all requests, every rounding function meeting FP.Sound (double precision among them)", "why_tests_cant": "a relation between two runs for all requests and objects; tests use float arrays only", "anchors": ["pure_sklearn/base.py:8-173", "pure_sklearn/tree/_classes.py:61-140", "pure_sklearn/preprocessing/_data.py:12-107", "pure_sklearn/linear_model/_base.py:20-74", "pure_sklearn/ensemble/_gb.py:50-92", "pure_sklearn/utils.py:92-140"]}
{"id": "C111", "title": "The order of the classes", "statement": "Take a converted classifier and the same classifier fitted with its classes listed in another order: the rows of coefficients, the counts in the leaves, the priors and conditional tables, and the trees of every boosting stage are listed in that order; with two classes, where there is one row of coefficients or one tree per stage, they have the opposite sign. Then predict_proba and predict_log_proba give every class the same number, on every request, dense or sparse, or both raise; and predict gives one of the most likely classes in both, so the same one when a single class is the most likely. Covers logistic regression, SGD, linear classifiers with predict_proba, trees, naive Bayes, DummyClassifier, XGBClassifier, gradient boosting with deviance, bagging and forests, and pipelines ending in these. False of ties (the class listed first wins), of the exponential loss, and of rounded sums.", "quantifier": "all such pairs of objects, all permutations of any number of classes, all requests, real numbers with infinities and NaN", "why_tests_cant": "a relation between two fitted objects for all permutations and all requests; the tests never fit with relabelled classes", "anchors": ["pure_sklearn/linear_model/_base.py:20-74", "pure_sklearn/linear_model/_logistic.py:14-44", "pure_sklearn/linear_model/_stochastic_gradient.py:20-63", "pure_sklearn/tree/_classes.py:73-101", "pure_sklearn/naive_bayes.py:14-136", "pure_sklearn/dummy.py:20-40", "pure_sklearn/ensemble/_gb.py:50-92", "pure_sklearn/ensemble/_gb_losses.py:25-125", "pure_sklearn/ensemble/_bagging.py:20-66", "pure_sklearn/xgboost/_classes.py:40-109"]}
{"id": "C112", "title": "The order of members, stages and rounds", "statement": "Take a converted ensemble (bagging, random forest, extra trees, with or without columns of their own for the members), gradient boosting model or XGBClassifier, alone or at the end of a pipeline or inside an ensemble, and the same object with its members (with their columns), its stages or its rounds listed in another order. Both have the same methods, and on every request, dense or sparse, both give the same probabilities, log-probabilities and labels, or both raise an exception. In double precision this holds of ensembles of two members; with more members the last digits can differ, but no probability by more than 2^-51 times the number of members (plus 2^-1073); the probabilities of a boosting model with two classes differ by at most 2^-53 times the number of trees (and the start score) times the sum of the sizes of the scores added, plus a little more than 2^-49.", "quantifier": "all such pairs of objects at any nesting, all permutations, all requests including malformed ones; exact arithmetic with infinities and NaN, or any arithmetic whose sums do not depend on the order; double precision for two members and for the bound", "why_tests_cant": "a relation between two fitted objects for all permutations and all requests; the tests never reorder a model", "anchors": ["pure_sklearn/ensemble/_bagging.py:12-55", "pure_sklearn/ensemble/_gb.py:53-92", "pure_sklearn/xgboost/_classes.py:70-109", "pure_sklearn/utils.py:1-226", "pure_sklearn/pipeline.py:103-142"]}
{"id": "C113", "title": "Offsets and factors common to all classes cancel", "statement": "Take a converted classifier and the same with an offset or factor common to all classes: all coefficients and intercepts of a linear classifier that only gives labels times a positive number; the same vector added to the coefficients of every class and the same number to every intercept of such a classifier or of a multinomial logistic regression; the numbers in each node of a classification tree times a positive number (counts or shares); all class priors of GaussianNB times a positive number; the same number added to all log-priors of MultinomialNB, any log-priors in a ComplementNB of several classes; the same vector added to the feature log-probabilities of every class; the same number added to the answers of all trees of a stage of gradient boosting with three or more classes or of a round of an XGBClassifier with multi:softprob. Alone, at the end of a pipeline, as a member of an ensemble or as the initial estimator of gradient boosting, both have the same methods and give the same labels, probabilities and log-probabilities on every request (for offsets of coefficients: every request of finite numbers), or both raise an exception.", "quantifier": "all such pairs of objects at any nesting, all offsets and positive factors, all requests including malformed ones (finite ones for offsets of coefficients); exact arithmetic with infinities and NaN", "why_tests_cant": "a relation between two fitted objects for all real offsets and factors and all requests; the tests never compare two models", "anchors": ["pure_sklearn/base.py:10-33", "pure_sklearn/base.py:76-100", "pure_sklearn/linear_model/_base.py:30-74", "pure_sklearn/linear_model/_logistic.py:23-44", "pure_sklearn/naive_bayes.py:20-136", "pure_sklearn/tree/_classes.py:30-140", "pure_sklearn/ensemble/_gb.py:20-92", "pure_sklearn/ensemble/_gb_losses.py:60-125", "pure_sklearn/xgboost/_classes.py:70-109", "pure_sklearn/ensemble/_bagging.py:12-66", "pure_sklearn/pipeline.py:103-142"]}
{"id": "C114", "title": "Of a tree only the function matters", "statement": "Take a converted decision tree (classifier or regressor), XGBClassifier, forest, bagging or gradient boosting model, alone or nested in ensembles and at the end of pipelines, and the same object with its trees drawn differently. If only the nodes are numbered differently (breadth first instead of depth first, nodes that are never reached added or left out), both give the same labels, probabilities, log-probabilities and numbers on every request, dense or sparse, or both raise an exception. If the trees are other trees that send every record with enough columns to the same numbers (a test that decides nothing left out, a test already decided by an earlier one left out, two tests exchanged), this holds on every request whose dense records have enough columns.", "quantifier": "all such pairs of objects at any nesting, all numberings, all trees that are the same function, all requests including malformed ones (with enough columns, where tests differ); any arithmetic, so with all rounding errors, infinities and NaN", "why_tests_cant": "a relation between two fitted objects for all trees and all requests; the tests never compare two models of the same function", "anchors": ["pure_sklearn/tree/_classes.py:16-118", "pure_sklearn/xgboost/_classes.py:46-109", "pure_sklearn/ensemble/_bagging.py:12-66", "pure_sklearn/ensemble/_gb.py:53-92", "pure_sklearn/pipeline.py:103-142"]}
{"id": "C115", "title": "Parts with nothing to do may be left out", "statement": "Take a converted object and the same object without parts that have nothing to do for the requests in question: a pipeline step that is a StandardScaler with centring and scaling switched off or with means 0 and scales 1, a MinMaxScaler or MaxAbsScaler with factors 1 and offsets 0, a SimpleImputer (no indicator, no removed column) for requests without missing values, or a TfidfTransformer with everything switched off; a pipeline around a single step; a pipeline within a pipeline (its steps moved to the outer one); a union around a single transformer that gives dense rows; feature subsets of a bagging ensemble that consist of all columns in order. At any nesting in pipelines (any position), unions, ensembles and boosting models both have the same methods, and on those requests both give the same answer or both raise an exception.", "quantifier": "all objects at any nesting, all such parts, all requests for which the part has nothing to do when they reach it; any arithmetic (for offsets 0 and factors 1: every float, infinities and NaN included), so with all rounding", "why_tests_cant": "a relation between two fitted objects for all requests; the tests never compare a pipeline with a shorter one", "anchors": ["pure_sklearn/pipeline.py:75-142", "pure_sklearn/pipeline.py:162-218", "pure_sklearn/preprocessing/_data.py:132-152", "pure_sklearn/preprocessing/_data.py:176-187", "pure_sklearn/preprocessing/_data.py:211-219", "pure_sklearn/impute/_base.py:131-167", "pure_sklearn/feature_extraction/text.py:421-443", "pure_sklearn/ensemble/_bagging.py:12-55"]}
{"id": "C116", "title": "Averages of averages, and repeated members", "statement": "A converted bagging or forest classifier whose members are themselves ensembles of n members each (no column subsets) answers every request as the one ensemble of all their members does: predict, predict_proba and predict_log_proba agree, or both raise. Listing all members of an ensemble of two or more j times over changes no answer. An ensemble of j copies of one object gives the object's own probabilities to every request with a record. This holds at the end of pipelines, within ensembles (also with column subsets) and as the start of boosting models. With all rounding, an ensemble of a single member gives exactly that member's probabilities, and the member's own exception.", "quantifier": "all numbers and sizes of groups, all repetitions, all members and compositions, all requests; real numbers with infinities and NaN, for the single member any sound rounding", "why_tests_cant": "a relation between pairs of fitted objects for all group sizes and all requests; the tests contain no nested or repeated ensembles", "anchors": ["pure_sklearn/ensemble/_bagging.py:35-55", "pure_sklearn/base.py:104-117", "pure_sklearn/map.py:44-58"]}
{"id": "C117", "title": "A scaler can be folded into what follows", "statement": "A converted pipeline that starts with a fitted StandardScaler (with or without mean and scale), MinMaxScaler or MaxAbsScaler answers every dense request of the fitted width with a record as the pipeline without the scaler whose remaining steps are written for the unscaled columns: predict, predict_proba and predict_log_proba give the same answers or the same exceptions. For a linear classifier behind a StandardScaler the unscaled model has coefficients coef / scale and intercepts intercept - sum(coef * mean / scale); for trees and forests the threshold t becomes scale * t + mean.", "quantifier": "all means and non-zero scales, all numbers of columns, all following steps and their compositions, all dense requests (infinities and NaN included); exact arithmetic", "why_tests_cant": "a relation between pairs of fitted objects for all parameters and all requests; the tests fit and compare single pipelines and never a folded model", "anchors": ["pure_sklearn/preprocessing/_data.py:110-219", "pure_sklearn/linear_model/_base.py:30-57", "pure_sklearn/pipeline.py:83-125", "pure_sklearn/map.py:44-58"]}
{"id": "C118", "title": "Trees that add nothing may be left out, and the learning rate may be put into the leaves", "statement": "Leaving out a stage of a fitted GradientBoostingClassifier whose trees are single leaves with the number zero (another stage stays, the learning rate is finite), leaving out such a round of a fitted XGBClassifier, or multiplying the leaves of all stages by the learning rate and setting the learning rate to 1, gives an object that is converted as well and whose predict, predict_proba and predict_log_proba give exactly the same answers, or raise on the same requests; also inside pipelines and ensembles and as the start of another boosting model. Without any stage every request raises.", "quantifier": "all fitted boosting models and compositions, all positions of the stage or round, all requests (infinities and NaN included); every rounding, so also double precision", "why_tests_cant": "a relation between pairs of fitted objects for all models and all requests, bit for bit; the tests compare a few fitted models with scikit-learn up to a tolerance", "anchors": ["pure_sklearn/ensemble/_gb.py:26-92", "pure_sklearn/xgboost/_classes.py:46-109", "pure_sklearn/tree/_classes.py:104-140", "pure_sklearn/map.py:44-58"]}
{"id": "C119", "title": "Only the direction of a record counts where records are normalised", "statement": "Where a step of a fitted model normalises the records (Normalizer or TfidfTransformer with the norm l1 or l2) and the steps before it only scale columns, or where a linear classifier that gives labels has no intercept, multiplying each record of a request (dense or sparse) by a positive number of its own changes no answer of predict, predict_proba, predict_log_proba or transform, and raises the same exceptions or none; also inside unions and ensembles. Likewise a model over a CountVectorizer or TfidfVectorizer whose counts are then normalised gives the same answers when each document is replaced by any number of copies of itself. In particular, normalising such records beforehand (dense requests of finite numbers, norm l1 or l2, also a norm other than the fitted one) changes no answer.", "quantifier": "all fitted models of this shape, all requests, all positive factors, all numbers of copies; exact arithmetic", "why_tests_cant": "a relation between pairs of requests for all models, factors and numbers of copies; the tests compare single requests with scikit-learn", "anchors": ["pure_sklearn/preprocessing/_data.py:12-107", "pure_sklearn/feature_extraction/text.py:397-443", "pure_sklearn/pipeline.py:75-218", "pure_sklearn/ensemble/_bagging.py:12-55", "pure_sklearn/linear_model/_base.py:30-57", "pure_sklearn/map.py:44-58"]}
{"id": "C120", "title": "A small change of a record changes the probabilities of a linear classifier only a little", "statement": "In double precision, for a fitted LogisticRegression or an SGDClassifier with the logistic loss, and any two records (of the same request or of two, each dense or sparse): with two classes and one-vs-rest no probability returned by predict_proba differs by more than a quarter of the sum of the changes of the columns weighted with the sizes of the coefficients plus the rounding errors of the two scores, and 2^-49 (in multinomial mode a half, and 6*2^-51); with several classes, one-vs-rest or multinomial, by no more than exp(2D)-1, where D bounds the weighted change of every score, and the rounding errors. For every linear classifier (also RidgeClassifier, LinearSVC, Perceptron, PassiveAggressiveClassifier) the label is the same for both records if the winning class leads for the first by more than the scores can change together with the rounding errors. For trees there is no such bound.", "quantifier": "all fitted linear classifiers, all pairs of records, all widths, numbers of classes and sizes of the change", "why_tests_cant": "a bound for all pairs of records and all fitted models; tests compare single requests with a tolerance", "anchors": ["pure_sklearn/linear_model/_base.py:30-74", "pure_sklearn/linear_model/_logistic.py:23-36", "pure_sklearn/linear_model/_stochastic_gradient.py:23-48", "pure_sklearn/base.py:50-173", "pure_sklearn/tree/_classes.py:57-98", "pure_sklearn/map.py:44-58"]}
{"id": "C121", "title": "Conversion depends on a fixed list of attributes and on nothing else", "statement": "For every supported class there is a fixed list of attributes of the fitted object (for a LogisticRegression coef_, classes_, intercept_, multi_class, solver and loss; for a tree classes_ and the five arrays of tree_; for an XGBClassifier six attributes and six columns of the booster's table; and so on) such that two fitted objects of the same build - at any nesting - whose single estimators have the same class and version and agree in these attributes are converted to the same object, or refused with the same exception. Setting any other attribute (hyper-parameters, records of the training) or removing all others changes nothing.", "quantifier": "all fitted objects, all values of all other attributes, all nestings", "why_tests_cant": "the attributes not read and their values are unbounded in number; a test converts the few objects it has fitted", "anchors": ["pure_sklearn/map.py:44-58", "pure_sklearn/linear_model/_base.py:14-28", "pure_sklearn/tree/_classes.py:16-55", "pure_sklearn/preprocessing/_data.py:97-209", "pure_sklearn/preprocessing/_encoders.py:23-34", "pure_sklearn/impute/_base.py:26-101", "pure_sklearn/feature_extraction/text.py:333-472", "pure_sklearn/feature_extraction/_dict_vectorizer.py:18-25", "pure_sklearn/naive_bayes.py:57-129", "pure_sklearn/dummy.py:20-31", "pure_sklearn/xgboost/_classes.py:25-68", "pure_sklearn/pipeline.py:75-176", "pure_sklearn/ensemble/_bagging.py:22-33", "pure_sklearn/ensemble/_gb.py:26-51"]}
{"id": "C122", "title": "A missing attribute anywhere in a fitted object is noticed at conversion", "statement": "For every supported class there is a fixed list of needed attributes (coef_ and classes_ of linear classifiers; tree_ of trees; statistics_, strategy and missing_values of imputers; all options of the vectorizers; and so on). Taking one of them away from one single estimator anywhere in a fitted object that can be converted (in a step of a pipeline or union, a member of a bagging or forest, a tree of a boosting stage, the init_ of gradient boosting, at any depth) makes the conversion of the whole raise AttributeError. Consequently in everything convert_estimator accepts, each single estimator has all the attributes its class needs, so that an unfitted or incomplete part never gets through to a prediction. Everything needed belongs to the attributes that are read (C121). The list is exact: every other attribute that is read may be absent from an object that can be converted, and the object is still converted (DummyClassifier needs one of _strategy and strategy). The objects held in attributes (the tree_ of a tree, the indicator_ of an imputer, the _tfidf of a tf-idf vectorizer) likewise have all the attributes that are read of them.", "quantifier": "all fitted objects, all nestings, all needed attributes, all values of the others", "why_tests_cant": "which part of which composition lacks which attribute is a choice without end; tests convert complete objects", "anchors": ["pure_sklearn/map.py:44-58", "pure_sklearn/linear_model/_base.py:14-28", "pure_sklearn/tree/_classes.py:41-55", "pure_sklearn/preprocessing/_data.py:97-209", "pure_sklearn/preprocessing/_encoders.py:23-34", "pure_sklearn/impute/_base.py:26-101", "pure_sklearn/feature_extraction/text.py:333-472", "pure_sklearn/feature_extraction/_dict_vectorizer.py:18-25", "pure_sklearn/naive_bayes.py:57-129", "pure_sklearn/dummy.py:20-31", "pure_sklearn/xgboost/_classes.py:25-68", "pure_sklearn/pipeline.py:75-176", "pure_sklearn/ensemble/_bagging.py:22-33", "pure_sklearn/ensemble/_gb.py:26-51"]}
{"id": "C123", "title": "Of a booster's table only the rows of the trees that count matter, tree by tree", "statement": "The conversion of an XGBClassifier reads, of the table of trees of its booster, exactly the rows of the trees with numbers below n_estimators (two classes) or n_estimators times the number of classes (otherwise). Two boosters whose tables have the same rows in the same order for each of these trees give the same converted object or the same exception. So trees with higher numbers may be in the table or not, and the trees may be listed in any order with their rows mixed, provided the rows of each tree keep their order. This holds also for XGBClassifiers inside pipelines, unions, bagging and boosting models, at any depth.", "quantifier": "all tables of trees, all cells, all numbers of rounds and classes, all other attributes", "why_tests_cant": "tables with left-over or rearranged trees are unlimited in number; tests use the tables that one version of xgboost prints", "anchors": ["pure_sklearn/xgboost/_classes.py:25-68", "pure_sklearn/tree/_classes.py:16-40", "pure_sklearn/map.py:44-58", "pure_sklearn/pipeline.py:75-176"]}
