{"id": "C01", "title": "Scaling the target is reversible", "statement": "For every target accepted by fit with a continuous likelihood, the values handed to the model are the target divided by the scale of its own series, and multiplying by the same scale gives back exactly the target: forecasts are returned in the units of y, for one series and for panels whose series have different scales. A table of scales given by the user is used by series label, and accepted exactly if every series of the panel has an entry.", "quantifier": "all targets (any number of series, levels, rows, values), all inferred or user-given non-zero scales, all row orders", "why_tests_cant": "a test fixes one frame; a scale taken from the wrong series or applied twice only shows for particular series/scale combinations", "anchors": ["src/prophetverse/sktime/base.py:_set_y_scales", "src/prophetverse/sktime/base.py:_scale_y", "src/prophetverse/sktime/base.py:_inv_scale_y"]}
{"id": "C02", "title": "Every target value and every numeric scale is accepted", "statement": "fit never fails because of the value of the scale: an identically zero series is fitted with scale 1, and a user-given scale may be any non-zero number (an int as well as a float).", "quantifier": "all targets including all-zero ones, all user-given numeric scales, flat and panel data", "why_tests_cant": "the failing inputs are a corner (all zeros; int-typed scale) of an infinite input space", "anchors": ["src/prophetverse/sktime/base.py:_set_y_scales", "src/prophetverse/sktime/base.py:_scale_y"]}
{"id": "C03", "title": "The inferred scale normalises every series", "statement": "When no scale is given, after scaling every value of every series lies in [-1,1], every series that is not identically zero attains absolute value exactly 1, and identically zero panel series stay zero.", "quantifier": "all targets, any number of series of any length", "why_tests_cant": "an all-values statement over arbitrary data", "anchors": ["src/prophetverse/sktime/base.py:_set_y_scales"]}
{"id": "C04", "title": "Changing the unit of y does not change the model and only rescales the forecast", "statement": "For a continuous likelihood, an inferred scale, no lift experiments and no identically zero series, replacing y by c*y with c>0 gives the inference engine exactly the same data, and every forecast sample, point forecast and quantile is multiplied by c.", "quantifier": "all targets, all c>0, all horizons, all engines (inference treated as a function of its data)", "why_tests_cant": "relational property over two runs and all constants", "anchors": ["src/prophetverse/sktime/base.py:_fit", "src/prophetverse/sktime/base.py:predict_samples", "src/prophetverse/sktime/base.py:_inv_scale_y"]}
{"id": "C05", "title": "Count targets are never rescaled", "statement": "With the negative binomial likelihood the observed values handed to the model are y itself, forecast samples are returned as drawn, and the mean of the observation distribution is the positive-mapped additive mean multiplied by the scale, so forecasts are in units of y.", "quantifier": "all targets, scales and effect values", "why_tests_cant": "requires equality for all targets and the composition of two files", "anchors": ["src/prophetverse/sktime/base.py:_scale_y", "src/prophetverse/sktime/base.py:_inv_scale_y", "src/prophetverse/models.py:univariate_negbinomial_model", "src/prophetverse/sktime/univariate.py:_get_fit_data"]}
{"id": "C06", "title": "Each forecast sample is filed under its own series and time", "statement": "predict_samples returns, in the row labelled (series i, time t) and column s, the s-th draw of the observation of series i at time t times the scale of series i, whatever the number of series, horizon length and number of samples, for univariate, single-series and hierarchical models.", "quantifier": "all numbers of series, times, samples; all draws; all scales; all series label orders", "why_tests_cant": "transposition/reshape errors are invisible for square or symmetric test shapes and need all shapes", "anchors": ["src/prophetverse/sktime/base.py:predict_samples", "src/prophetverse/sktime/base.py:periodindex_to_multiindex", "src/prophetverse/models.py:multivariate_model"]}
{"id": "C07", "title": "The point forecast is the mean of the forecast samples", "statement": "predict returns, for every row, the arithmetic mean over samples of the same row of predict_samples, with the same index and the target's column name.", "quantifier": "all sample frames", "why_tests_cant": "holds for all frames", "anchors": ["src/prophetverse/sktime/base.py:_predict"]}
{"id": "C08", "title": "Quantile forecasts are ordered, bounded and correctly labelled", "statement": "For every row, the column labelled alpha holds the alpha-quantile of that row's samples; quantiles are non-decreasing in alpha, lie between the smallest and largest sample, alpha=0 and alpha=1 give the min and max, and a single float alpha is the one-element list.", "quantifier": "all sample frames with at least one sample, all lists of alphas in [0,1]", "why_tests_cant": "monotonicity over all alpha pairs and all samples", "anchors": ["src/prophetverse/sktime/base.py:_predict_quantiles"]}
{"id": "C09", "title": "Forecast index is exactly series x horizon", "statement": "Before aggregation the forecast frame has one row for every pair (bottom series seen in fit, horizon time) and no other row: count N*T, no duplicates when the horizon has none, no aggregate series; for a single flat series it is the horizon itself.", "quantifier": "all training indexes and horizons", "why_tests_cant": "set equality for all indexes", "anchors": ["src/prophetverse/sktime/base.py:periodindex_to_multiindex", "src/prophetverse/sktime/multivariate.py:_filter_series_tuples"]}
{"id": "C10", "title": "Hierarchical forecasts are coherent", "statement": "For HierarchicalProphet, in every sample and in the point forecast, the value of an aggregate series at a time equals the sum of the values of the bottom series below it at that time, and bottom rows are unchanged by aggregation. Every published row has a (series, time) label of its own.", "quantifier": "all hierarchies (depth, width), horizons, samples", "why_tests_cant": "all hierarchies and all sample values", "anchors": ["src/prophetverse/sktime/multivariate.py:predict_samples", "src/prophetverse/sktime/base.py:_predict"]}
{"id": "C11", "title": "predict_all_sites files every site value under its own series and time", "statement": "In the frame returned by predict_all_sites, the entry of a site in the row labelled (series i, time t) is the sample mean of that site for series i at time t, in units of y.", "quantifier": "all sites with one value per (series,time), all numbers of series and times", "why_tests_cant": "layout errors depend on shapes; the hierarchical observation site is stored time-major", "anchors": ["src/prophetverse/sktime/base.py:predict_all_sites", "src/prophetverse/models.py:multivariate_model"]}
{"id": "C12", "title": "Averaging predict_all_sites_samples over samples gives predict_all_sites", "statement": "For every site and row, the mean over the sample level of predict_all_sites_samples equals predict_all_sites.", "quantifier": "all fitted forecasters, horizons, sites", "why_tests_cant": "relational property of two API calls for all scales", "anchors": ["src/prophetverse/sktime/base.py:predict_all_sites", "src/prophetverse/sktime/base.py:predict_all_sites_samples"]}
{"id": "C13", "title": "The component sites add up to the model mean", "statement": "In the units of predict_all_sites the trend site plus all effect sites equals the location of the observation distribution (before the positivity map), for each row and each likelihood, so components can be read as contributions to y.", "quantifier": "all effects, data, scales and likelihoods", "why_tests_cant": "for all numbers of effects and all values", "anchors": ["src/prophetverse/models.py:_compute_mean_univariate", "src/prophetverse/sktime/base.py:predict_all_sites", "src/prophetverse/models.py:univariate_negbinomial_model"]}
{"id": "C14", "title": "Extra prediction methods keep the series label for panels", "statement": "When a univariate forecaster is fitted on a panel, predict_samples / predict_all_sites return rows from which the series of every value can be told.", "quantifier": "all panels with at least two series", "why_tests_cant": "all panels", "anchors": ["src/prophetverse/sktime/base.py:_vectorize_predict_method"]}
{"id": "C15", "title": "Every exogenous column reaches the model", "statement": "Each column of X is given to at least one effect: to every explicit effect whose regex matches it, and, if none matches, to the default effect; the default effect gets exactly the unmatched columns, in alphabetical order, and exists iff there is one; an explicit effect gets exactly its matching columns in X's column order.", "quantifier": "all column sets, effect lists and regexes", "why_tests_cant": "partition property over arbitrary effect lists and regexes", "anchors": ["src/prophetverse/sktime/base.py:_fit_effects", "src/prophetverse/sktime/base.py:_match_columns"]}
{"id": "C16", "title": "Overlapping and empty selections are reported, never fatal", "statement": "fit emits an 'already set' warning for an effect iff one of its columns was already taken by an earlier effect, and a 'no columns match' warning iff it has none; in either case all effects are still fitted in the given order.", "quantifier": "all column sets, effect lists and regexes", "why_tests_cant": "iff over all lists", "anchors": ["src/prophetverse/sktime/base.py:_fit_effects"]}
{"id": "C17", "title": "With distinct names every effect is used exactly once and with its own data", "statement": "If effect names are distinct (and differ from the default effect's reserved name) the model applies every non-skipped fitted effect exactly once, in order, each to the data produced by that same effect from its own columns.", "quantifier": "all effect lists", "why_tests_cant": "dictionary collapse on equal names is an all-lists property", "anchors": ["src/prophetverse/sktime/base.py:_transform_effects", "src/prophetverse/sktime/base.py:non_skipped_exogenous_effect", "src/prophetverse/models.py:_compute_mean_univariate"]}
{"id": "C18", "title": "Effects without matching columns contribute nothing, unless they need none", "statement": "An effect whose regex matches no column is left out of the model exactly when its type needs input columns; seasonality, trend and lift effects are kept, also when the forecaster is given no X at all.", "quantifier": "all effect types, column sets and X=None", "why_tests_cant": "decision logic over all combinations", "anchors": ["src/prophetverse/effects/base.py:should_skip_predict", "src/prophetverse/sktime/base.py:non_skipped_exogenous_effect", "src/prophetverse/sktime/univariate.py:_get_fit_data"]}
{"id": "C19", "title": "Column order of X is irrelevant at prediction time", "statement": "If X at predict has the columns seen at fit in any order and possibly extra ones, an effect receives the same array as with the fit-time order; if one is missing the call fails with a key error instead of using another column; transform before fit is an error.", "quantifier": "all frames, column permutations and supersets", "why_tests_cant": "all permutations", "anchors": ["src/prophetverse/effects/base.py:transform", "src/prophetverse/effects/base.py:fit"]}
{"id": "C20", "title": "Row k of an effect's data is the k-th time of the horizon", "statement": "If X has a strictly increasing time index per series that covers the horizon (extra past or future rows allowed), then for every series the k-th row given to an effect is the row of X at the k-th horizon time.", "quantifier": "all X, horizons, numbers of series, amounts of extra rows", "why_tests_cant": "alignment must hold for all index/horizon pairs", "anchors": ["src/prophetverse/effects/base.py:transform", "src/prophetverse/utils/frame_to_array.py:series_to_tensor_or_array"]}
{"id": "C21", "title": "Missing exogenous rows are an error, not a shifted forecast", "statement": "If X does not contain some horizon time, predicting fails; values are never silently moved to another time.", "quantifier": "all X and horizons with at least one uncovered time", "why_tests_cant": "all incomplete frames", "anchors": ["src/prophetverse/effects/base.py:predict", "src/prophetverse/sktime/multivariate.py:_get_predict_data"]}
{"id": "C22", "title": "Additive effects add x, multiplicative effects add trend*x", "statement": "With effect_mode additive the effect's contribution is its raw value; with multiplicative it is trend times raw value, element by element; any other mode is a ValueError, when a linear, logarithmic or Hill effect is constructed and when a seasonality (whose constructor takes anything) is fitted, and a missing trend is an error.", "quantifier": "all trends, raw values, modes, constructor arguments", "why_tests_cant": "all arrays", "anchors": ["src/prophetverse/effects/base.py:BaseAdditiveOrMultiplicativeEffect", "src/prophetverse/effects/fourier.py:LinearFourierSeasonality"]}
{"id": "C23", "title": "Order of built-in effects does not matter", "statement": "For effects that read nothing but the trend (all built-in ones) and distinct names other than 'trend', permuting exogenous_effects leaves the model mean unchanged.", "quantifier": "all finite effect lists and all permutations", "why_tests_cant": "all permutations of all lists", "anchors": ["src/prophetverse/models.py:_compute_mean_univariate", "src/prophetverse/effects/base.py:BaseAdditiveOrMultiplicativeEffect"]}
{"id": "C24", "title": "An effect sees the trend and exactly the effects before it", "statement": "The k-th effect is evaluated with a dictionary holding the trend and the values of effects 1..k-1 under their names and nothing else, and the mean is trend plus the sum of all effects.", "quantifier": "all effect lists, including custom effects", "why_tests_cant": "induction over the list", "anchors": ["src/prophetverse/models.py:_compute_mean_univariate"]}
{"id": "C25", "title": "fit does not modify the user's exogenous effect objects", "statement": "After any sequence of fits and predictions the effect objects passed by the user (explicit and default) are in the state the user left them in; refitting therefore starts from the same configuration.", "quantifier": "all histories of fit/predict on any number of forecasters sharing effect objects", "why_tests_cant": "histories", "anchors": ["src/prophetverse/sktime/base.py:_fit_effects"]}
{"id": "C26", "title": "Forecasters do not interfere through shared configuration objects", "statement": "Fitting or predicting with another forecaster never changes the predictions of a fitted forecaster, even if both were configured with the same trend, effect or transformer objects.", "quantifier": "all interleavings of operations on any number of forecasters", "why_tests_cant": "interleavings/histories", "anchors": ["src/prophetverse/sktime/base.py:_get_trend_model", "src/prophetverse/sktime/univariate.py:_get_fit_data", "src/prophetverse/sktime/multivariate.py:_get_fit_data"]}
{"id": "C27", "title": "Hill effect is a saturating increasing response", "statement": "For non-negative input and positive parameters the Hill effect is between 0 and max_effect, is non-decreasing in the input, equals max_effect/2 at half_max and is 0 at input 0.", "quantifier": "all inputs >= 0, all positive parameters", "why_tests_cant": "real-valued inequality for all parameters", "anchors": ["src/prophetverse/effects/hill.py:_predict", "src/prophetverse/utils/algebric_operations.py:_exponent_safe"]}
{"id": "C28", "title": "Log effect is well defined and monotone", "statement": "For every input and rate the log effect is defined; it is 0 at input 0, equals scale*log(rate*x+1) for x>=0, is non-decreasing in x and non-negative for x>=0 when scale, rate are positive.", "quantifier": "all inputs and parameters", "why_tests_cant": "real-valued inequality for all parameters", "anchors": ["src/prophetverse/effects/log.py:_predict"]}
{"id": "C29", "title": "Linear effect is the inner product of features and coefficients", "statement": "At every (series, time) the raw linear effect is sum_j x_j*beta_j with the same beta for all rows; it is linear in beta and in the data; with all features zero it is zero.", "quantifier": "all arrays (2-d and 3-d) and coefficient vectors", "why_tests_cant": "all shapes", "anchors": ["src/prophetverse/effects/linear.py:_predict", "src/prophetverse/utils/algebric_operations.py:matrix_multiplication"]}
{"id": "C30", "title": "Lift-experiment wrapper changes the likelihood only", "statement": "Wrapping an effect returns exactly the wrapped effect's value; the extra likelihood term involves exactly the horizon dates with a lift result, comparing the effect with the result divided by the series scale; dates without result contribute nothing.", "quantifier": "all inner effects, lift tables, horizons and scales", "why_tests_cant": "all tables and horizons", "anchors": ["src/prophetverse/effects/lift_experiment.py:_transform", "src/prophetverse/effects/lift_experiment.py:_predict"]}
{"id": "C31", "title": "A refitted seasonality effect behaves like a new one", "statement": "Fitting a Fourier seasonality effect and then transforming gives the same result whatever data it had been fitted on before; transforming an unfitted effect raises the documented ValueError.", "quantifier": "all fit histories", "why_tests_cant": "histories", "anchors": ["src/prophetverse/effects/fourier.py:_fit", "src/prophetverse/effects/fourier.py:__init__"]}
{"id": "C32", "title": "Trend time starts at 0 and ends at n-1 on the training data", "statement": "For any strictly increasing training index with n>=2 times, the internal trend time is a strictly increasing affine function of the date mapping the first training time to 0 and the last to n-1; on an equally spaced index the i-th time maps to i, also for horizon times beyond the end.", "quantifier": "all training indexes and horizon times", "why_tests_cant": "all indexes", "anchors": ["src/prophetverse/effects/trend/base.py:_fit", "src/prophetverse/effects/trend/base.py:_index_to_scaled_timearray", "src/prophetverse/utils/frame_to_array.py:convert_index_to_days_since_epoch"]}
{"id": "C33", "title": "The trend does not depend on the calendar origin or sampling unit", "statement": "Shifting all dates by a constant, or changing the frequency of an equally spaced index, leaves trend times, changepoints and the changepoint design matrix unchanged.", "quantifier": "all shifts (whole seconds), all rescalings, all indexes", "why_tests_cant": "relational", "anchors": ["src/prophetverse/effects/trend/base.py:_fit", "src/prophetverse/effects/trend/piecewise.py:_setup_changepoints"]}
{"id": "C34", "title": "Changepoints are the multiples of the interval inside the range", "statement": "With a positive interval the changepoints of each series are exactly the multiples k*interval, k>=0, below the range limit; they are strictly increasing, the first is 0, and fit fails with ValueError iff there is none.", "quantifier": "all intervals, ranges, training lengths, per-series lists", "why_tests_cant": "all parameters", "anchors": ["src/prophetverse/effects/trend/piecewise.py:_get_changepoint_timeindexes", "src/prophetverse/effects/trend/piecewise.py:_setup_changepoints"]}
{"id": "C35", "title": "changepoint_range selects the documented part of the history", "statement": "A float r in [0,1] puts changepoints in the first fraction r of the history, a positive int m in the first m points, a negative int -m before the last m points.", "quantifier": "all ranges and histories", "why_tests_cant": "boundary values 0 and 1 of a real parameter", "anchors": ["src/prophetverse/effects/trend/piecewise.py:_get_changepoint_timeindexes"]}
{"id": "C36", "title": "Changepoint design entries are zero before and ramp after the changepoint", "statement": "The design entry of time t and changepoint c is t-c+1 for t>=c and 0 for t<c.", "quantifier": "all real times and changepoints", "why_tests_cant": "all reals", "anchors": ["src/prophetverse/effects/trend/piecewise.py:_get_changepoint_matrix"]}
{"id": "C37", "title": "The trend is linear between changepoints and beyond the last one", "statement": "Between two times not separated by a changepoint the trend changes by (sum of coefficients of changepoints passed)*(time difference); in particular the forecast continues the last slope.", "quantifier": "all coefficient vectors, offsets, changepoints, times", "why_tests_cant": "all reals", "anchors": ["src/prophetverse/effects/trend/piecewise.py:_predict", "src/prophetverse/effects/trend/piecewise.py:_get_changepoint_matrix"]}
{"id": "C38", "title": "Series have independent trends", "statement": "In a multi-series model the trend of series i at time t is offset_i plus the ramps of series i's own changepoints weighted by its own coefficients; coefficients, changepoints and offsets of other series have no influence.", "quantifier": "all numbers of series, changepoints per series, coefficients", "why_tests_cant": "block-mask indexing over all shapes", "anchors": ["src/prophetverse/effects/trend/piecewise.py:_get_multivariate_changepoint_matrix", "src/prophetverse/effects/trend/piecewise.py:_predict"]}
{"id": "C39", "title": "Flat trend is constant with the announced prior", "statement": "The flat trend has the same value at every time, one row per time, and its prior has mean equal to the mean of the training target and standard deviation equal to changepoint_prior_scale.", "quantifier": "all targets with positive mean, all scales, all horizons", "why_tests_cant": "algebra over reals, all lengths", "anchors": ["src/prophetverse/effects/trend/flat.py"]}
{"id": "C40", "title": "Logistic trend stays strictly between 0 and its capacity", "statement": "For positive capacity the logistic trend is in (0, capacity), is increasing in the linear predictor, and equals capacity/2 where that is 0.", "quantifier": "all reals", "why_tests_cant": "all reals", "anchors": ["src/prophetverse/effects/trend/piecewise.py:PiecewiseLogisticTrend._predict"]}
{"id": "C41", "title": "Suggested logistic rate and offset interpolate first and last observation", "statement": "The suggested (rate k, offset m) satisfy capacity/(1+exp(-(k*t+m))) = y at the first and the last training time of every series with 0<y<capacity.", "quantifier": "all series, times, capacities", "why_tests_cant": "transcendental identity for all reals and all series counts", "anchors": ["src/prophetverse/effects/trend/piecewise.py:_suggest_logistic_rate_and_offset"]}
{"id": "C42", "title": "Suggested linear rate and offset interpolate first and last observation", "statement": "The suggested linear rate and offset satisfy rate*t+offset = y at the first and last training time of every series, and the suggested rate is the prior location of the first changepoint coefficient.", "quantifier": "all series and times", "why_tests_cant": "for all data", "anchors": ["src/prophetverse/effects/trend/piecewise.py:_suggest_global_trend_and_offset", "src/prophetverse/effects/trend/piecewise.py:_get_changepoint_prior_vectors"]}
{"id": "C43", "title": "Changepoint priors line up with changepoints", "statement": "The prior location and scale vectors have exactly one entry per changepoint, in series order, and every changepoint of series i gets series i's prior scale (or the common scalar).", "quantifier": "all numbers of series, changepoints, scales", "why_tests_cant": "all shapes", "anchors": ["src/prophetverse/effects/trend/piecewise.py:_get_changepoint_prior_vectors", "src/prophetverse/effects/trend/piecewise.py:_to_list_if_scalar"]}
{"id": "C44", "title": "Positive likelihoods always get a positive mean", "statement": "The map applied to the mean for Gamma and negative binomial is positive for every real, leaves values at or above the threshold unchanged, is continuous at the threshold and non-decreasing; so with positive noise and scale every observation gets valid distribution parameters, whatever the additive mean.", "quantifier": "all reals", "why_tests_cant": "all reals", "anchors": ["src/prophetverse/models.py:_to_positive"]}
{"id": "C45", "title": "Gamma likelihood has the requested mean and standard deviation", "statement": "The Gamma distribution built from loc, scale > 0 has valid (positive) parameters, mean loc and variance scale^2.", "quantifier": "all positive loc, scale", "why_tests_cant": "algebra over reals", "anchors": ["src/prophetverse/distributions.py:GammaReparametrized"]}
{"id": "C46", "title": "Multivariate noise has the sampled standard deviations and correlation", "statement": "In the multivariate model the observation covariance of series i and j is std_i*std_j*R_ij where R is the sampled correlation matrix, and it is a valid (symmetric positive definite) covariance.", "quantifier": "all dimensions, stds, correlation factors", "why_tests_cant": "matrix identity in all dimensions", "anchors": ["src/prophetverse/models.py:multivariate_model"]}
{"id": "C47", "title": "A diverged MAP optimisation is reported", "statement": "If the last loss of the MAP optimisation is NaN, fit raises MAPInferenceEngineError and does not produce posterior samples; otherwise it succeeds.", "quantifier": "all loss sequences", "why_tests_cant": "all sequences", "anchors": ["src/prophetverse/engine.py:raise_error_if_nan_loss", "src/prophetverse/engine.py:infer"]}
{"id": "C48", "title": "Per-level expansion keeps the data and isolates series", "statement": "After expansion, the column of (feature f, series i) equals f on rows of series i and 0 on all other rows; summing the expanded columns of f gives f back; other columns and the rows are unchanged and the original f is gone.", "quantifier": "all panels, features and series label tuples with distinct generated names", "why_tests_cant": "all panels", "anchors": ["src/prophetverse/sktime/_expand_column_per_level.py:transform"]}
{"id": "C49", "title": "shared_features are not expanded", "statement": "In HierarchicalProphet every column listed in shared_features stays one column with one shared coefficient, every other feature is expanded per series.", "quantifier": "all column names and shared sets", "why_tests_cant": "depends on prefix relations between arbitrary names", "anchors": ["src/prophetverse/sktime/multivariate.py:_get_fit_data", "src/prophetverse/sktime/_expand_column_per_level.py:fit"]}
{"id": "C50", "title": "Different (feature, series) pairs get different columns", "statement": "The generated column names are distinct for distinct pairs (feature, series identifier).", "quantifier": "all names and identifier tuples", "why_tests_cant": "injectivity over all strings", "anchors": ["src/prophetverse/sktime/_expand_column_per_level.py:get_col_name"]}
{"id": "C51", "title": "Expansion does not depend on hash order", "statement": "The values under every name of the expanded frame do not depend on the iteration order of the set of matched columns, so results are reproducible across processes.", "quantifier": "all iteration orders", "why_tests_cant": "schedules (set iteration order is randomised per process)", "anchors": ["src/prophetverse/sktime/_expand_column_per_level.py:transform"]}
{"id": "C52", "title": "Selecting the bottom series undoes aggregation", "statement": "Taking the bottom series of an aggregated hierarchy gives back exactly the original rows; rows of aggregate series and only those are dropped; flat data is unchanged.", "quantifier": "all hierarchies without reserved labels", "why_tests_cant": "all hierarchies", "anchors": ["src/prophetverse/utils/multiindex.py:loc_bottom_series", "src/prophetverse/utils/multiindex.py:get_bottom_series_idx", "src/prophetverse/utils/multiindex.py:get_multiindex_loc"]}
{"id": "C53", "title": "Panel to tensor conversion is faithful and rejects ragged panels", "statement": "The tensor has shape (series, times, columns), entry (i,t,c) is column c of the t-th row of the i-th series in order of appearance; it fails with ValueError iff two series have different lengths.", "quantifier": "all panels", "why_tests_cant": "all shapes", "anchors": ["src/prophetverse/utils/frame_to_array.py:series_to_tensor", "src/prophetverse/utils/multiindex.py:iterate_all_series"]}
{"id": "C54", "title": "Reindexing in time keeps the set of series", "statement": "Replacing the time index of a panel yields exactly the series already present, each with exactly the new times.", "quantifier": "all panels and new time indexes", "why_tests_cant": "only fails on non-crossed hierarchies", "anchors": ["src/prophetverse/utils/multiindex.py:reindex_time_series"]}
{"id": "C55", "title": "Exogenous series and target series are matched by label", "statement": "In the hierarchical model the effect computed from X's rows of series i is added to the trend of series i.", "quantifier": "all row orders of X and y", "why_tests_cant": "all permutations of series order", "anchors": ["src/prophetverse/sktime/multivariate.py:_get_fit_data", "src/prophetverse/utils/frame_to_array.py:series_to_tensor"]}
{"id": "C56", "title": "exact(name) selects exactly that column", "statement": "The pattern built by exact(s) matches the column name s and no other.", "quantifier": "all strings s and column names", "why_tests_cant": "for all strings, including metacharacters", "anchors": ["src/prophetverse/utils/regex.py:exact", "src/prophetverse/sktime/base.py:_match_columns"]}
{"id": "C57", "title": "starts_with(prefixes) selects exactly the columns with one of the prefixes", "statement": "The pattern built by starts_with matches a column name iff it starts with one of the given prefixes; a single string is the one-element list.", "quantifier": "all prefix lists and column names", "why_tests_cant": "for all strings and lists, including the empty list and metacharacters", "anchors": ["src/prophetverse/utils/regex.py:starts_with"]}
{"id": "C58", "title": "no_input_columns selects no named column", "statement": "The no_input_columns pattern matches no non-empty column name, and an effect declared with regex None gets no columns.", "quantifier": "all column names", "why_tests_cant": "for all strings", "anchors": ["src/prophetverse/utils/regex.py:no_input_columns", "src/prophetverse/sktime/base.py:_match_columns"]}
{"id": "C59", "title": "Constructors reject exactly the invalid hyperparameters", "statement": "Constructing a forecaster raises ValueError iff one of the checked hyperparameters is non-positive, the trend is neither a known name nor an effect, or the likelihood is unknown.", "quantifier": "all hyperparameter values", "why_tests_cant": "iff over all reals", "anchors": ["src/prophetverse/sktime/base.py:_validate_hyperparams", "src/prophetverse/sktime/univariate.py:_validate_hyperparams", "src/prophetverse/sktime/multivariate.py:_validate_hyperparams"]}
{"id": "C60", "title": "A constructed forecaster always finds its trend, model and engine", "statement": "For every forecaster that passes construction the trend name resolves to a trend model and the likelihood to a model function; fit raises ValueError for exactly the inference methods other than mcmc and map.", "quantifier": "all configurations", "why_tests_cant": "agreement of two independent tables for all configurations", "anchors": ["src/prophetverse/sktime/base.py:_get_trend_model", "src/prophetverse/sktime/base.py:_fit", "src/prophetverse/sktime/univariate.py:model"]}
{"id": "C61", "title": "seasonal_transformer honours its switches", "statement": "Yearly terms are generated iff yearly_seasonality is True or a non-zero int, with 10 terms for True and n for int n; the same for weekly with 3; other types raise ValueError; periods and term counts stay paired.", "quantifier": "all argument values", "why_tests_cant": "all values", "anchors": ["src/prophetverse/sktime/seasonality.py:seasonal_transformer"]}
{"id": "C62", "title": "Setting nested effect parameters keeps names, order and regexes", "statement": "Replacing the effects through the estimator interface (set_params with effect__param) keeps the number, order and regex of all effects.", "quantifier": "all effect lists", "why_tests_cant": "all lists", "anchors": ["src/prophetverse/sktime/base.py:_exogenous_effects"]}
{"id": "C63", "title": "Predicting is read-only and repeatable", "statement": "After fit, any number and order of prediction calls (predict, samples, quantiles, all sites) leaves later predictions unchanged: the same call returns the same result every time.", "quantifier": "all histories of prediction calls", "why_tests_cant": "histories", "anchors": ["src/prophetverse/sktime/base.py:predict_samples", "src/prophetverse/engine.py:predict"]}
{"id": "C64", "title": "Refitting forgets the past", "statement": "The predictions after fit(y) are those of a freshly constructed forecaster fitted on y, whatever was fitted before.", "quantifier": "all histories of fit/predict calls before the last fit", "why_tests_cant": "histories", "anchors": ["src/prophetverse/sktime/base.py:_fit", "src/prophetverse/sktime/base.py:_get_trend_model"]}
{"id": "C65", "title": "Runs are reproducible", "statement": "Two forecasters with the same configuration and data give the same predictions; with no rng_key a fixed key is used for inference and prediction.", "quantifier": "all configurations and data", "why_tests_cant": "relational over all inputs", "anchors": ["src/prophetverse/sktime/base.py:_fit", "src/prophetverse/engine.py:InferenceEngine"]}
{"id": "C66", "title": "X may extend beyond the training period", "statement": "Rows of X after the last training time do not influence fitting: fit with X and fit with X restricted to the training times give the model the same data (no feature transformer).", "quantifier": "all X supersets of the training index", "why_tests_cant": "relational over all supersets", "anchors": ["src/prophetverse/sktime/univariate.py:_get_fit_data", "src/prophetverse/effects/base.py:transform"]}
{"id": "C68", "title": "The multivariate likelihood compares each observation with its own mean", "statement": "In the hierarchical model the observation of series i at time t is compared with the mean of series i at time t (trend plus effects), with several series as well as with a single one, and predictive draws are laid out the same way.", "quantifier": "all numbers of series and times, all mean values", "why_tests_cant": "all shapes; a transposition bug is invisible for square or symmetric data", "anchors": ["src/prophetverse/models.py:multivariate_model", "src/prophetverse/utils/frame_to_array.py:series_to_tensor_or_array"]}
{"id": "C69", "title": "Precomputed aggregates and the order of the series in y do not matter", "statement": "Fitting the hierarchical forecaster on a target containing only bottom series, or on one that also contains aggregate (__total) rows, with the series listed in any order, gives the model the same training and prediction data and, for the same draws, the same sample forecasts, for trends and effects that do not look at the scale (all built-in trends and the default effect).", "quantifier": "all panels with every series at the same times, all orders of the series, with or without aggregate rows, user-given or inferred scale, all horizons", "why_tests_cant": "relational over all pairs of targets with the same bottom series", "anchors": ["src/prophetverse/sktime/base.py:_fit", "src/prophetverse/sktime/multivariate.py:_get_fit_data", "src/prophetverse/sktime/multivariate.py:predict_samples"]}
{"id": "C70", "title": "Predicting the training period uses the design of the training period", "statement": "After fit(y, X), asking for predictions at the training times with the same X hands the model exactly the trend and effect data it was trained on, so for the same parameters the in-sample mean is the training mean; for univariate and hierarchical forecasters, with X or without X.", "quantifier": "all targets and exogenous tables, all lists of effects that keep only the requested dates, any trend, all parameter values", "why_tests_cant": "fit and prediction build their tables on different code paths; equality is needed for all inputs", "anchors": ["src/prophetverse/sktime/univariate.py:_get_fit_data", "src/prophetverse/sktime/univariate.py:_get_predict_data", "src/prophetverse/sktime/multivariate.py:_get_fit_data", "src/prophetverse/sktime/multivariate.py:_get_predict_data"]}
{"id": "C71", "title": "The forecast for a date does not depend on the other dates requested", "statement": "For given parameters, the mean forecast of one series at a date is a fixed function of that date and of the exogenous values at that date: it is the same whichever other dates are requested and whatever X contains at other dates.", "quantifier": "all horizons containing the date, all X covering the horizon, all parameter values; piecewise linear, logistic and flat trends, linear, log and Hill effects", "why_tests_cant": "relational over all pairs of horizons and tables", "anchors": ["src/prophetverse/sktime/univariate.py:_get_predict_data", "src/prophetverse/effects/base.py:transform", "src/prophetverse/models.py:_compute_mean_univariate"]}
{"id": "C67", "title": "A feature transformer is the same as transforming X beforehand", "statement": "A forecaster with a feature transformer behaves in fit and predict like the same forecaster without it, given the already transformed X.", "quantifier": "all transformers, targets and exogenous tables, all horizons", "why_tests_cant": "relational over all transformers", "anchors": ["src/prophetverse/sktime/univariate.py:_get_fit_data", "src/prophetverse/sktime/univariate.py:_get_predict_data", "src/prophetverse/sktime/multivariate.py:_get_fit_data", "src/prophetverse/sktime/multivariate.py:_get_predict_data"]}
{"id": "C72", "title": "A column used in fit and missing in predict is an error", "statement": "If the X given to predict lacks a column of the X given to fit, or X is left out, the forecaster raises an error; it never forecasts as if the column were zero.", "quantifier": "all fitted forecasters, univariate and hierarchical, all columns and tables", "why_tests_cant": "all incomplete tables and configurations, shared and per-series columns", "anchors": ["src/prophetverse/effects/base.py:transform", "src/prophetverse/sktime/univariate.py:_get_predict_data", "src/prophetverse/sktime/multivariate.py:_get_predict_data", "src/prophetverse/sktime/_expand_column_per_level.py:transform"]}
{"id": "C73", "title": "Effects for a single series refuse panels", "statement": "An effect type made for one series (log, Hill, lift) raises ValueError when fitted on exogenous data with several series, so a hierarchical forecaster containing one cannot be fitted; on single-series data no effect is refused for this reason.", "quantifier": "all effects, all exogenous tables, all lists of effects", "why_tests_cant": "all configurations, including effects that match no column", "anchors": ["src/prophetverse/effects/base.py:fit", "src/prophetverse/sktime/base.py:_fit_effects"]}
{"id": "C74", "title": "A series' forecast depends on its own rows of X only", "statement": "In the hierarchical forecaster, with the same fitted parameters, the mean of a bottom series at a date is determined by the row of X for that series and that date: two tables (and two horizons) that agree on this row give the same mean there, whatever they contain for other series and other dates. The trend and the effects of one series never read another series' exogenous values.", "quantifier": "all fitted hierarchical forecasters with piecewise linear or logistic trends and row-wise effects, all parameter values, all pairs of exogenous tables and horizons", "why_tests_cant": "noninterference between all pairs of tables; a mix-up of rows shows only for particular shapes and values", "anchors": ["src/prophetverse/sktime/multivariate.py:_get_predict_data", "src/prophetverse/sktime/_expand_column_per_level.py:transform", "src/prophetverse/utils/frame_to_array.py:series_to_tensor", "src/prophetverse/effects/linear.py:_predict", "src/prophetverse/effects/trend/piecewise.py:_predict"]}
{"id": "C75", "title": "Every unknown of the model has its own name", "statement": "With effects called by distinct names, fitting never fails because of a name, and the fitted parameters are exactly those of the trend, those of each effect (marked with the effect's name) and those of the likelihood: no parameter is lost or shared, even between effects of the same type. The contribution of the trend and of each effect is recorded under its own name.", "quantifier": "all trends, both forecasters, all lists of effects of any types and length, all names", "why_tests_cant": "a clash shows only for particular names or combinations of effects, and then silently: one value overwrites another", "anchors": ["src/prophetverse/models.py:_compute_mean_univariate", "src/prophetverse/models.py:univariate_model", "src/prophetverse/models.py:multivariate_model", "src/prophetverse/effects/linear.py:_predict", "src/prophetverse/effects/lift_experiment.py:_predict", "src/prophetverse/effects/trend/piecewise.py:_predict"]}
{"id": "C76", "title": "The parameters of one effect act on that effect only", "statement": "Changing the parameter values of one effect, in any way, leaves the trend and the contributions of all other effects exactly as they were, additive or multiplicative, before or after it in the list. Every trend and effect depends only on the parameters it declares.", "quantifier": "all models with effects that use the trend at most, all parameter values, all data", "why_tests_cant": "noninterference over all parameter values and lists of effects", "anchors": ["src/prophetverse/models.py:_compute_mean_univariate", "src/prophetverse/effects/base.py:predict", "src/prophetverse/effects/linear.py:_predict", "src/prophetverse/effects/log.py:_predict", "src/prophetverse/effects/hill.py:_predict"]}
{"id": "C77", "title": "Univariate forecasters treat the series of a panel separately", "statement": "Fitted on a panel of series, a univariate forecaster returns for each series exactly the forecasts (or quantiles, components, samples) of a forecaster fitted on that series and its own rows of X alone. Rows of X of other series, additional series in X and the order of the series in X make no difference.", "quantifier": "all panels with any number of series and index levels, all X, all horizons, all prediction methods", "why_tests_cant": "noninterference between series over all panels and exogenous tables", "anchors": ["src/prophetverse/sktime/base.py:_vectorize_predict_method", "src/prophetverse/sktime/base.py:predict_all_sites", "src/prophetverse/utils/multiindex.py:get_multiindex_loc"]}
{"id": "C78", "title": "Forecasts do not depend on the calendar origin or the unit of time", "statement": "If all dates in the targets, the exogenous variables and the horizons are shifted by the same number of whole seconds (or integer steps), or the time axis is stretched by a positive factor, every call has the same outcome as before and every forecast, quantile, sample and component has the same values, on the changed dates. This holds for any trend and for linear, log and Hill effects; for a seasonality if the shift leaves its Fourier features unchanged; for feature transformers that do not look at the dates.", "quantifier": "all histories of calls on any number of univariate and hierarchical forecasters, all data, all horizons, all increasing affine changes of the dates", "why_tests_cant": "equivariance of the whole pipeline over all data and all changes of the time axis", "anchors": ["src/prophetverse/utils/frame_to_array.py:convert_index_to_days_since_epoch", "src/prophetverse/effects/trend/base.py:_fit", "src/prophetverse/effects/trend/piecewise.py:_fit", "src/prophetverse/sktime/base.py:fit", "src/prophetverse/sktime/multivariate.py:_get_fit_data"]}
{"id": "C79", "title": "The piecewise linear trend has no jumps", "statement": "As a function of the date the piecewise linear trend is continuous: approaching a changepoint the level approaches the level at the changepoint, and only the slope changes there.", "quantifier": "all targets, changepoints, coefficients and dates, also between the dates of the training data", "why_tests_cant": "continuity is a statement about all dates; tests forecast on the grid of the training data, where the jump cannot be seen", "anchors": ["src/prophetverse/effects/trend/piecewise.py:_get_changepoint_matrix", "src/prophetverse/effects/trend/piecewise.py:_predict"]}
{"id": "C80", "title": "Steps of the horizon are counted from the last training date", "statement": "A horizon of whole steps means the dates that many periods after the last date of the training target: every prediction method returns for the steps what it returns for those dates. For a hierarchical forecaster the last date is taken over all series, for a univariate forecaster on a panel each series counts from its own last date. The order in which the values are given does not matter, positive steps lie after all training dates, and an empty horizon or a repeated value is rejected without side effects.", "quantifier": "all histories, horizons, calendars, targets and prediction methods", "why_tests_cant": "a few horizons on one calendar cannot show it for all; labels and design are resolved by different code paths", "anchors": ["src/prophetverse/sktime/base.py:fh_to_index", "src/prophetverse/sktime/multivariate.py:_get_predict_data", "src/prophetverse/sktime/univariate.py:_get_predict_data"]}
{"id": "C81", "title": "Prophet, ProphetGamma and ProphetNegBinomial are Prophetverse with a fixed likelihood", "statement": "For all arguments, Prophet(args), ProphetGamma(args) and ProphetNegBinomial(args) are configured as Prophetverse(args, likelihood=...) with the likelihood of the class; arguments that are left out have the documented defaults (in particular trend='linear'), and all classes can be constructed without arguments.", "quantifier": "all argument lists", "why_tests_cant": "twenty arguments are forwarded by hand in three classes; a forgotten or swapped one shows only for particular values", "anchors": ["src/prophetverse/sktime/univariate.py:Prophet", "src/prophetverse/sktime/univariate.py:ProphetGamma", "src/prophetverse/sktime/univariate.py:ProphetNegBinomial"]}
{"id": "C82", "title": "optimizer_name and the other engine settings do what they say and nothing else", "statement": "MAP inference runs the optimizer named by optimizer_name with optimizer_kwargs (default: Adam with step size 1e-4), for every name; an optimizer that does not exist makes fit raise; optimizer settings have no influence on MCMC fits and MCMC settings none on MAP fits.", "quantifier": "all names, keyword arguments, settings, data and prediction calls", "why_tests_cant": "absence of influence for all settings", "anchors": ["src/prophetverse/sktime/base.py:optimizer", "src/prophetverse/sktime/base.py:_fit", "src/prophetverse/engine.py:infer"]}
{"id": "C83", "title": "A fitted model can be inspected", "statement": "After fit, var_names lists the random variables of the model, site_names the sites of the posterior, and after an MCMC fit plot_trace plots them.", "quantifier": "all fitted forecasters", "why_tests_cant": "needs an argument about every path that sets the attributes", "anchors": ["src/prophetverse/sktime/base.py:var_names", "src/prophetverse/sktime/base.py:plot_trace", "src/prophetverse/engine.py:MCMCInferenceEngine"]}
{"id": "C84", "title": "Seasonality is a pattern of the date that repeats, is bounded and averages out", "statement": "The contribution of a fitted LinearFourierSeasonality at a date does not depend on the values in X or on the other dates asked for. It is the same (for multiplicative effects: relative to the trend) at dates that are a whole number of seasons apart, is never larger in size than the sum of the sizes of the coefficients, and adds up to zero over consecutive periods that make up whole seasons. In a panel every series has its own pattern, made with its own coefficients.", "quantifier": "all seasons and numbers of terms accepted, all training data, all horizons, all coefficient values", "why_tests_cant": "all horizons and all coefficient values; trigonometric sums over arbitrary seasons", "anchors": ["src/prophetverse/effects/fourier.py:_fit", "src/prophetverse/effects/fourier.py:_transform", "src/prophetverse/effects/fourier.py:_predict", "src/prophetverse/sktime/_expand_column_per_level.py:_transform"]}
{"id": "C85", "title": "The parameters are inferred from the posterior of the documented model", "statement": "The log density that fit optimizes or samples from is the sum of one log prior density per parameter of the trend, of every effect and of the noise, and one log likelihood term per training date. Each likelihood term is the density of the scaled observation under the chosen likelihood, centred at the model mean of that date: the trend plus the contributions of the effects for that date, and nothing else enters. Each prior is the one the user passed for that parameter, or the default of the class. Adding one observation changes the likelihood by exactly that observation's term.", "quantifier": "all training sets, all likelihoods, all lists of effects, all priors and all parameter values", "why_tests_cant": "the density is a function on the whole parameter space; tests can only evaluate fitted points and cannot see a missing or doubled term", "anchors": ["src/prophetverse/models.py:univariate_model", "src/prophetverse/models.py:univariate_gamma_model", "src/prophetverse/models.py:univariate_negbinomial_model", "src/prophetverse/models.py:_compute_mean_univariate", "src/prophetverse/effects/linear.py:_predict", "src/prophetverse/effects/log.py:_predict", "src/prophetverse/effects/hill.py:_predict", "src/prophetverse/effects/lift_experiment.py:_predict", "src/prophetverse/effects/trend/flat.py:_predict", "src/prophetverse/effects/trend/piecewise.py:_predict"]}
{"id": "C86", "title": "The order in which effects are listed is irrelevant for the fit", "statement": "Listing the same exogenous effects in another order leaves the posterior log density of every parameter value unchanged, when the effects do not read one another's contribution. So the optimum and the posterior distribution do not depend on the order.", "quantifier": "all permutations of all lists of distinctly named effects that read at most the trend, all training data, all parameter values", "why_tests_cant": "all permutations and a function on the whole parameter space", "anchors": ["src/prophetverse/models.py:_compute_mean_univariate", "src/prophetverse/models.py:univariate_model", "src/prophetverse/effects/base.py:predict"]}
{"id": "C87", "title": "Documented defaults of effects and trends are the ones used", "statement": "Leaving out an argument of an effect or trend whose default is documented gives the same model as passing the documented value (LinearEffect: prior Normal(0, 1), multiplicative; LinearFourierSeasonality: prior scale 1, additive; FlatTrend: 0.1; PiecewiseLinearTrend and PiecewiseLogisticTrend: offset prior scale 0.1, squeezing and removal of seasonality on), and an argument that is passed is used.", "quantifier": "all combinations of arguments given and left out, all values", "why_tests_cant": "the prior only shifts the posterior; a test that fits and compares numbers cannot tell which prior was meant", "anchors": ["src/prophetverse/effects/linear.py:__init__", "src/prophetverse/effects/fourier.py:__init__", "src/prophetverse/effects/trend/piecewise.py:__init__", "src/prophetverse/effects/trend/flat.py:__init__"]}
{"id": "C88", "title": "The prediction methods of one fitted forecaster agree with each other", "statement": "After any history of calls, if fit(y, X) returned and predict_samples answers for some horizon and X, then predict and predict_quantiles answer for the same horizon and X, for the same rows: predict gives the mean of the samples of each row in a column named like the target, predict_quantiles the quantiles of the samples of each row. For a single series the rows are the dates of the horizon in order, the model was trained on the target divided by one number (1 for counts), and the samples are the model's draws multiplied by that number. For a hierarchy the table has exactly the non-aggregate series of y and aggregates, and every aggregate is the sum of the series below it in the same table, for the samples and for the point forecasts.", "quantifier": "all histories of calls on any number of forecasters with shared objects, all training data, horizons and X, all inference results", "why_tests_cant": "quantifies over histories, data and the output of inference", "anchors": ["src/prophetverse/sktime/base.py:predict_samples", "src/prophetverse/sktime/base.py:_predict", "src/prophetverse/sktime/base.py:_predict_quantiles", "src/prophetverse/sktime/multivariate.py:predict_samples", "src/prophetverse/sktime/base.py:_fit"]}
{"id": "C89", "title": "Removing seasonality before suggesting initial values makes the trend prior blind to seasonality", "statement": "With remove_seasonality_before_suggesting_initial_vals=True (the default) the prior of the trend's offset is centred, for every series, at the value of the least squares line through that series at its first training date: at the first observation if the series lies on a straight line. Adding to the target a pattern that sums to zero over the training dates of a series and is uncorrelated with time there changes nothing at all in the fitted trend. With False the prior is centred at the first observation of every series.", "quantifier": "all training data (single series and panels), all patterns, all trend parameters", "why_tests_cant": "all data and all patterns; optimality over all lines", "anchors": ["src/prophetverse/effects/trend/piecewise.py:_setup_changepoint_prior_vectors", "src/prophetverse/effects/trend/piecewise.py:_suggest_global_trend_and_offset"]}
{"id": "C90", "title": "The hierarchical forecaster fits one joint normal model over all series", "statement": "The log density the hierarchical forecaster is fitted with, at any admissible parameter values, is the sum of the log priors of the trend, of every effect, of the standard deviations (one half-normal per series) and of the correlation matrix, plus one joint normal term per training date over all series, in which every series has its own mean: its own trend plus its own effects at that date. No other term enters and no date or series is counted twice. With uncorrelated series the joint term is a product over the series. With a single series the likelihood is that of the univariate normal model.", "quantifier": "all training panels, all effects and trends computed per series and date, all parameter values with positive standard deviations and a valid correlation factor", "why_tests_cant": "all parameter values and all data; tests evaluate the model at a handful of samples and cannot compare densities", "anchors": ["src/prophetverse/models.py:multivariate_model", "src/prophetverse/sktime/multivariate.py:HierarchicalProphet"]}
{"id": "C91", "title": "Forecasts come from the posterior learned from the training data", "statement": "After fit(y, X) has returned, predict, predict_quantiles, predict_samples, predict_all_sites and predict_all_sites_samples draw from the posterior of the model called with exactly this target: with inference_method='map' from the parameters the optimisation on it ended with (whose last loss is a number, otherwise fit raises), with 'mcmc' from the samples NUTS drew on it; with the forecaster's own key (24 if none was given) and settings. The model is called with the fitted trend and effects it was trained with and without a target, so predictions cannot depend on future observations. A prediction of a fitted forecaster can only fail while preparing the exogenous data, drawing or converting the draws; it never fails for lack of something fit should have stored.", "quantifier": "all forecasters, univariate and hierarchical, all targets and exogenous data, all histories of calls before fit, all prediction methods and horizons, both inference methods", "why_tests_cant": "inference is expensive and random, so tests only check that predictions exist; that they are drawn from the right posterior is a statement about all executions", "anchors": ["src/prophetverse/sktime/base.py:BaseBayesianForecaster._fit", "src/prophetverse/sktime/base.py:BaseBayesianForecaster.predict_samples", "src/prophetverse/engine.py:MAPInferenceEngine", "src/prophetverse/engine.py:MCMCInferenceEngine"]}
{"id": "C92", "title": "An exogenous table without columns is the same as no table", "statement": "For HierarchicalProphet, passing an X without columns to fit or to any prediction method has exactly the same effect and result as passing no X, whatever rows the table has.", "quantifier": "all hierarchical forecasters, all histories, all targets, all tables without columns, all prediction methods and horizons", "why_tests_cant": "equality of executions for all configurations and row sets", "anchors": ["src/prophetverse/sktime/multivariate.py:_get_fit_data", "src/prophetverse/sktime/multivariate.py:_get_predict_data"]}
{"id": "C93", "title": "A table and its dates become aligned arrays", "statement": "convert_dataframe_to_tensors returns two arrays with the same series and the same rows: at every position the first has the date and the second the values of the same row of the table, panels with series of different length are refused with ValueError. convert_index_to_days_since_epoch maps the start of the k-th day after 1970-01-01 to k, never reverses two dates, keeps dates at least a second apart distinct and is exact on whole seconds.", "quantifier": "all tables, panel or not, all columns; all dates", "why_tests_cant": "index arithmetic for all shapes; all dates, before and after the epoch", "anchors": ["src/prophetverse/utils/frame_to_array.py:convert_dataframe_to_tensors", "src/prophetverse/utils/frame_to_array.py:extract_timetensor_from_dataframe", "src/prophetverse/utils/frame_to_array.py:convert_index_to_days_since_epoch"]}
{"id": "C94", "title": "For a given noise level the additive model has one best fit", "statement": "For a forecaster with piecewise linear trend, additive linear effects with log-concave priors and normal likelihood, the log posterior that fit maximises or samples from is a concave function of offset, changepoint coefficients and effect coefficients for every fixed noise level. If the priors are strictly log-concave (the default is), two parameter vectors that both have the largest density agree in offset, effect coefficients and the trend at all training dates, and also in the changepoint coefficients if some training date lies between any two changepoints, and there are parameters with the largest density: the result of maximum a posteriori inference for a noise level does not depend on the starting point or the optimizer.", "quantifier": "all training tables, all changepoint parameters, all sets of additive linear effects, all noise levels", "why_tests_cant": "a test sees one optimisation run; concavity and uniqueness are statements about all parameter vectors", "anchors": ["src/prophetverse/models.py:univariate_model", "src/prophetverse/effects/linear.py", "src/prophetverse/effects/trend/piecewise.py", "src/prophetverse/engine.py:MAPInferenceEngine"]}
{"id": "C95", "title": "Trend, seasonality and regressors add up to the forecast and the posterior they describe", "statement": "For a forecaster of one series with a piecewise linear trend, any number of Fourier seasonalities and any number of linear effects (each additive or multiplicative), the forecast at a date is the trend at that date plus every seasonality (its coefficients times the sine and cosine waves of the number of steps since the first training date) plus every linear effect (its coefficients times its columns of X at that date), multiplicative ones times the trend. With a single season of length sp and n terms the seasonality is the Fourier series sum over k=1..n of a_k sin(2 pi k i/sp) + b_k cos(2 pi k i/sp). Without X the forecast is trend plus seasonalities, in the order of the horizon. The log density that fit uses is the sum of the log priors of offset, changepoints, all coefficients (normal around zero for a seasonality) and noise, and the log likelihood of every training row given that same formula.", "quantifier": "all training tables, horizons, changepoint parameters, lists of seasonalities and linear effects, modes, priors and parameter values", "why_tests_cant": "tests run single effects or look at shapes of a whole forecast; that the parts combine to this formula for every set of effects, every date and every parameter value is not a finite check", "anchors": ["src/prophetverse/sktime/univariate.py", "src/prophetverse/models.py:univariate_model", "src/prophetverse/effects/fourier.py", "src/prophetverse/effects/linear.py", "src/prophetverse/effects/trend/piecewise.py"]}
{"id": "C96", "title": "Turning the target upside down, or raising it by a constant, does the same to the forecast", "statement": "For a forecaster of one series with piecewise linear trend, seasonalities, linear effects and normal likelihood: fitting the negated target succeeds or fails exactly as fitting the target does (same exception), and negating offset, changepoint coefficients and coefficients of the additive effects maps the parameters of the one model one-to-one to those of the other, keeping the log posterior and negating the forecast at every date with all its components, provided the priors of additive linear effects are symmetric. If all effects are additive, raising the target by a constant raises offset, trend and forecast by this constant and keeps everything else. The best fit to the changed target is therefore the changed best fit. Internally the negated target gets the same scale, and with a scale given by the user a raised target stays a raised target in original units.", "quantifier": "all training tables and exceptions, all horizons and X, all parameters, noise levels, seasonalities and linear effects, all constants", "why_tests_cant": "an equivariance of the posterior over all parameter vectors; a test compares two noisy inference runs", "anchors": ["src/prophetverse/effects/trend/piecewise.py", "src/prophetverse/models.py:univariate_model", "src/prophetverse/sktime/univariate.py", "src/prophetverse/sktime/base.py:_set_y_scales"]}
{"id": "C97", "title": "Coefficients that the training data say nothing about follow their prior", "statement": "For a forecaster of one series with piecewise linear trend, seasonalities and linear effects, changing the coefficients of an effect in a way that leaves its contribution at all training dates the same changes the log posterior by the log prior of the coefficients only. So in a best fit for a noise level the coefficients have the largest prior among all that give the same contributions in training: a column that is zero at all training dates (an event that has not happened yet) gets the mean of its normal prior as coefficient, and two columns that agree at all training dates get equal coefficients if the prior is strictly log-concave. A column whose coefficient is zero does not enter the forecast, whatever its values in the forecasting horizon.", "quantifier": "all training tables, effects, priors, noise levels, likelihoods, best fits and future values of X", "why_tests_cant": "a statement about all parameter vectors that agree on the training data and about all future values of a column; a test sees one noisy fit", "anchors": ["src/prophetverse/models.py:univariate_model", "src/prophetverse/effects/linear.py", "src/prophetverse/effects/fourier.py", "src/prophetverse/sktime/univariate.py"]}
{"id": "C98", "title": "Valid data can always be fitted and forecast", "statement": "A forecaster of one series with piecewise linear trend (positive changepoint interval and range), seasonalities with at most sp/2 terms and linear effects can be fitted to every table with at least two dates in increasing order and features for each of these dates: fit prepares its data without an exception. If the priors are continuous and proper, there are parameters with the largest log posterior for every noise level. For every horizon and every X with a row for each date and the columns of the training data, predict prepares its data without an exception and, for all parameters of the right sizes, computes a forecast with exactly one value per requested date.", "quantifier": "all training tables with at least two dates, all valid parameters, horizons, future X and parameter values", "why_tests_cant": "the absence of exceptions and shape errors for all sizes of data, changepoint grids, sets of columns and horizons is not a finite check", "anchors": ["src/prophetverse/sktime/univariate.py", "src/prophetverse/sktime/base.py", "src/prophetverse/effects/trend/piecewise.py", "src/prophetverse/effects/fourier.py", "src/prophetverse/effects/linear.py", "src/prophetverse/effects/base.py"]}
{"id": "C99", "title": "Maximum a posteriori inference has an answer exactly when the data cannot be fitted without error", "statement": "For a forecaster of one series with normal likelihood, piecewise linear trend, additive seasonalities and linear effects and continuous proper priors, parameters with the largest log posterior - over all values of all parameters and all positive noise levels - exist if and only if no parameters reproduce the training target exactly. If some do, the log posterior exceeds every bound as the noise level shrinks, whatever the priors and the modes of the effects. A constant training target is always such a case, so for constant series the optimisation of fit has no solution to find. With the negative binomial likelihood, by contrast, best parameters exist for every non-negative target that is not all zero, exact fit or not, with effects of any mode.", "quantifier": "all training tables, features, priors, prior scales and parameter values", "why_tests_cant": "existence of a maximum over an unbounded set of parameters, and divergence of the objective, cannot be observed in finitely many optimisation steps", "anchors": ["src/prophetverse/engine.py", "src/prophetverse/models.py", "src/prophetverse/sktime/univariate.py", "src/prophetverse/effects/trend/piecewise.py"]}
{"id": "C100", "title": "The posterior that MCMC samples from is a probability distribution, unless the data are fitted without error", "statement": "For a forecaster of one series with normal likelihood, piecewise linear trend, additive seasonalities and linear effects, and priors with an integrable density: if no parameters reproduce the training target exactly, the joint density of data and parameters is defined for all parameter values and has a finite positive integral over all parameters and all positive noise levels, so the posterior exists. If some parameters reproduce the target exactly (a constant target always is such a case) and there are more dates than parameters, the integral is infinite and there is no posterior distribution to sample from. With the negative binomial likelihood the posterior exists for every non-negative target and effects of any mode. For a panel, given noise levels and a correlation, the posterior of the parameters of the means exists for every target and effects of any mode.", "quantifier": "all training tables, features, priors and prior scales", "why_tests_cant": "finiteness of an integral over all parameters cannot be observed on sampled parameters; a sampler run on an improper posterior still returns numbers", "anchors": ["src/prophetverse/engine.py", "src/prophetverse/models.py", "src/prophetverse/sktime/univariate.py", "src/prophetverse/effects/trend/piecewise.py"]}
{"id": "C101", "title": "A smaller prior scale never gives larger coefficients, and coefficients vanish with the scale", "statement": "Fit the same data twice with maximum a posteriori inference, changing only the prior scale of one seasonality or linear effect with a normal prior. The fit with the smaller scale has the smaller coefficients for that effect (sum of squares) and fits the data and the remaining priors no better. Changing only changepoint_prior_scale, the fit with the smaller scale has the smaller total change of growth rate (sum of absolute values). This holds for every likelihood, every effect mode and whether the noise level is fitted or given. For a given noise level (normal likelihood, or negative binomial and counts) the sum of squares of the effect is at most a constant times the squared scale and the total change of growth rate at most a constant times changepoint_prior_scale, so that the effect disappears and the trend becomes a straight line when the scale goes to zero.", "quantifier": "all training tables, features, configurations, pairs of prior scales and best fits", "why_tests_cant": "a test compares two scales on one data set with an optimiser that need not reach the optimum; the claim is about the optima for every data set and every pair of scales", "anchors": ["src/prophetverse/models.py", "src/prophetverse/effects/fourier.py", "src/prophetverse/effects/linear.py", "src/prophetverse/effects/trend/piecewise.py", "src/prophetverse/sktime/univariate.py"]}
{"id": "C102", "title": "Observations are centred on the model's mean with the announced spread", "statement": "For every likelihood and every value of the parameters, the distribution of an observation given the parameters is a probability distribution. Its mean is the value of the mean site (for Gamma and negative binomial: at least a small positive number, and for counts times the scale). Its standard deviation is the noise scale for the normal and Gamma likelihoods; for counts the variance is the mean plus its square divided by noise scale times scale. For the hierarchical forecaster the observations of one date have the mean of the model and the covariance described in C46. The normal, Laplace, half-normal and Gamma priors of trend, effects and noise have total mass one.", "quantifier": "all means, noise scales, scales, standard deviations and correlation factors", "why_tests_cant": "integrals and infinite sums over all observations, for all parameters", "anchors": ["src/prophetverse/models.py", "src/prophetverse/distributions.py", "src/prophetverse/effects/trend/piecewise.py", "src/prophetverse/effects/trend/flat.py"]}
{"id": "C103", "title": "Settings can be read back, cloned and changed", "statement": "After constructing any forecaster, effect, trend or the column expander, get_params returns the arguments that were passed and the documented defaults for the others (priors left out or None are their default distributions). clone gives an object with the same attributes, and set_params(name=value) gives what the constructor gives with that value in place of the old one. The likelihood of Prophet, ProphetGamma and ProphetNegBinomial is the one of the class, whatever the arguments.", "quantifier": "all classes of the package, all arguments, all parameters set", "why_tests_cant": "tests clone a few configurations; an argument that is lost on cloning shows only for a value different from the default", "anchors": ["src/prophetverse/sktime/base.py", "src/prophetverse/sktime/univariate.py", "src/prophetverse/sktime/multivariate.py", "src/prophetverse/effects", "src/prophetverse/effects/trend/piecewise.py"]}
{"id": "C104", "title": "Misspelled and missing settings are rejected", "statement": "A keyword argument that is not documented for a class is an error when the object is constructed; it is never silently ignored. Constructing an object without an argument that has no default is an error too.", "quantifier": "all classes of the package, all arguments, all undocumented names", "why_tests_cant": "infinitely many names", "anchors": ["src/prophetverse/sktime/base.py", "src/prophetverse/sktime/univariate.py", "src/prophetverse/sktime/multivariate.py", "src/prophetverse/effects", "src/prophetverse/effects/trend/piecewise.py"]}
{"id": "C105", "title": "After update, forecasts are about the dates they are labelled with", "statement": "After fit and any number of update calls without refitting (update_params=False), every prediction method gives for a date what it gave for that date right after fit; steps of the horizon count from the last date seen, so step k gives the forecast for the k-th date after it. update with refitting gives what a newly constructed forecaster fitted on all the data gives. Fitting, updating and asking another forecaster, which shares neither trend object nor transformer, changes none of its forecasts.", "quantifier": "all forecasters, data, sequences of updates without new series, prediction methods, horizons, exogenous variables", "why_tests_cant": "tests call predict right after fit; the effect of later observations on the meaning of a step needs all update sequences", "anchors": ["src/prophetverse/sktime/base.py", "src/prophetverse/sktime/univariate.py", "src/prophetverse/sktime/multivariate.py"]}
{"id": "C106", "title": "What-if: changing one effect's columns changes the forecast by exactly that effect's contribution", "statement": "If two predict calls of a fitted forecaster, with the same parameters, give values of X at a date that differ only in the columns of one effect, then the forecasts for that date differ by exactly the difference of that effect's component; trend and all other components are unchanged, whatever the horizons and other dates of the two calls are. Multiplying the columns of a linear effect by k multiplies its component by k. Setting the columns of an effect to zero removes it: its component becomes 0 and the forecast drops by its previous component.", "quantifier": "all models with effects computed row by row (linear, log, Hill and user effects of that kind), parameters, pairs of tables X and horizons, dates", "why_tests_cant": "needs all pairs of tables; users read components as what would be lost without the effect, which no example establishes", "anchors": ["src/prophetverse/effects/base.py", "src/prophetverse/effects/linear.py", "src/prophetverse/effects/log.py", "src/prophetverse/effects/hill.py", "src/prophetverse/models.py", "src/prophetverse/sktime/univariate.py"]}
{"id": "C107", "title": "More spend never lowers the forecast", "statement": "With non-negative coefficients, scales, rates and maxima (and a non-negative trend if an effect is multiplicative), raising values of X at a date never lowers the forecast for it. In a panel with linear effects, raising values of X for a series at a date never lowers its forecast for it, and what X holds for other series and dates plays no role for that forecast.", "quantifier": "all models made of linear, log and Hill effects, such parameters, pairs of tables with one at least the other and non-negative values, dates; all valid regular panels with linear effects", "why_tests_cant": "a statement about all pairs of tables and all parameters of a sign", "anchors": ["src/prophetverse/effects/linear.py", "src/prophetverse/effects/log.py", "src/prophetverse/effects/hill.py", "src/prophetverse/utils/algebric_operations.py", "src/prophetverse/models.py", "src/prophetverse/sktime/multivariate.py:HierarchicalProphet"]}
{"id": "C108", "title": "Returns diminish", "statement": "With such parameters, and slopes of Hill effects at most 1, mixing two tables of X gives at least the same mixture of the two forecasts at every date: spreading a budget is never worse than the average of the two extremes. For models with linear effects only both are equal.", "quantifier": "all models made of linear, log and Hill effects, parameters, pairs of tables with positive values, mixing weights in [0, 1], dates", "why_tests_cant": "concavity is a statement about all pairs of inputs and all weights", "anchors": ["src/prophetverse/effects/log.py", "src/prophetverse/effects/hill.py", "src/prophetverse/effects/linear.py", "src/prophetverse/models.py"]}
{"id": "C109", "title": "Names, order and grouping of effects do not matter", "statement": "Renaming the effects of a forecaster, listing them in another order, or dividing the columns of X differently between linear effects of the same mode and prior (including the default effect) changes neither the posterior nor the forecasts: to all parameters of one model correspond parameters of the other that are exactly as probable and forecast the same, and best fits correspond to best fits.", "quantifier": "all forecasters with a piecewise linear trend, seasonalities and linear effects, regexes, tables, likelihoods, parameters, horizons", "why_tests_cant": "an equivalence of two optimisation problems over all parameters and all ways of dividing columns; numerical optimisers stop at slightly different points", "anchors": ["src/prophetverse/sktime/base.py", "src/prophetverse/effects/linear.py", "src/prophetverse/effects/fourier.py", "src/prophetverse/models.py"]}
{"id": "C110", "title": "The unit of a regressor does not matter if the prior is stated in the same unit", "statement": "Multiplying the columns of a linear effect by k and dividing location and scale of its normal prior by k divides the best coefficients by k and changes no forecast.", "quantifier": "all forecasters with a piecewise linear trend, seasonalities and linear effects, k ≠ 0, tables, likelihoods, horizons", "why_tests_cant": "equality of two arg max over all parameters, for all k and data", "anchors": ["src/prophetverse/effects/linear.py", "src/prophetverse/sktime/base.py", "src/prophetverse/models.py"]}
{"id": "C111", "title": "Point forecasts are right on average and their sampling error shrinks with the number of draws", "statement": "predict averages simulated observations. If these are independent draws from the observation distribution at the inferred parameters, the point forecast for a series and date has the expected value scale times the mean of the model (averaged over posterior draws), its variance is scale^2 times the average observation variance divided by the number of draws, and deviations of more than eps have at most the probability variance/eps^2. For counts the expected value is the mean of the model times the scale of the counts.", "quantifier": "all fitted forecasters, likelihoods, numbers of draws, horizons, parameter values, scales; any probability space for the draws", "why_tests_cant": "a statement about expectations and probabilities; a test sees one realisation for one seed", "anchors": ["src/prophetverse/sktime/base.py:_predict", "src/prophetverse/sktime/base.py:predict_samples", "src/prophetverse/models.py"]}
{"id": "C112", "title": "A prediction interval contains the announced share of the simulated futures", "statement": "For probabilities a <= b, the interval between the two columns of predict_quantiles contains, in every row, more than (b-a)(n-1)-1 of the n samples that predict_samples returns for that row; fewer than 1+a(n-1) samples lie below it and fewer than 1+(1-b)(n-1) above it.", "quantifier": "all fitted forecasters, horizons, tables, probabilities, numbers of samples and sample values (ties included)", "why_tests_cant": "a count over arbitrary sample values, with off-by-one errors hidden unless the number of samples and the probabilities hit a grid point", "anchors": ["src/prophetverse/sktime/base.py:_predict_quantiles", "src/prophetverse/sktime/base.py:predict_samples"]}
{"id": "C113", "title": "Every valid regular panel can be fitted and forecast", "statement": "HierarchicalProphet with a piecewise linear trend and linear effects accepts every panel in which each series has a row per date (aggregates included or not), at least two dates, and no X, an empty X or a regular X: fit does not raise, the log posterior is defined for all parameter values of the right sizes, and forecasts of every later (or earlier) horizon for which the regressors are given are defined, with one mean per bottom series and date.", "quantifier": "all regular panels, hierarchies, settings with positive changepoint interval and range, numbers of effects, shared or per-series coefficients, regressors, horizons", "why_tests_cant": "absence of exceptions over all panels and settings; tests run a handful of hierarchies", "anchors": ["src/prophetverse/sktime/multivariate.py:_get_fit_data", "src/prophetverse/sktime/multivariate.py:_get_predict_data", "src/prophetverse/effects/trend/piecewise.py"]}
{"id": "C114", "title": "A panel has a best fit, and only one if effects are additive", "statement": "For every valid regular panel and any given noise levels and correlation, some parameter values maximise the posterior density of HierarchicalProphet, so MAP estimation has something to converge to. If all effects are additive and the coefficient priors strictly log-concave (the default Normal is), the log posterior is concave, and the offsets, the effect coefficients and the trend of each series at the training dates are the same for all maximisers; so are the changepoint coefficients if a training date lies between any two changepoints of a series.", "quantifier": "all regular panels, hierarchies, settings with positive scales, regressors, noise levels, correlation factors", "why_tests_cant": "existence and uniqueness of an optimum over a continuum of parameters; a test sees one run of one optimiser", "anchors": ["src/prophetverse/models.py:multivariate_model", "src/prophetverse/sktime/multivariate.py:_get_fit_data", "src/prophetverse/effects/trend/piecewise.py"]}
{"id": "C115", "title": "Regressors of a panel act through the coefficients of their own series", "statement": "After fit on any valid regular panel, the forecast HierarchicalProphet makes for a series at a date is the trend of that series plus the effects, where an effect sums coefficient times value over its columns: a shared column enters with one coefficient for all series, every other column with a coefficient of its own for each series. Raising a regressor of one series at one date by d therefore changes its forecast there by d times that coefficient (times the trend for multiplicative effects). Column names must not match shared columns when read as patterns, and names of copies must not collide.", "quantifier": "all regular panels, horizons, tables of regressors, parameter values, settings", "why_tests_cant": "relates every cell of every forecast to every table of regressors; tests look at shapes or single numbers", "anchors": ["src/prophetverse/sktime/multivariate.py:_get_predict_data", "src/prophetverse/sktime/_expand_column_per_level.py", "src/prophetverse/effects/linear.py"]}
{"id": "C116", "title": "Series of a panel that share nothing do not influence each other", "statement": "With no shared columns, additive linear effects and uncorrelated noise, the best fit of one series of a panel (its offset, the coefficients of its regressors, its trend) depends on the history and regressors of that series alone: two panels with the same series and dates that agree on one series, whatever the other series hold, give it the same estimates and, from the same future regressors, the same forecasts. This holds at training dates always, and at every date when a training date lies between any two changepoints.", "quantifier": "all pairs of regular panels agreeing on a series, all settings, all strictly concave priors, all noise levels", "why_tests_cant": "compares optima of two different fits over all histories of the other series; tests run one fit", "anchors": ["src/prophetverse/sktime/multivariate.py:_get_fit_data", "src/prophetverse/models.py:multivariate_model", "src/prophetverse/sktime/_expand_column_per_level.py", "src/prophetverse/effects/trend/piecewise.py"]}
{"id": "C117", "title": "Beyond the history, forecasts continue the last trend: a line, or a curve that saturates", "statement": "With changepoints inside the history, the piecewise linear trend of one series follows one line at all dates from the last training date on; its slope per average step between training dates is the sum of all coefficients. With the same regressor values at two such dates, forecasts of additive models differ by exactly what the trend differs, and forecasts of multiplicative models are the same multiple of the trend. The logistic trend stays strictly between 0 and the capacity at all dates; from the last training date on it rises to the capacity if the coefficients have a positive sum, falls to 0 if it is negative, and is constant if it is 0. A changepoint_range that counts further than the history places changepoints after it, where the trend can still bend.", "quantifier": "all histories of one series, all horizons however far, all parameter values, all regressors", "why_tests_cant": "a statement about unboundedly distant dates and limits; tests forecast a few steps", "anchors": ["src/prophetverse/effects/trend/piecewise.py", "src/prophetverse/sktime/univariate.py", "src/prophetverse/models.py"]}
{"id": "C118", "title": "Forecasters with saturating effects work on valid data, exactly if each such effect has one column", "statement": "A forecaster with a piecewise linear or logistic trend and linear, log and Hill effects of either mode can be fitted to every single series with at least two dates (logistic trends: the values the initial values are read off, which are the least squares line through the targets for trend=\"logistic\" and the targets themselves without detrending, are positive, or their first and last lie below a given capacity), and every horizon whose features have the dates and columns can be forecast for all parameters of the right sizes, one value per date. This requires that every log or Hill effect that takes part has exactly one column: with several columns the model cannot be evaluated, on the training data already.", "quantifier": "all valid series, regressors, horizons, regular expressions that compile, parameter values", "why_tests_cant": "quantifies over all valid inputs and all parameter values the sampler may visit; the failure is an error inside inference for some regular expressions", "anchors": ["src/prophetverse/effects/log.py", "src/prophetverse/effects/hill.py", "src/prophetverse/effects/base.py", "src/prophetverse/effects/trend/piecewise.py", "src/prophetverse/sktime/univariate.py"]}
{"id": "C119", "title": "Lift tests add one normal term per test to the fit, pull the fit towards the tests, and touch forecasts only through the parameters", "statement": "Wrapping effects of a univariate forecaster in LiftExperimentLikelihood leaves the model as it is except for the log density that is fitted: for all parameters it is that of the forecaster without tests plus, for every tested effect and every training date with a test, the normal log density of the measured lift, divided by the scale of the target, around the contribution of the effect at that date with standard deviation prior_scale. Tests on other dates change nothing. Compared to the best fit without tests of an effect, the best fit with them is at least as close to the tests (in squared differences) and fits everything else no better; a smaller prior_scale brings it closer still, and as prior_scale tends to zero the tests are met as closely as the effect can meet them at finite cost. For the same parameters the forecaster with tests forecasts exactly what the one without forecasts. Every valid forecaster with linear, log and Hill effects can be fitted with every collection of such tests of effects that have columns, and one with a piecewise linear trend, seasonalities and linear effects has a best fit for every noise level.", "quantifier": "all series, regressors, collections of lift tests, priors, likelihoods, prior scales, parameter values, horizons", "why_tests_cant": "compares best fits of all models over all data and test tables, in the limit of ever more precise tests; tests check one table and that a fit runs", "anchors": ["src/prophetverse/effects/lift_experiment.py", "src/prophetverse/models.py", "src/prophetverse/sktime/base.py", "src/prophetverse/sktime/univariate.py"]}
{"id": "C120", "title": "Turning a panel upside down, or raising each series by a constant, does the same to its fit and forecasts", "statement": "For HierarchicalProphet on two regular panels with the same series and dates and the same X, where every value of the second is plus or minus the value of the first plus a constant of its series: after fit, negating or keeping the changepoint coefficients and the coefficients of additive effects, and moving each offset like its series, keeps the posterior density for all noise levels and correlations and moves the forecast of every series at every date in the same way. The best fits of the second panel are therefore the moved best fits of the first. If the sign changes, priors of additive effects must be symmetric (the default is); with multiplicative effects only the sign may change.", "quantifier": "all pairs of regular panels related in this way, all settings, regressors, horizons, noise levels, correlations, parameter values", "why_tests_cant": "an equivariance of a posterior and its optima over all parameters and histories; a test compares two noisy optimisations", "anchors": ["src/prophetverse/sktime/multivariate.py:_get_fit_data", "src/prophetverse/models.py:multivariate_model", "src/prophetverse/effects/trend/piecewise.py:_suggest_global_trend_and_offset"]}
{"id": "C121", "title": "The best fit balances residuals against the priors, and reports less noise than the fit has error", "statement": "For a forecaster of one series with normal likelihood, piecewise linear trend, and any seasonalities and linear regressors, additive or multiplicative: at a maximum a posteriori fit (1) the sum of residuals times what a coefficient acts on (the feature, times the trend if multiplicative), divided by the squared noise level, equals the coefficient divided by its squared prior scale; (2) the same holds for the offset and its prior; (3) for every changepoint that sum is at most 1/changepoint_prior_scale in absolute value, and equals it, with the sign of the change, wherever the growth rate changes, so changepoints stay exactly unused unless the data insist; (4) the noise level is an explicit function of the sum of squared residuals, and always smaller than the root mean squared error of the fit.", "quantifier": "all targets, regressors, seasonalities, modes, prior scales, changepoint settings; all best fits", "why_tests_cant": "statements about the exact maximiser of a posterior over all data sets; a test sees one optimiser run that stops somewhere near it", "anchors": ["src/prophetverse/models.py:univariate_model", "src/prophetverse/effects/linear.py:LinearEffect._predict", "src/prophetverse/effects/trend/piecewise.py:PiecewiseLinearTrend._predict", "src/prophetverse/engine.py:MAPInferenceEngine"]}
{"id": "C122", "title": "One series that can be fitted exactly leaves the whole panel without a best fit", "statement": "For the hierarchical forecaster on a panel of at least two series: if some parameters reproduce the history of just one of the series exactly, the log posterior of the panel is unbounded, whatever the other series are: it grows beyond every bound as the noise level of that series shrinks. Maximum a posteriori inference then has no answer, for none of the series. This is so for every panel in which one series is constant in training, for example a product without any sales, although fit accepts such a panel without an error.", "quantifier": "all panels of at least two series, configurations of linear effects, priors, columns and correlation priors", "why_tests_cant": "that a maximum does not exist cannot be observed: an optimiser always stops and returns something", "anchors": ["src/prophetverse/models.py:multivariate_model", "src/prophetverse/sktime/multivariate.py:HierarchicalProphet", "src/prophetverse/engine.py:MAPInferenceEngine"]}
{"id": "C123", "title": "Changed observations move the best fit by no more than they were changed", "statement": "For a forecaster of one series with normal likelihood, piecewise linear trend and additive seasonalities and regressors with log-concave priors, fitted at a given scale of the target and a given noise level by maximum a posteriori: if the target is changed at some dates, the fitted history follows, in the sum of squares, by no more than the changes, which count a second time with the precision of the trend's offset, because the prior of the offset is centred on the least squares line through the data at the first date (trend=\"linear\", the default). With trend=\"linear_raw\" it is centred on the first observation, so only this one counts twice, the fitted history follows in the same direction as the changes, and a single outlier at any other date pulls the fitted value of its own date towards itself, and moves no fitted value of the history by more than its own size. In particular the fitted history is unique, even where the coefficients are not.", "quantifier": "all pairs of targets on the same dates, all regressors, seasonalities, changepoint settings, prior scales and noise levels; all best fits", "why_tests_cant": "a bound on the reaction of an exact maximiser to every possible change of the data; tests see a few data sets and an optimiser that stops near a maximum", "anchors": ["src/prophetverse/models.py:univariate_model", "src/prophetverse/sktime/univariate.py:Prophetverse", "src/prophetverse/effects/trend/piecewise.py:PiecewiseLinearTrend", "src/prophetverse/engine.py:MAPInferenceEngine"]}
{"id": "C124", "title": "Given one ordinary series, the hierarchical forecaster is the univariate one with normal likelihood", "statement": "HierarchicalProphet given a single series without hierarchy (and X with the same dates, no feature transformer, column names that are valid regular expressions) can be fitted exactly when Prophetverse with the normal likelihood and the same trend, effects and prior scales can, whatever its shared_features and correlation settings are. Both then have the same fitted trend and effects, give the same parameters the same posterior density (the noise level of the one is the observation standard deviation of the other), have the same best fits, prepare the same data for every forecast horizon, and make the same forecast table from the same draws: no column is duplicated and no aggregate is added.", "quantifier": "all targets, exogenous variables, trends that are fitted to the target only (all built-in ones), lists of effects, horizons and parameter values", "why_tests_cant": "equality of two posteriors at every parameter value and for every data set, through two separate implementations of fit and predict", "anchors": ["src/prophetverse/sktime/multivariate.py:HierarchicalProphet", "src/prophetverse/sktime/univariate.py:Prophetverse", "src/prophetverse/models.py:multivariate_model", "src/prophetverse/models.py:univariate_model", "src/prophetverse/sktime/_expand_column_per_level.py:ExpandColumnPerLevel"]}
{"id": "C125", "title": "The best fit is penalised least squares: no explanation of the history is cheaper", "statement": "For a forecaster of one series with normal likelihood, piecewise linear trend, seasonalities and linear regressors with normal priors, additive or multiplicative, at a given noise level: parameters are a maximum a posteriori fit exactly if they minimise the sum of squared errors plus the squared noise level times their price, where the price is the squared distance of the offset from its prior centre over its squared prior scale, twice the absolute slope changes over changepoint_prior_scale and the squared coefficients over their squared prior scales (ridge for effects, lasso for changepoints). Hence the squared error of the best fit exceeds that of no other parameters by more than the price of those; if some parameters reproduce the history exactly, the mean squared error falls like one over the number of observations; a larger noise level gives a cheaper and less close fit; and before fitting it is known that the squared error is at most that of the constant at the offset's prior centre (the first observation for trend=\"linear_raw\", the value of the least squares line at the first date for trend=\"linear\"), and how large coefficients and slope changes can become at most.", "quantifier": "all targets, regressors, seasonalities, modes, changepoint settings, prior scales and noise levels; all best fits and all competing parameters", "why_tests_cant": "an equivalence of two optimisation problems over all parameters and a bound against every competitor; an optimiser in a test stops near one maximum of one data set", "anchors": ["src/prophetverse/models.py:univariate_model", "src/prophetverse/effects/trend/piecewise.py:PiecewiseLinearTrend", "src/prophetverse/effects/linear.py:LinearEffect", "src/prophetverse/engine.py:MAPInferenceEngine"]}
{"id": "C126", "title": "MAP forecast intervals have the same width distribution at every horizon", "statement": "With the normal likelihood and maximum a posteriori inference, where all draws share their parameters, the quantiles that predict_quantiles returns for a date are, jointly for all levels, distributed like the scale times (the mean of the model for that date plus the noise level times the quantiles of as many independent standard normal numbers as there are draws). Hence widths of prediction intervals, and all other distances between quantiles and from the scaled mean, have the same distribution at every date, in the history or arbitrarily far in the future, whatever trend, seasonality and regressors do: these intervals do not widen with the horizon. The upper and lower quantiles are symmetric around the scaled mean in distribution.", "quantifier": "all fitted forecasters, horizons, pairs of dates, numbers of draws, levels between 0 and 1, scales, means and noise levels; all probability spaces carrying the draws", "why_tests_cant": "an equality of distributions of random outputs; tests see finitely many random runs and can only compare widths up to noise", "anchors": ["src/prophetverse/sktime/base.py:BaseBayesianForecaster._predict_quantiles", "src/prophetverse/engine.py:MAPInferenceEngine", "src/prophetverse/models.py:univariate_model"]}
{"id": "C127", "title": "The spread of forecast samples: noise plus disagreement of the draws, growing with the square of the horizon", "statement": "For every forecaster, the sample variance of the forecast samples of a series and date is, on average over simulations, the squared scale times the sum of the average noise variance and the sample variance of the means of the posterior draws. With maximum a posteriori inference the second part is zero and the first is the same at all dates. With several posterior draws, a piecewise linear trend and additive effects, for two dates past the history with the same regressors, d steps apart, the spread at the later date is exactly quadratic in d; the leading coefficient is the squared scale times the sample variance of the last slopes of the draws. If the draws do not agree about the last slope, the spread exceeds every bound far enough ahead.", "quantifier": "all fitted forecasters, numbers of draws (at least two), parameter draws, noise levels, scales, horizons and pairs of dates past the history; all probability spaces carrying the draws", "why_tests_cant": "an identity between expectations of random outputs, and a limit for unbounded horizons", "anchors": ["src/prophetverse/sktime/base.py:BaseBayesianForecaster.predict_samples", "src/prophetverse/effects/trend/piecewise.py:PiecewiseLinearTrend", "src/prophetverse/engine.py:MCMCInferenceEngine", "src/prophetverse/models.py:univariate_model"]}
{"id": "C128", "title": "One more effect or column never worsens the best fit", "statement": "Let two forecasters of the same history have the same trend, and let the second have all effects of the first and perhaps more, on a table with all columns of the first and perhaps more, where further effects do not select columns that went to the default effect. Then every parameter setting of the first has a counterpart in the second with the same trend and the same mean on every date of the history. The best log posterior of the second, not counting the log prior of coefficients at zero, is at least that of the first, whatever the likelihood. With normal observations and normal priors the squared error plus the price of the parameters never grows, and the squared error of the larger best fit exceeds that of the smaller one by at most the price the smaller one pays. For hierarchical panels with given noise levels and correlation the weighed error plus the price of the best fit likewise never grows.", "quantifier": "all histories, feature tables, lists of seasonalities and linear effects (additive or multiplicative, any prior), added effects and columns, likelihoods and noise levels", "why_tests_cant": "compares two optima over continuous parameter spaces of different dimension, for all data", "anchors": ["src/prophetverse/sktime/base.py:BaseProphetForecaster._fit_effects", "src/prophetverse/sktime/univariate.py:Prophetverse", "src/prophetverse/effects/linear.py:LinearEffect", "src/prophetverse/effects/fourier.py:LinearFourierSeasonality", "src/prophetverse/engine.py:MAPInferenceEngine", "src/prophetverse/sktime/multivariate.py:HierarchicalProphet"]}
{"id": "C129", "title": "Regressors that cannot be told apart share their effect in proportion to their prior variances", "statement": "Consider a best fit at a fixed noise level with normal observations and normal priors centred at zero. A column or Fourier term that is zero on the whole history gets the coefficient zero. If on the history one feature is k times another one, in effects of the same mode, the ratio of coefficient to prior variance of the first is k times that of the second. Two copies of a column with the same prior scale get the same coefficient. What the two features contribute together at any date, past or future, is fixed by one number and the two prior variances.", "quantifier": "all histories, feature tables, lists of seasonalities and linear effects (additive or multiplicative), pairs of features in the same or in different effects, factors and prior scales", "why_tests_cant": "about exact optima over a continuous parameter space for all data; a numerical optimiser on sample data shows the shares only approximately", "anchors": ["src/prophetverse/effects/linear.py:LinearEffect", "src/prophetverse/effects/fourier.py:LinearFourierSeasonality", "src/prophetverse/engine.py:MAPInferenceEngine", "src/prophetverse/models.py:univariate_model", "src/prophetverse/sktime/univariate.py:Prophetverse"]}
{"id": "C130", "title": "Forecasters of positive targets have a best fit unless they fit the history exactly", "statement": "With Gamma observations of a positive target there is a best fit at every noise level, whatever the modes of the effects, and the likelihood at that level is bounded, so that tightening the prior of an effect or of the changepoints makes it vanish. If all targets exceed 1e-5, the level under which the mean is bent, and all effects are additive: there is a best fit over all positive noise levels exactly if no parameters fit the history exactly, and then the posterior is a probability distribution. If some parameters do fit the history exactly, for example for a constant target, the log posterior grows beyond all bounds as the noise level goes to zero.", "quantifier": "all histories of positive targets, feature tables, lists of seasonalities and linear effects, prior and noise scales, noise levels", "why_tests_cant": "existence of an optimum over an unbounded parameter space and finiteness of an integral; an optimiser that stops always returns something", "anchors": ["src/prophetverse/sktime/univariate.py:ProphetGamma", "src/prophetverse/models.py:univariate_gamma_model", "src/prophetverse/distributions.py:GammaReparametrized", "src/prophetverse/engine.py:MAPInferenceEngine", "src/prophetverse/engine.py:MCMCInferenceEngine"]}
{"id": "C131", "title": "The best fit of a panel is penalised generalised least squares", "statement": "For given noise levels and correlation of the series, and normal priors centred at zero, parameters of the hierarchical forecaster are a best fit exactly if they minimise the squared errors of all dates in the metric of the inverse covariance of the series, plus the price of the parameters: squared distances of the offsets from the centres of their priors, absolute changes of slope and squared coefficients, each over its prior scale. The best fit is as good as every other explanation of the history up to the price of that explanation; if some explanation has no error, the weighed error of the best fit is at most its price, however long the history. Before fitting, the deviation of the history from the centres of the offsets bounds the error, the offsets, the coefficients and the sum of all changes of slope. Without correlation the squared error of each series counts with the inverse fourth power of its noise level.", "quantifier": "all panels, hierarchies, feature tables, lists of linear effects (additive or multiplicative), prior scales, noise levels and correlation factors", "why_tests_cant": "characterises the exact optimum over a continuous parameter space for all data", "anchors": ["src/prophetverse/models.py:multivariate_model", "src/prophetverse/sktime/multivariate.py:HierarchicalProphet", "src/prophetverse/effects/linear.py:LinearEffect", "src/prophetverse/effects/trend/piecewise.py:PiecewiseLinearTrend", "src/prophetverse/engine.py:MAPInferenceEngine"]}
{"id": "C132", "title": "Nearly optimal parameters fit nearly as the optimum does", "statement": "With normal observations, normal priors centred at zero and additive effects: what parameters miss to the best log posterior at the same noise level bounds their distance from the best fit. The squared differences of the fitted means of the history over the squared noise level, of the offset over its squared prior scale and of all coefficients over theirs sum to at most twice what is missing. Hence every fitted mean of the history is within the noise level times the square root of twice what is missing, and what an effect contributes at any date is within the prior scale times the length of the features times the same root. Whatever the optimiser, if its log posterior converges to the best one, its fitted means converge to those of the best fit. The same holds for panels, with the errors weighed by the inverse covariance.", "quantifier": "all histories and panels, feature tables, lists of additive seasonalities and linear effects, noise levels, prior scales, and all parameters, in particular those at which an optimiser stops", "why_tests_cant": "about all points near an unknown optimum over a continuous space; a test sees where one optimiser stopped on one data set", "anchors": ["src/prophetverse/engine.py:MAPInferenceEngine", "src/prophetverse/models.py:univariate_model", "src/prophetverse/models.py:multivariate_model", "src/prophetverse/sktime/univariate.py:Prophetverse", "src/prophetverse/sktime/multivariate.py:HierarchicalProphet"]}
{"id": "C133", "title": "Changed observations move the fit of a panel by no more than they are changed", "statement": "For given noise levels and correlation of the series, with additive effects and normal priors: if two histories of the same series at the same dates differ, the best fits of the hierarchical forecaster to them differ by no more than the histories do. The squared changes of all fitted values in the metric of the inverse covariance of the series, plus those of the offsets over their squared prior scale, plus those of the coefficients over theirs, sum to at most what the changes of fitted values and offsets share with the changes of the observations and of the centres of the offsets' priors, hence to at most the squared changes of the observations in the same metric plus those of the centres over the squared prior scale. For trend=\"linear\" (the default) the centres lie on the least squares lines of the series, and their squared changes sum to at most those of the observations. For trend=\"linear_raw\" they are the first observations: if only observations after the first date change, the fitted values of the whole panel move by no more than the observations.", "quantifier": "all pairs of panels with the same series and dates, all hierarchies, feature tables, lists of additive linear effects, prior scales, noise levels and correlation factors", "why_tests_cant": "a bound on the difference of two exact optima for all pairs of data sets", "anchors": ["src/prophetverse/models.py:multivariate_model", "src/prophetverse/sktime/multivariate.py:HierarchicalProphet", "src/prophetverse/effects/linear.py:LinearEffect", "src/prophetverse/effects/trend/piecewise.py:PiecewiseLinearTrend", "src/prophetverse/engine.py:MAPInferenceEngine"]}
{"id": "C134", "title": "The limits of small and large noise, and the smoothing knobs of a panel", "statement": "With normal priors of the effects: as the given noise level tends to zero, the sum of squared errors of the best fit tends to the least that any parameters reach; as it grows without bound, the best fit tends, at every date, in the past and in the future, to the centre of the offset's prior (for trend=\"linear_raw\" the first observation, for trend=\"linear\" the least squares line at the first date). The same holds for a panel whose noise levels shrink or grow in fixed proportions, in the metric of the inverse covariance of the series. For a panel, raising all noise levels by a common factor never raises the price of the best fit and never lowers its weighed error; widening the prior of one effect never lowers the sum of the squares of its coefficients, and never raises the weighed error plus the price of everything else.", "quantifier": "all histories, panels, feature tables, lists of additive or multiplicative effects with normal priors, prior scales, sequences of noise levels tending to zero or infinity, correlation factors and dates", "why_tests_cant": "limits of exact optima over all sequences of noise levels, and comparisons of exact optima", "anchors": ["src/prophetverse/models.py:univariate_model", "src/prophetverse/models.py:multivariate_model", "src/prophetverse/sktime/univariate.py:Prophet", "src/prophetverse/sktime/multivariate.py:HierarchicalProphet", "src/prophetverse/effects/linear.py:LinearEffect", "src/prophetverse/effects/trend/piecewise.py:PiecewiseLinearTrend", "src/prophetverse/engine.py:MAPInferenceEngine"]}
{"id": "C135", "title": "At the best fit of a panel the weighed residuals balance the priors", "statement": "For given noise levels and correlation of the series and normal priors of the effects, at the best fit of the hierarchical forecaster, with the residuals of all series at a date multiplied by the inverse of their covariance: for every series, its weighed residuals, each times what one unit of trend adds to its mean, sum to the distance of its offset from the centre of its prior over the squared prior scale; for every regressor of an effect, the weighed residuals of all series and dates, each times the regressor and what one unit of the effect adds to the mean, sum to its coefficient over the squared prior scale; and for every changepoint of a series, the weighed residuals, each times the time since the changepoint and what one unit of trend adds, sum to at most the inverse of the changepoint prior scale in size, and to exactly that, with the sign of the change, where the slope changes at all.", "quantifier": "all panels, hierarchies, feature tables, lists of additive or multiplicative linear effects, prior scales, noise levels, correlation factors, series, regressors and changepoints", "why_tests_cant": "first order conditions of an exact optimum over all parameters for all data", "anchors": ["src/prophetverse/models.py:multivariate_model", "src/prophetverse/sktime/multivariate.py:HierarchicalProphet", "src/prophetverse/effects/linear.py:LinearEffect", "src/prophetverse/effects/trend/piecewise.py:PiecewiseLinearTrend", "src/prophetverse/engine.py:MAPInferenceEngine"]}
{"id": "C136", "title": "Beyond the history each series of a panel follows its own line or its own saturating curve", "statement": "When the changepoint range lies inside the history, the trend that the hierarchical forecaster gives a series at dates from the last training date on follows one line: between two such dates it changes by the sum of the changepoint coefficients of that series alone times the number of average training steps between the dates, whatever the other series are and whichever forecast calls the dates come from. If the series has the same regressors at both dates, its forecasts in a model with additive effects differ by exactly that change, and in a model with multiplicative effects they are the same multiple of its trend. With logistic trends the trend of a series stays strictly between 0 and the capacity of that series; from the last training date on it rises to this capacity if the coefficients of the series have a positive sum, falls to 0 if it is negative and is constant if it is 0, whatever the other series are.", "quantifier": "all panels, hierarchies, feature tables, lists of linear effects, changepoint settings, pairs of horizons, future regressors, parameters, series and dates", "why_tests_cant": "unbounded horizons, arbitrary parameters and panels; requires knowing that no changepoint of any series is left past the history", "anchors": ["src/prophetverse/sktime/multivariate.py:HierarchicalProphet", "src/prophetverse/effects/trend/piecewise.py:PiecewiseLinearTrend", "src/prophetverse/effects/linear.py:LinearEffect"]}
{"id": "C137", "title": "Regressors of a panel that the history never saw are ignored, and indistinguishable ones share", "statement": "For given noise levels and correlation and normal priors of the effects, at the best fit of the hierarchical forecaster: a regressor that is zero for a series at all training dates (for all series, if the series share the column) has coefficient zero for that series in every effect that uses it, so its values in the future do not move the forecasts of the series; and two regressors that are proportional in the history of a series, used by effects of the same mode, get coefficients in proportion to their values times their prior variances.", "quantifier": "all panels, hierarchies, feature tables, shared features, lists of additive or multiplicative linear effects, prior scales, noise levels, correlation factors, future feature tables, series and dates", "why_tests_cant": "a property of the exact optimum for all data; numeric optimisers only approximate it", "anchors": ["src/prophetverse/models.py:multivariate_model", "src/prophetverse/sktime/multivariate.py:HierarchicalProphet", "src/prophetverse/effects/linear.py:LinearEffect", "src/prophetverse/engine.py:MAPInferenceEngine"]}
{"id": "C138", "title": "The spread of an aggregate's forecasts is made of the covariances of the series below it", "statement": "Where the draws of the hierarchical forecaster are independent of each other, the sample variance of the forecast samples of an aggregate is on average the sum of two parts: the average over the draws of the variance of the sum of the series below the aggregate in units of the target, in which every pair of series enters with the covariance of its noise, and the sample variance of the sums of the means at the draws of the parameters. With MAP inference only the first part is left, so the spread of an aggregate depends on the noise and correlation alone; without correlation it is the sum of the spreads of the series below it.", "quantifier": "all hierarchies, aggregates, scales, horizons, dates, numbers of draws, noise levels, correlation factors and means", "why_tests_cant": "a statement on expectations over all draws; a test sees single runs of a sampler", "anchors": ["src/prophetverse/sktime/multivariate.py:HierarchicalProphet", "src/prophetverse/sktime/base.py:BaseBayesianForecaster", "src/prophetverse/models.py:multivariate_model", "src/prophetverse/engine.py:MAPInferenceEngine"]}
{"id": "C139", "title": "Lift tests of a log or Hill effect that matches no column make the forecaster unfittable", "statement": "An effect that matches no column is left out with a warning and the forecaster works without it. If the same effect is wrapped with lift test results, it is not left out: preparing the data still succeeds and the columns belong to the same effects, but for a log or Hill effect the log density of the model then has no value for any parameters, under any priors, so fitting always fails, although without the tests the forecaster can be fitted.", "quantifier": "all forecasters with a linear or logistic trend and linear, log and Hill effects, all training data with at least two dates, all flat tables of tests, parameters and priors", "why_tests_cant": "a statement on all parameters, priors and training data: a test sees one failing fit and cannot tell that no other parameters would do", "anchors": ["src/prophetverse/effects/lift_experiment.py:LiftExperimentLikelihood", "src/prophetverse/effects/base.py:BaseEffect", "src/prophetverse/effects/log.py:LogEffect", "src/prophetverse/effects/hill.py:HillEffect"]}
{"id": "C140", "title": "What fit and predict of a forecaster object compute from the frames alone", "statement": "After fit has returned, the scaled target, the prepared training arrays and the posterior are determined by the contents of the configuration and the frames y and X: the inference was called once, on the model with exactly these arrays, and every later prediction is the answer computed from draws of that posterior for the arrays that the exogenous variables given to predict and the horizon lead to. If preparing the data fails, fit raises this error; otherwise fit returns or fails as the inference does. This holds for a single series and for a panel.", "quantifier": "all worlds of user objects, forecasters, inference libraries, frames, exogenous variables, horizons and kinds of prediction", "why_tests_cant": "it ranges over all user effects, transformers and inference libraries; a test fixes one of each and compares numbers", "anchors": ["src/prophetverse/sktime/base.py:BaseBayesianForecaster", "src/prophetverse/sktime/univariate.py:Prophetverse", "src/prophetverse/sktime/multivariate.py:HierarchicalProphet", "src/prophetverse/engine.py:MAPInferenceEngine"]}
{"id": "C141", "title": "The components shown by predict_all_sites are those of the model at the learned parameters", "statement": "After fit of one series there are parameters, learned from the training data only, such that for every horizon and all exogenous variables a row of predict_all_sites shows, for the trend and for each effect, the average over these parameters of what the model computes for the row's date, in units of the target. With MAP, where the guide has a single value for each parameter, the component is exactly the model's component at the best parameters found.", "quantifier": "all univariate forecasters in all worlds of user objects, all inference libraries that run the model for each parameter, all frames, horizons and exogenous variables", "why_tests_cant": "a statement on all effects, horizons and learned parameters; a test checks column names or one number", "anchors": ["src/prophetverse/sktime/base.py:BaseBayesianForecaster", "src/prophetverse/sktime/univariate.py:Prophetverse", "src/prophetverse/models.py:_compute_mean_univariate", "src/prophetverse/engine.py:MAPInferenceEngine"]}
{"id": "C142", "title": "The table of components a fitted forecaster shows", "statement": "At every date of every horizon, predict_all_sites shows as trend the average of the trend over the learned parameters, and for each linear, log and Hill effect the average of its value for the regressors of that date, in units of the target. So of the rows one fitted forecaster shows for a date the trend is always the same, and the component of an effect is the same whenever its own columns are; past the last training date the trend shown follows one line, whose slope per step is the average sum of the learned coefficients, in units of the target. A logistic trend shown lies between 0 and the average learned capacity, and past the last training date it rises towards that capacity or falls to 0.", "quantifier": "all worlds of user objects, univariate forecasters with a trend computed date by date, inference libraries, frames, pairs of predict calls with different horizons and exogenous variables", "why_tests_cant": "compares any two calls on one fitted object, for all data and learned parameters", "anchors": ["src/prophetverse/sktime/base.py:BaseBayesianForecaster", "src/prophetverse/sktime/univariate.py:Prophetverse", "src/prophetverse/models.py:_compute_mean_univariate", "src/prophetverse/effects/trend/piecewise.py:PiecewiseLinearTrend"]}
{"id": "C143", "title": "The components shown for a panel are those of the model for that series at the learned parameters", "statement": "After fit of a panel there are parameters, learned from the training data only, such that for every horizon and all exogenous variables predict_all_sites has exactly one row for each bottom series and date, and this row shows, for the trend and for each effect, the average over these parameters of what the model computes for that series and date, in units of that series. With MAP the component is exactly the model's component at the best parameters found. For a piecewise linear trend with linear effects this is, per series, its own trend and the coefficients times the values, where a column that is not shared counts with the coefficient of that series only. So the components shown for a series and date do not depend on the regressors of other series, and past the history the trend shown for a series follows one line whose slope is the average sum of its own coefficients. fit of a regular panel never fails before inference. If the model can be run at these parameters, predict_all_sites returns for every horizon for which X has the training columns and a row for every series and date.", "quantifier": "all hierarchical forecasters in all worlds of user objects, all inference libraries that run the model for each parameter, all panels, horizons and exogenous variables", "why_tests_cant": "a statement on all panels, effects, horizons and learned parameters; a test checks column names or one number", "anchors": ["src/prophetverse/sktime/base.py:BaseBayesianForecaster", "src/prophetverse/sktime/multivariate.py:HierarchicalProphet", "src/prophetverse/models.py:multivariate_model", "src/prophetverse/engine.py:MAPInferenceEngine"]}
{"id": "C144", "title": "The components shown for the history are its penalised least squares explanation", "statement": "For a forecaster with a piecewise linear trend, seasonalities and linear effects, predict_all_sites returns for every horizon whose dates have the training columns a table with a row for each date, showing the average over the learned parameters of the trend and of each effect, in units of y. If inference is maximum a posteriori with normal noise of a given level and found the best parameters, the sum of the components shown for the training dates minimises, over all parameters, the sum of squared errors in units of y plus the squared noise level in units of y times the cost of the parameters under the priors. For a panel with given noise levels and correlations, the sums of the components shown for the training dates of the bottom series, each over the scale of its series, minimise over all parameters the errors weighed by the inverse covariance plus the cost of the parameters under the priors.", "quantifier": "all univariate forecaster objects with piecewise linear trend, any seasonalities and linear effects, and hierarchical ones with piecewise linear trend and linear effects, all training data with one column in time order, all horizons and exogenous variables, all values of the parameters competing with the shown ones", "why_tests_cant": "optimality is a comparison with infinitely many parameter values, for all data and configurations; a test compares with a tolerance on one data set", "anchors": ["src/prophetverse/sktime/base.py:BaseBayesianForecaster", "src/prophetverse/sktime/univariate.py:Prophetverse", "src/prophetverse/models.py:univariate_model", "src/prophetverse/effects/trend/piecewise.py:PiecewiseLinearTrend", "src/prophetverse/engine.py:MAPInferenceEngine", "src/prophetverse/sktime/multivariate.py:HierarchicalProphet"]}
{"id": "C145", "title": "The units of a panel's regressors do not matter if the priors are stated in them", "statement": "If two panels differ only in that the columns of X are given in other units (every column an effect uses multiplied by the same non-zero factor), and the prior of the effect's coefficients is stated in the matching unit (a normal prior with its scale divided by the factor), then dividing the coefficients by the factor turns the log posterior of one fit into that of the other up to one constant; the best parameters of one fit become the best of the other; and the two fitted panels forecast the same value for every series and date when the future columns are converted too.", "quantifier": "all panels with at least two series, piecewise linear trend, seasonalities and linear effects with per-series or shared columns, all non-zero factors per effect, all priors that correspond under the factor, all parameter values, all horizons and future columns", "why_tests_cant": "an equality up to a constant over all real parameter values and data, and equivalence of optimality over all competitors; a test compares two sampled runs with a tolerance", "anchors": ["src/prophetverse/sktime/multivariate.py:HierarchicalProphet", "src/prophetverse/models.py:multivariate_model", "src/prophetverse/effects/linear.py:LinearEffect", "src/prophetverse/sktime/base.py:BaseProphetForecaster"]}
