{
 "claims": [
  {
   "property": "C01",
   "status": "proved",
   "theorems": [
    "PV.C01_user_table",
    "PV.C01_scale_roundtrip",
    "PV.C01_own_series_scale",
    "PV.C01_user_scale"
   ],
   "note": ""
  },
  {
   "property": "C02",
   "status": "partial",
   "theorems": [
    "PV.C02_zero_series_refuted",
    "PV.C02_int_scale_refuted",
    "PV.C02_accepts_partial"
   ],
   "note": "Refuted in the code for all-zero flat series and int scales (AttributeError); acceptance proved for the remaining inputs."
  },
  {
   "property": "C03",
   "status": "proved",
   "theorems": [
    "PV.C03_inferred_scale_normalises"
   ],
   "note": ""
  },
  {
   "property": "C04",
   "status": "proved",
   "theorems": [
    "PV.C04_same_model_data",
    "PV.C04_samples_scale",
    "PV.C04_point_scales",
    "PV.C04_quantiles_scale",
    "PV.C04_zero_series_refuted"
   ],
   "note": "Proved for targets without an identically zero series (such a series keeps scale 1; witness C04_zero_series_refuted shows the hypothesis is needed) and with inference as an arbitrary function of the scaled target."
  },
  {
   "property": "C05",
   "status": "proved",
   "theorems": [
    "PV.C05_negbin_mean",
    "PV.C05_configured",
    "PV.C05_others_scaled",
    "PV.C05_target_unscaled",
    "PV.C05_draws_unscaled"
   ],
   "note": "Observed values, returned samples and the mean of the observation distribution."
  },
  {
   "property": "C06",
   "status": "proved",
   "theorems": [
    "PV.C06_sample_alignment",
    "PV.C06_every_draw_filed",
    "PV.C06_succeeds"
   ],
   "note": ""
  },
  {
   "property": "C07",
   "status": "proved",
   "theorems": [
    "PV.C07_point_is_mean"
   ],
   "note": ""
  },
  {
   "property": "C08",
   "status": "proved",
   "theorems": [
    "PV.C08_is_quantile",
    "PV.C08_monotone",
    "PV.C08_extremes",
    "PV.C08_bounds",
    "PV.C08_labelled",
    "PV.C08_accepts"
   ],
   "note": ""
  },
  {
   "property": "C09",
   "status": "proved",
   "theorems": [
    "PV.C09_index",
    "PV.C09_series",
    "PV.C09_flat"
   ],
   "note": ""
  },
  {
   "property": "C10",
   "status": "proved",
   "theorems": [
    "PV.C10_aggregate_coherent",
    "PV.C10_aggregates_present",
    "PV.C10_samples_coherent",
    "PV.C10_point_coherent",
    "PV.C10_predict_coherent",
    "PV.C10_labels_distinct"
   ],
   "note": "Coherence of the published aggregates at every node, sample by sample and for the point forecast, about the model of Aggregator._transform."
  },
  {
   "property": "C11",
   "status": "partial",
   "theorems": [
    "PV.C11_series_major_partial",
    "PV.C11_single_series_partial",
    "PV.C11_obs_refuted"
   ],
   "note": "Holds for deterministic sites and for single series; refuted for the hierarchical obs site, whose (series, time) axes are swapped before flattening."
  },
  {
   "property": "C12",
   "status": "partial",
   "theorems": [
    "PV.C12_mean_times_scale_partial",
    "PV.C12_scale_refuted"
   ],
   "note": "Refuted: predict_all_sites multiplies by the scale, predict_all_sites_samples does not. The exact relation between them is proved."
  },
  {
   "property": "C13",
   "status": "partial",
   "theorems": [
    "PV.C13_components_add_up_partial",
    "PV.C13_normal",
    "PV.C13_negbin_refuted"
   ],
   "note": "Holds for normal and gamma likelihoods in units of y; for the negative binomial the sites are not multiplied by the scale although the model mean is (C13_negbin_refuted)."
  },
  {
   "property": "C14",
   "status": "partial",
   "theorems": [
    "PV.C14_labels_lost_refuted",
    "PV.C14_blocks_partial"
   ],
   "note": "Refuted: the vectorised predict_all_sites concatenates the panel without series labels. What is preserved (blocks in order) is proved."
  },
  {
   "property": "C15",
   "status": "proved",
   "theorems": [
    "PV.C15_explicit",
    "PV.C15_default",
    "PV.C15_every_column"
   ],
   "note": ""
  },
  {
   "property": "C16",
   "status": "proved",
   "theorems": [
    "PV.C16_warnings",
    "PV.C16_not_fatal"
   ],
   "note": ""
  },
  {
   "property": "C17",
   "status": "proved",
   "theorems": [
    "PV.C17_own_data",
    "PV.C17_names"
   ],
   "note": ""
  },
  {
   "property": "C18",
   "status": "proved",
   "theorems": [
    "PV.C18_skip",
    "PV.C18_builtin_tags",
    "PV.C18_without_exog",
    "PV.C18_no_contribution"
   ],
   "note": ""
  },
  {
   "property": "C19",
   "status": "proved",
   "theorems": [
    "PV.C19_column_order",
    "PV.C19_missing_column",
    "PV.C19_unfitted",
    "PV.C19_builtin"
   ],
   "note": ""
  },
  {
   "property": "C20",
   "status": "proved",
   "theorems": [
    "PV.C20_rows_panel",
    "PV.C20_rows_flat"
   ],
   "note": ""
  },
  {
   "property": "C21",
   "status": "proved",
   "theorems": [
    "PV.C21_missing_row",
    "PV.C21_hierarchical"
   ],
   "note": ""
  },
  {
   "property": "C22",
   "status": "proved",
   "theorems": [
    "PV.C22_contribution",
    "PV.C22_entries",
    "PV.C22_mode_rejected",
    "PV.C22_mode_error",
    "PV.C22_missing_trend",
    "PV.C22_succeeds",
    "PV.C22_made",
    "PV.C22_not_made",
    "PV.C22_seasonal_made",
    "PV.C22_seasonal_fit"
   ],
   "note": ""
  },
  {
   "property": "C23",
   "status": "proved",
   "theorems": [
    "PV.C23_order_irrelevant",
    "PV.C23_builtin"
   ],
   "note": ""
  },
  {
   "property": "C24",
   "status": "proved",
   "theorems": [
    "PV.C24_sees_earlier",
    "PV.C24_mean_is_sum",
    "PV.C24_custom"
   ],
   "note": ""
  },
  {
   "property": "C25",
   "status": "proved",
   "theorems": [
    "PV.C25_effects_untouched"
   ],
   "note": ""
  },
  {
   "property": "C26",
   "status": "partial",
   "theorems": [
    "PV.C26_no_sharing_partial",
    "PV.C26_trend_refuted",
    "PV.C26_transformer_refuted",
    "PV.C26_mixed_refuted"
   ],
   "note": "False of the code for a shared trend object and for a shared feature transformer, because neither is cloned (C26_trend_refuted, C26_transformer_refuted, C26_mixed_refuted: concrete histories). C26_no_sharing_partial proves it for all histories when these two are not shared; effects may be shared."
  },
  {
   "property": "C27",
   "status": "partial",
   "theorems": [
    "PV.C27_hill_partial",
    "PV.C27_at_zero_refuted",
    "PV.C27_monotone_refuted"
   ],
   "note": "Refuted at input 0 (the code returns max_effect) and hence monotonicity there; range, half_max value and monotonicity proved for positive inputs."
  },
  {
   "property": "C28",
   "status": "proved",
   "theorems": [
    "PV.C28_log"
   ],
   "note": ""
  },
  {
   "property": "C29",
   "status": "proved",
   "theorems": [
    "PV.C29_inner_product",
    "PV.C29_feature_count",
    "PV.C29_linear_in_coefs",
    "PV.C29_linear_in_data",
    "PV.C29_zero"
   ],
   "note": ""
  },
  {
   "property": "C30",
   "status": "proved",
   "theorems": [
    "PV.C30_value",
    "PV.C30_inner_data",
    "PV.C30_terms",
    "PV.C30_duplicate_dates",
    "PV.C30_prior_scale"
   ],
   "note": ""
  },
  {
   "property": "C31",
   "status": "partial",
   "theorems": [
    "PV.C31_refit_partial",
    "PV.C31_unfitted_refuted",
    "PV.C31_forecaster",
    "PV.C31_refit_refuted"
   ],
   "note": "Refuted: refitting on one series after several keeps the column expansion, and an unfitted effect raises AttributeError. Proved for all fit histories whose last fit has several series or none of whose earlier fits had; a forecaster clones its effects and is not affected (C31_forecaster)."
  },
  {
   "property": "C32",
   "status": "partial",
   "theorems": [
    "PV.C32_integer_index",
    "PV.C32_datetime_index_partial",
    "PV.C32_subsecond_refuted"
   ],
   "note": "Proved for integer-like and period indexes and for time stamps on whole seconds; refuted for sub-second steps (division by zero)."
  },
  {
   "property": "C33",
   "status": "proved",
   "theorems": [
    "PV.C33_affine_change",
    "PV.C33_shifts",
    "PV.C33_rescaling"
   ],
   "note": ""
  },
  {
   "property": "C34",
   "status": "proved",
   "theorems": [
    "PV.C34_multiples",
    "PV.C34_failure",
    "PV.C34_fitted",
    "PV.C34_fit_fails"
   ],
   "note": ""
  },
  {
   "property": "C35",
   "status": "partial",
   "theorems": [
    "PV.C35_range_partial",
    "PV.C35_one_refuted",
    "PV.C35_zero_refuted",
    "PV.C35_fitted_partial"
   ],
   "note": "Proved for 0 < r < 1 and non-zero ints; refuted for r = 1 (taken as the int 1) and r = 0 (taken as everything)."
  },
  {
   "property": "C36",
   "status": "partial",
   "theorems": [
    "PV.C36_ramp_partial",
    "PV.C36_integer_intervals",
    "PV.C36_refuted"
   ],
   "note": "Proved from the changepoint on, for changepoints at 1 or later, and for intervals of at least 1; refuted for changepoints below 1 before the changepoint."
  },
  {
   "property": "C37",
   "status": "proved",
   "theorems": [
    "PV.C37_linear",
    "PV.C37_linear_panel",
    "PV.C37_last_slope",
    "PV.C37_extrapolation"
   ],
   "note": ""
  },
  {
   "property": "C38",
   "status": "proved",
   "theorems": [
    "PV.C38_own_trend",
    "PV.C38_no_influence",
    "PV.C38_single",
    "PV.C38_fitted",
    "PV.C38_fitted_single"
   ],
   "note": ""
  },
  {
   "property": "C39",
   "status": "partial",
   "theorems": [
    "PV.C39_constant_partial",
    "PV.C39_prior",
    "PV.C39_panel_refuted"
   ],
   "note": "Constant value and prior proved; refuted for panels, where the trend is one column over all series."
  },
  {
   "property": "C40",
   "status": "proved",
   "theorems": [
    "PV.C40_panel",
    "PV.C40_single"
   ],
   "note": ""
  },
  {
   "property": "C41",
   "status": "partial",
   "theorems": [
    "PV.C41_interpolates_partial",
    "PV.C41_zero_start",
    "PV.C41_zero_start_refuted",
    "PV.C41_default_capacity",
    "PV.C41_failure"
   ],
   "note": "Proved for series with 0<y<capacity at both ends when no series starts at zero; refuted otherwise: a zero start of one series changes the others."
  },
  {
   "property": "C42",
   "status": "partial",
   "theorems": [
    "PV.C42_first_partial",
    "PV.C42_last",
    "PV.C42_last_refuted",
    "PV.C42_prior_location",
    "PV.C42_prior_refuted",
    "PV.C42_offset_location"
   ],
   "note": "The first point is met; refuted at the last one (sign of the rate) and for the prior location (the suggested rate is not used). What is used instead is proved."
  },
  {
   "property": "C43",
   "status": "proved",
   "theorems": [
    "PV.C43_lined_up",
    "PV.C43_fit"
   ],
   "note": ""
  },
  {
   "property": "C44",
   "status": "proved",
   "theorems": [
    "PV.C44_positive",
    "PV.C44_identity",
    "PV.C44_monotone",
    "PV.C44_continuous",
    "PV.C44_gamma_observation",
    "PV.C44_count_observation"
   ],
   "note": ""
  },
  {
   "property": "C45",
   "status": "proved",
   "theorems": [
    "PV.C45_moments"
   ],
   "note": ""
  },
  {
   "property": "C46",
   "status": "partial",
   "theorems": [
    "PV.C46_valid",
    "PV.C46_actual",
    "PV.C46_equal_partial",
    "PV.C46_covariance_refuted",
    "PV.C46_correlation_refuted"
   ],
   "note": "Symmetric positive definite is proved; refuted that the covariance is std_i*std_j*R_ij: the one used is C46_actual; with equal standard deviations it is the intended one times their square (C46_equal_partial)."
  },
  {
   "property": "C47",
   "status": "proved",
   "theorems": [
    "PV.C47_nan_raises",
    "PV.C47_number_succeeds",
    "PV.C47_only_nan",
    "PV.C47_fit_raises",
    "PV.C47_fit_succeeds"
   ],
   "note": "predict_samples and predict_all_sites do not check that fit succeeded; after a NaN loss they answer from the diverged parameters (example in Props/Engine.lean)."
  },
  {
   "property": "C48",
   "status": "proved",
   "theorems": [
    "PV.C48_expansion",
    "PV.C48_fit_transform",
    "PV.C48_flat_unchanged"
   ],
   "note": ""
  },
  {
   "property": "C49",
   "status": "partial",
   "theorems": [
    "PV.C49_shared_partial",
    "PV.C49_prefix_refuted",
    "PV.C49_special_refuted",
    "PV.C49_invalid_refuted",
    "PV.C49_frame_partial",
    "PV.C49_data_partial"
   ],
   "note": "Proved for plain names no one of which is a prefix of a shared one; refuted for prefixes and special characters."
  },
  {
   "property": "C50",
   "status": "partial",
   "theorems": [
    "PV.C50_series_partial",
    "PV.C50_pairs_partial",
    "PV.C50_dash_refuted",
    "PV.C50_feature_refuted"
   ],
   "note": "Proved for labels without '-' and '_' and for one feature across series of labels without '-'; refuted in general."
  },
  {
   "property": "C51",
   "status": "partial",
   "theorems": [
    "PV.C51_order_partial",
    "PV.C51_success",
    "PV.C51_column_order_refuted"
   ],
   "note": "Values, rows and the set of columns do not depend on the order; refuted for the order of columns, which decides which coefficient belongs to which column."
  },
  {
   "property": "C52",
   "status": "proved",
   "theorems": [
    "PV.C52_drops_aggregates",
    "PV.C52_no_bottom",
    "PV.C52_flat",
    "PV.C52_undoes_aggregation"
   ],
   "note": ""
  },
  {
   "property": "C53",
   "status": "proved",
   "theorems": [
    "PV.C53_entries",
    "PV.C53_ragged",
    "PV.C53_flat"
   ],
   "note": ""
  },
  {
   "property": "C54",
   "status": "partial",
   "theorems": [
    "PV.C54_reindex_partial",
    "PV.C54_series_iff_partial",
    "PV.C54_flat",
    "PV.C54_ragged_refuted",
    "PV.C54_unused_refuted"
   ],
   "note": "Proved when the series are the full product of the level values; refuted for ragged hierarchies and unused level values (C54_ragged_refuted, C54_unused_refuted)."
  },
  {
   "property": "C55",
   "status": "partial",
   "theorems": [
    "PV.C55_fit_partial",
    "PV.C55_predict_partial",
    "PV.C55_refuted"
   ],
   "note": "Proved for X sorted by label, for effects using the array of their columns; refuted for other row orders (C55_refuted)."
  },
  {
   "property": "C56",
   "status": "partial",
   "theorems": [
    "PV.C56_exact_partial",
    "PV.C56_special_refuted",
    "PV.C56_newline_refuted"
   ],
   "note": "Proved for names without special characters (up to a trailing newline); refuted for special characters and the newline."
  },
  {
   "property": "C57",
   "status": "partial",
   "theorems": [
    "PV.C57_starts_with_partial",
    "PV.C57_single_string",
    "PV.C57_empty_refuted",
    "PV.C57_special_refuted"
   ],
   "note": "Proved for non-empty lists of prefixes without special characters; refuted for the empty list and special characters."
  },
  {
   "property": "C58",
   "status": "partial",
   "theorems": [
    "PV.C58_no_input_columns_partial",
    "PV.C58_newline_refuted",
    "PV.C58_no_columns"
   ],
   "note": "Proved except for the name consisting of one newline."
  },
  {
   "property": "C59",
   "status": "proved",
   "theorems": [
    "PV.C59_constructor",
    "PV.C59_list_rejected"
   ],
   "note": ""
  },
  {
   "property": "C60",
   "status": "proved",
   "theorems": [
    "PV.C60_resolves",
    "PV.C60_trend_table",
    "PV.C60_likelihood_table",
    "PV.C60_discrete",
    "PV.C60_engine"
   ],
   "note": ""
  },
  {
   "property": "C61",
   "status": "proved",
   "theorems": [
    "PV.C61_seasonal"
   ],
   "note": ""
  },
  {
   "property": "C62",
   "status": "proved",
   "theorems": [
    "PV.C62_replace",
    "PV.C62_setter",
    "PV.C62_triples_rejected"
   ],
   "note": ""
  },
  {
   "property": "C63",
   "status": "proved",
   "theorems": [
    "PV.C63_repeatable",
    "PV.C63_readonly"
   ],
   "note": ""
  },
  {
   "property": "C64",
   "status": "proved",
   "theorems": [
    "PV.C64_builtin_trends",
    "PV.C64_refit"
   ],
   "note": "A user's trend object and feature transformer are assumed to forget earlier fits (sktime contract for transformers; proved for the built-in trends in C64_builtin_trends)."
  },
  {
   "property": "C65",
   "status": "proved",
   "theorems": [
    "PV.C65_reproducible",
    "PV.C65_default_key",
    "PV.C65_only_key"
   ],
   "note": ""
  },
  {
   "property": "C66",
   "status": "proved",
   "theorems": [
    "PV.C66_fit",
    "PV.C66_predict",
    "PV.C66_builtin"
   ],
   "note": ""
  },
  {
   "property": "C68",
   "status": "proved",
   "theorems": [
    "PV.C68_panel",
    "PV.C68_single",
    "PV.C68_single_flag",
    "PV.C68_array",
    "PV.C68_fit",
    "PV.C68_fit_flat"
   ],
   "note": ""
  },
  {
   "property": "C69",
   "status": "proved",
   "theorems": [
    "PV.C69_fit",
    "PV.C69_predict",
    "PV.C69_samples",
    "PV.C69_aggregated",
    "PV.C69_builtin"
   ],
   "note": ""
  },
  {
   "property": "C70",
   "status": "partial",
   "theorems": [
    "PV.C70_univariate",
    "PV.C70_mean",
    "PV.C70_hierarchical",
    "PV.C70_hierarchical_noX_partial",
    "PV.C70_ragged_partial",
    "PV.C70_piecewise_blind",
    "PV.C70_flat_ragged_refuted"
   ],
   "note": "Proved with X, and without X for crossed and balanced panels or for trends that do not read the table. False of the code for the flat trend without X when some combination of labels is no series (C70_flat_ragged_refuted): the prediction table has a row for every combination."
  },
  {
   "property": "C71",
   "status": "proved",
   "theorems": [
    "PV.C71_closed_form",
    "PV.C71_other_dates",
    "PV.C71_effect",
    "PV.C71_piecewise",
    "PV.C71_flat",
    "PV.C71_logistic",
    "PV.C71_builtin_effects",
    "PV.C71_forecaster",
    "PV.C71_piecewise_fitted"
   ],
   "note": ""
  },
  {
   "property": "C67",
   "status": "partial",
   "theorems": [
    "PV.C67_univariate_partial",
    "PV.C67_hierarchical",
    "PV.C67_builtin_trends",
    "PV.C67_dropped_column_refuted"
   ],
   "note": "Hierarchical forecaster: proved. Univariate: proved when the transformed X keeps the columns of X; refuted otherwise (KeyError)."
  },
  {
   "property": "C72",
   "status": "proved",
   "theorems": [
    "PV.C72_univariate",
    "PV.C72_no_X",
    "PV.C72_hierarchical"
   ],
   "note": ""
  },
  {
   "property": "C73",
   "status": "proved",
   "theorems": [
    "PV.C73_effect",
    "PV.C73_effects",
    "PV.C73_builtin_tags",
    "PV.C73_hierarchical"
   ],
   "note": ""
  },
  {
   "property": "C74",
   "status": "proved",
   "theorems": [
    "PV.C74_closed_form",
    "PV.C74_effect",
    "PV.C74_piecewise",
    "PV.C74_piecewise_fitted",
    "PV.C74_own_rows",
    "PV.C74_forecaster",
    "PV.C74_logistic",
    "PV.C74_logistic_fitted",
    "PV.C74_logistic_forecaster",
    "PV.C74_logistic_bounds"
   ],
   "note": ""
  },
  {
   "property": "C75",
   "status": "partial",
   "theorems": [
    "PV.C75_unknowns",
    "PV.C75_contributions",
    "PV.C75_trend_names_refuted",
    "PV.C75_likelihood_names_refuted",
    "PV.C75_plate_names_refuted",
    "PV.C75_slash_refuted",
    "PV.C75_nested_lift_refuted"
   ],
   "note": "Proved for distinct names without '/' that are not reserved; for each kind of reserved name, for '/' and for nested lift experiments the failure is proved."
  },
  {
   "property": "C76",
   "status": "proved",
   "theorems": [
    "PV.C76_reads",
    "PV.C76_lift_reads",
    "PV.C76_trend_only",
    "PV.C76_isolated"
   ],
   "note": "For effects that use the trend at most (all effects of the package, C76_trend_only)."
  },
  {
   "property": "C77",
   "status": "proved",
   "theorems": [
    "PV.C77_blocks",
    "PV.C77_other_rows",
    "PV.C77_separate"
   ],
   "note": "fit trains one clone per series on its own rows: sktime contract, modelled. Labels of X must have as many levels as those of y."
  },
  {
   "property": "C78",
   "status": "proved",
   "theorems": [
    "PV.C78_calendar",
    "PV.C78_piecewise",
    "PV.C78_flat",
    "PV.C78_date_blind",
    "PV.C78_fourier",
    "PV.C78_fourier_shift"
   ],
   "note": "Simulation over all histories; C78_piecewise, C78_flat, C78_date_blind, C78_fourier say which trends and effects qualify. C78_fourier_shift: the contract of sktime's FourierFeatures qualifies for shifts."
  },
  {
   "property": "C79",
   "status": "partial",
   "theorems": [
    "PV.C79_jump_refuted",
    "PV.C79_whole_steps_partial",
    "PV.C79_daily_refuted"
   ],
   "note": "Refuted between training steps (jump at every changepoint); proved on the grid of the training data for whole intervals."
  },
  {
   "property": "C80",
   "status": "proved",
   "theorems": [
    "PV.C80_rejected",
    "PV.C80_index",
    "PV.C80_dates",
    "PV.C80_after_training",
    "PV.C80_order",
    "PV.C80_rejected_readonly",
    "PV.C80_steps_are_dates",
    "PV.C80_own_cutoff"
   ],
   "note": "sktime's ForecastingHorizon enters by its contract (checks, sorting, k-th date after the cutoff)."
  },
  {
   "property": "C81",
   "status": "partial",
   "theorems": [
    "PV.C81_objects_partial",
    "PV.C81_objects_no_trend",
    "PV.C81_named_partial",
    "PV.C81_no_trend",
    "PV.C81_default_trend_refuted",
    "PV.C81_defaults",
    "PV.C81_constructible",
    "PV.C81_likelihood"
   ],
   "note": "Proved when a trend is given (and what happens otherwise); refuted without one: the documented default is linear, the three classes use logistic."
  },
  {
   "property": "C82",
   "status": "partial",
   "theorems": [
    "PV.C82_named_partial",
    "PV.C82_optax_refuted",
    "PV.C82_optax_arguments",
    "PV.C82_other_settings",
    "PV.C82_bad_optimizer"
   ],
   "note": "Proved for names of numpyro.optim and for the independence of the settings; refuted for names beginning with optax, which all give the same optimizer."
  },
  {
   "property": "C83",
   "status": "partial",
   "theorems": [
    "PV.C83_var_names_refuted",
    "PV.C83_plot_trace_refuted",
    "PV.C83_site_names_partial"
   ],
   "note": "Refuted: var_names is always empty and plot_trace always raises AttributeError, because the attributes they read are never set. site_names is proved."
  },
  {
   "property": "C84",
   "status": "proved",
   "theorems": [
    "PV.C84_value",
    "PV.C84_panel",
    "PV.C84_own_coefs",
    "PV.C84_seasonal",
    "PV.C84_seasonal_panel"
   ],
   "note": "One series and panels; sktime's FourierFeatures by the contract in Model/FourierFeatures.lean."
  },
  {
   "property": "C85",
   "status": "proved",
   "theorems": [
    "PV.C85_defined",
    "PV.C85_distributions",
    "PV.C85_names",
    "PV.C85_terms",
    "PV.C85_posterior",
    "PV.C85_linear_prior",
    "PV.C85_log_prior",
    "PV.C85_hill_prior",
    "PV.C85_piecewise_prior",
    "PV.C85_lift_terms",
    "PV.C85_flat_prior",
    "PV.C85_logistic_prior",
    "PV.C85_prophet",
    "PV.C85_one_observation"
   ],
   "note": ""
  },
  {
   "property": "C86",
   "status": "proved",
   "theorems": [
    "PV.C86_panel",
    "PV.C86_panel_builtin",
    "PV.C86_order",
    "PV.C86_builtin"
   ],
   "note": ""
  },
  {
   "property": "C87",
   "status": "partial",
   "theorems": [
    "PV.C87_partial",
    "PV.C87_passed_partial",
    "PV.C87_capacity",
    "PV.C87_linear_refuted",
    "PV.C87_logistic_refuted"
   ],
   "note": "Proved for the defaults that agree and for arguments passed; refuted for the prior of LinearEffect and for offset_prior_scale of PiecewiseLogisticTrend."
  },
  {
   "property": "C88",
   "status": "proved",
   "theorems": [
    "PV.C88_point",
    "PV.C88_quantiles",
    "PV.C88_single_series",
    "PV.C88_hierarchy",
    "PV.C88_point_hierarchy"
   ],
   "note": ""
  },
  {
   "property": "C89",
   "status": "proved",
   "theorems": [
    "PV.C89_least_squares",
    "PV.C89_on_a_line",
    "PV.C89_not_removed",
    "PV.C89_pattern_ignored"
   ],
   "note": ""
  },
  {
   "property": "C90",
   "status": "proved",
   "theorems": [
    "PV.C90_fitted",
    "PV.C90_posterior",
    "PV.C90_single",
    "PV.C90_uncorrelated"
   ],
   "note": ""
  },
  {
   "property": "C91",
   "status": "proved",
   "theorems": [
    "PV.C91_learned"
   ],
   "note": ""
  },
  {
   "property": "C92",
   "status": "proved",
   "theorems": [
    "PV.C92_fit",
    "PV.C92_predict"
   ],
   "note": ""
  },
  {
   "property": "C93",
   "status": "proved",
   "theorems": [
    "PV.C93_panel",
    "PV.C93_flat",
    "PV.C93_refused",
    "PV.C93_days"
   ],
   "note": ""
  },
  {
   "property": "C94",
   "status": "proved",
   "theorems": [
    "PV.C94_exists",
    "PV.C94_concave",
    "PV.C94_unique",
    "PV.C94_usual_exists",
    "PV.C94_usual_concave",
    "PV.C94_usual_unique"
   ],
   "note": ""
  },
  {
   "property": "C95",
   "status": "proved",
   "theorems": [
    "PV.C95_defined",
    "PV.C95_forecast",
    "PV.C95_no_X",
    "PV.C95_seasonal",
    "PV.C95_posterior",
    "PV.C95_waves",
    "PV.C95_one_season"
   ],
   "note": ""
  },
  {
   "property": "C96",
   "status": "proved",
   "theorems": [
    "PV.C96_fit",
    "PV.C96_forecast",
    "PV.C96_posterior",
    "PV.C96_parameters",
    "PV.C96_best",
    "PV.C96_mirror_units",
    "PV.C96_shift_units"
   ],
   "note": ""
  },
  {
   "property": "C97",
   "status": "proved",
   "theorems": [
    "PV.C97_prior",
    "PV.C97_best",
    "PV.C97_unseen",
    "PV.C97_shared",
    "PV.C97_forecast"
   ],
   "note": ""
  },
  {
   "property": "C98",
   "status": "proved",
   "theorems": [
    "PV.C98_best",
    "PV.C98_fits",
    "PV.C98_forecasts"
   ],
   "note": ""
  },
  {
   "property": "C99",
   "status": "proved",
   "theorems": [
    "PV.C99_exists",
    "PV.C99_unbounded",
    "PV.C99_iff",
    "PV.C99_constant",
    "PV.C99_counts"
   ],
   "note": ""
  },
  {
   "property": "C100",
   "status": "proved",
   "theorems": [
    "PV.C100_counts",
    "PV.C100_panel",
    "PV.C100_proper",
    "PV.C100_improper",
    "PV.C100_constant"
   ],
   "note": ""
  },
  {
   "property": "C101",
   "status": "proved",
   "theorems": [
    "PV.C101_effect",
    "PV.C101_changepoints",
    "PV.C101_effect_vanishes",
    "PV.C101_changepoints_vanish"
   ],
   "note": ""
  },
  {
   "property": "C102",
   "status": "proved",
   "theorems": [
    "PV.C102_normal",
    "PV.C102_gamma",
    "PV.C102_counts",
    "PV.C102_panel",
    "PV.C102_priors"
   ],
   "note": ""
  },
  {
   "property": "C103",
   "status": "partial",
   "theorems": [
    "PV.C103_forecasters",
    "PV.C103_likelihood",
    "PV.C103_plain",
    "PV.C103_priors_partial",
    "PV.C103_logistic_clone",
    "PV.C103_logistic_refuted"
   ],
   "note": "Proved for every class except PiecewiseLogisticTrend, which takes squeeze_if_single_series and remove_seasonality_before_suggesting_initial_vals through **kwargs: clone loses them (C103_logistic_refuted; C103_logistic_clone says exactly what is lost)."
  },
  {
   "property": "C104",
   "status": "partial",
   "theorems": [
    "PV.C104_forecasters",
    "PV.C104_effects_partial",
    "PV.C104_missing",
    "PV.C104_piecewise_ignored",
    "PV.C104_trends_refuted"
   ],
   "note": "Proved for forecasters, effects, the flat trend and the column expander; the two piecewise trends accept and ignore unknown names (C104_trends_refuted, C104_piecewise_ignored)."
  },
  {
   "property": "C105",
   "status": "partial",
   "theorems": [
    "PV.C105_others",
    "PV.C105_dates",
    "PV.C105_univariate",
    "PV.C105_hierarchical",
    "PV.C105_hierarchical_partial",
    "PV.C105_refit",
    "PV.C105_refuted"
   ],
   "note": "Proved for dates (all forecasters), for steps of univariate forecasters and for updates with refitting. For steps HierarchicalProphet returns the numbers of the dates counted from the end of the training data under labels counted from the end of the new data (C105_refuted, C105_hierarchical); proved if the updates bring no later date (C105_hierarchical_partial)."
  },
  {
   "property": "C106",
   "status": "partial",
   "theorems": [
    "PV.C106_what_if",
    "PV.C106_linear",
    "PV.C106_proportional",
    "PV.C106_removed_partial",
    "PV.C106_log_removed_partial",
    "PV.C106_hill_refuted",
    "PV.C106_builtin"
   ],
   "note": "Proved for all effects computed row by row; removal by zero columns for linear and log effects. For a Hill effect zero columns give max_effect (C106_hill_refuted)."
  },
  {
   "property": "C107",
   "status": "partial",
   "theorems": [
    "PV.C107_panel",
    "PV.C107_monotone_partial"
   ],
   "note": "Proved for Hill inputs that stay positive; false when a Hill input rises from zero (C106_hill_refuted with the roles of the tables exchanged, C27_monotone_refuted)."
  },
  {
   "property": "C108",
   "status": "proved",
   "theorems": [
    "PV.C108_diminishing"
   ],
   "note": ""
  },
  {
   "property": "C109",
   "status": "proved",
   "theorems": [
    "PV.C109_posterior",
    "PV.C109_forecast",
    "PV.C109_exists",
    "PV.C109_best",
    "PV.C109_same",
    "PV.C109_order",
    "PV.C109_grouping"
   ],
   "note": ""
  },
  {
   "property": "C110",
   "status": "proved",
   "theorems": [
    "PV.C110_units"
   ],
   "note": ""
  },
  {
   "property": "C111",
   "status": "proved",
   "theorems": [
    "PV.C111_point",
    "PV.C111_normal",
    "PV.C111_map_normal",
    "PV.C111_map_gamma",
    "PV.C111_map_counts"
   ],
   "note": ""
  },
  {
   "property": "C112",
   "status": "proved",
   "theorems": [
    "PV.C112_quantile",
    "PV.C112_interval",
    "PV.C112_forecast"
   ],
   "note": ""
  },
  {
   "property": "C113",
   "status": "proved",
   "theorems": [
    "PV.C113_fits",
    "PV.C113_forecasts",
    "PV.C113_density"
   ],
   "note": ""
  },
  {
   "property": "C114",
   "status": "proved",
   "theorems": [
    "PV.C114_exists",
    "PV.C114_concave",
    "PV.C114_unique"
   ],
   "note": ""
  },
  {
   "property": "C115",
   "status": "proved",
   "theorems": [
    "PV.C115_closed_form",
    "PV.C115_what_if"
   ],
   "note": ""
  },
  {
   "property": "C116",
   "status": "proved",
   "theorems": [
    "PV.C116_separate",
    "PV.C116_forecasts"
   ],
   "note": ""
  },
  {
   "property": "C117",
   "status": "proved",
   "theorems": [
    "PV.C117_range_past_history",
    "PV.C117_line",
    "PV.C117_saturates"
   ],
   "note": ""
  },
  {
   "property": "C118",
   "status": "proved",
   "theorems": [
    "PV.C118_fits",
    "PV.C118_one_column",
    "PV.C118_forecasts"
   ],
   "note": ""
  },
  {
   "property": "C119",
   "status": "proved",
   "theorems": [
    "PV.C119_exists",
    "PV.C119_usual",
    "PV.C119_terms",
    "PV.C119_precision",
    "PV.C119_closer",
    "PV.C119_limit",
    "PV.C119_outside",
    "PV.C119_forecast",
    "PV.C119_works"
   ],
   "note": ""
  },
  {
   "property": "C120",
   "status": "proved",
   "theorems": [
    "PV.C120_posterior",
    "PV.C120_forecast",
    "PV.C120_best"
   ],
   "note": ""
  },
  {
   "property": "C121",
   "status": "proved",
   "theorems": [
    "PV.C121_offset",
    "PV.C121_changepoints",
    "PV.C121_effect",
    "PV.C121_noise"
   ],
   "note": ""
  },
  {
   "property": "C122",
   "status": "proved",
   "theorems": [
    "PV.C122_unbounded",
    "PV.C122_no_fit",
    "PV.C122_constant"
   ],
   "note": ""
  },
  {
   "property": "C123",
   "status": "proved",
   "theorems": [
    "PV.C123_centre",
    "PV.C123_centre_lipschitz",
    "PV.C123_smooth",
    "PV.C123_lipschitz",
    "PV.C123_outlier",
    "PV.C123_unique",
    "PV.C123_line"
   ],
   "note": ""
  },
  {
   "property": "C124",
   "status": "proved",
   "theorems": [
    "PV.C124_fit",
    "PV.C124_predict",
    "PV.C124_density",
    "PV.C124_best",
    "PV.C124_trends",
    "PV.C124_samples",
    "PV.C124_usual"
   ],
   "note": ""
  },
  {
   "property": "C125",
   "status": "proved",
   "theorems": [
    "PV.C125_penalised",
    "PV.C125_oracle",
    "PV.C125_exact",
    "PV.C125_noise",
    "PV.C125_cost",
    "PV.C125_bound"
   ],
   "note": ""
  },
  {
   "property": "C126",
   "status": "proved",
   "theorems": [
    "PV.C126_law",
    "PV.C126_dates",
    "PV.C126_symmetric",
    "PV.C126_univariate"
   ],
   "note": ""
  },
  {
   "property": "C127",
   "status": "proved",
   "theorems": [
    "PV.C127_variance",
    "PV.C127_normal",
    "PV.C127_map",
    "PV.C127_horizon",
    "PV.C127_unbounded"
   ],
   "note": ""
  },
  {
   "property": "C128",
   "status": "proved",
   "theorems": [
    "PV.C128_contains",
    "PV.C128_best",
    "PV.C128_squares",
    "PV.C128_added",
    "PV.C128_panel"
   ],
   "note": ""
  },
  {
   "property": "C129",
   "status": "proved",
   "theorems": [
    "PV.C129_unseen",
    "PV.C129_share",
    "PV.C129_copies",
    "PV.C129_together"
   ],
   "note": ""
  },
  {
   "property": "C130",
   "status": "proved",
   "theorems": [
    "PV.C130_bounded",
    "PV.C130_given",
    "PV.C130_gap",
    "PV.C130_exists",
    "PV.C130_proper",
    "PV.C130_unbounded",
    "PV.C130_iff",
    "PV.C130_constant"
   ],
   "note": ""
  },
  {
   "property": "C131",
   "status": "proved",
   "theorems": [
    "PV.C131_penalised",
    "PV.C131_oracle",
    "PV.C131_exact",
    "PV.C131_bound",
    "PV.C131_uncorrelated"
   ],
   "note": ""
  },
  {
   "property": "C132",
   "status": "proved",
   "theorems": [
    "PV.C132_distance",
    "PV.C132_mean",
    "PV.C132_effect",
    "PV.C132_limit",
    "PV.C132_panel"
   ],
   "note": ""
  },
  {
   "property": "C133",
   "status": "proved",
   "theorems": [
    "PV.C133_centre",
    "PV.C133_centre_lipschitz",
    "PV.C133_smooth",
    "PV.C133_lipschitz",
    "PV.C133_later",
    "PV.C133_line"
   ],
   "note": ""
  },
  {
   "property": "C134",
   "status": "proved",
   "theorems": [
    "PV.C134_small",
    "PV.C134_large",
    "PV.C134_noise",
    "PV.C134_scale",
    "PV.C134_panel_small",
    "PV.C134_panel_large",
    "PV.C134_line",
    "PV.C134_panel_line"
   ],
   "note": ""
  },
  {
   "property": "C135",
   "status": "proved",
   "theorems": [
    "PV.C135_offset",
    "PV.C135_effect",
    "PV.C135_changepoints"
   ],
   "note": ""
  },
  {
   "property": "C136",
   "status": "proved",
   "theorems": [
    "PV.C136_line",
    "PV.C136_saturates"
   ],
   "note": ""
  },
  {
   "property": "C137",
   "status": "proved",
   "theorems": [
    "PV.C137_unseen",
    "PV.C137_ignored",
    "PV.C137_share"
   ],
   "note": ""
  },
  {
   "property": "C138",
   "status": "proved",
   "theorems": [
    "PV.C138_aggregate",
    "PV.C138_normal",
    "PV.C138_map",
    "PV.C138_uncorrelated"
   ],
   "note": ""
  },
  {
   "property": "C139",
   "status": "proved",
   "theorems": [
    "PV.C139_curve",
    "PV.C139_prepared",
    "PV.C139_works",
    "PV.C139_fails"
   ],
   "note": ""
  },
  {
   "property": "C140",
   "status": "proved",
   "theorems": [
    "PV.C140_univariate",
    "PV.C140_hierarchical",
    "PV.C140_errors"
   ],
   "note": ""
  },
  {
   "property": "C141",
   "status": "proved",
   "theorems": [
    "PV.C141_components",
    "PV.C141_map"
   ],
   "note": ""
  },
  {
   "property": "C142",
   "status": "proved",
   "theorems": [
    "PV.C142_saturates",
    "PV.C142_table",
    "PV.C142_what_if",
    "PV.C142_line"
   ],
   "note": ""
  },
  {
   "property": "C143",
   "status": "proved",
   "theorems": [
    "PV.C143_components",
    "PV.C143_map",
    "PV.C143_answers",
    "PV.C143_table",
    "PV.C143_what_if",
    "PV.C143_line",
    "PV.C143_fits"
   ],
   "note": ""
  },
  {
   "property": "C144",
   "status": "proved",
   "theorems": [
    "PV.C144_panel",
    "PV.C144_table",
    "PV.C144_answers",
    "PV.C144_least_squares"
   ],
   "note": ""
  },
  {
   "property": "C145",
   "status": "proved",
   "theorems": [
    "PV.C145_posterior",
    "PV.C145_best",
    "PV.C145_forecast"
   ],
   "note": ""
  }
 ]
}