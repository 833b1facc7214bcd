# Axioms of each property theorem

Output of `#print axioms` (name space `PV`), by theorem.

| theorem | axioms |
|---|---|
| `C01_own_series_scale` | propext, Classical.choice, Quot.sound |
| `C01_scale_roundtrip` | propext, Classical.choice, Quot.sound |
| `C01_user_scale` | propext, Quot.sound |
| `C01_user_table` | propext, Quot.sound |
| `C02_accepts_partial` | propext, Classical.choice, Quot.sound |
| `C02_int_scale_refuted` | propext, Quot.sound |
| `C02_zero_series_refuted` | propext, Classical.choice, Quot.sound |
| `C03_inferred_scale_normalises` | propext, Classical.choice, Quot.sound |
| `C04_point_scales` | propext, Quot.sound |
| `C04_quantiles_scale` | propext, Classical.choice, Quot.sound |
| `C04_same_model_data` | propext, Classical.choice, Quot.sound |
| `C04_samples_scale` | propext, Classical.choice, Quot.sound |
| `C04_zero_series_refuted` | propext, Classical.choice, Quot.sound |
| `C05_configured` | propext, Classical.choice, Quot.sound |
| `C05_draws_unscaled` | propext, Classical.choice, Quot.sound |
| `C05_negbin_mean` | propext, Classical.choice, Quot.sound |
| `C05_others_scaled` | propext, Quot.sound |
| `C05_target_unscaled` | propext, Quot.sound |
| `C06_every_draw_filed` | propext, Classical.choice, Quot.sound |
| `C06_sample_alignment` | propext, Classical.choice, Quot.sound |
| `C06_succeeds` | propext, Classical.choice, Quot.sound |
| `C07_point_is_mean` | propext, Classical.choice, Quot.sound |
| `C08_accepts` | propext, Quot.sound |
| `C08_bounds` | propext, Classical.choice, Quot.sound |
| `C08_extremes` | propext, Classical.choice, Quot.sound |
| `C08_is_quantile` | propext, Classical.choice, Quot.sound |
| `C08_labelled` | propext, Classical.choice, Quot.sound |
| `C08_monotone` | propext, Classical.choice, Quot.sound |
| `C09_flat` | propext, Classical.choice, Quot.sound |
| `C09_index` | propext, Classical.choice, Quot.sound |
| `C09_series` | propext, Quot.sound |
| `C100_constant` | propext, Classical.choice, Quot.sound |
| `C100_counts` | propext, Classical.choice, Quot.sound |
| `C100_improper` | propext, Classical.choice, Quot.sound |
| `C100_panel` | propext, Classical.choice, Quot.sound |
| `C100_proper` | propext, Classical.choice, Quot.sound |
| `C101_changepoints` | propext, Classical.choice, Quot.sound |
| `C101_changepoints_vanish` | propext, Classical.choice, Quot.sound |
| `C101_effect` | propext, Classical.choice, Quot.sound |
| `C101_effect_vanishes` | propext, Classical.choice, Quot.sound |
| `C102_counts` | propext, Classical.choice, Quot.sound |
| `C102_gamma` | propext, Classical.choice, Quot.sound |
| `C102_normal` | propext, Classical.choice, Quot.sound |
| `C102_panel` | propext, Classical.choice, Quot.sound |
| `C102_priors` | propext, Classical.choice, Quot.sound |
| `C103_forecasters` | propext, Classical.choice, Quot.sound |
| `C103_likelihood` | propext, Classical.choice, Quot.sound |
| `C103_logistic_clone` | propext, Classical.choice, Quot.sound |
| `C103_logistic_refuted` | propext, Classical.choice, Quot.sound |
| `C103_plain` | propext, Classical.choice, Quot.sound |
| `C103_priors_partial` | propext, Classical.choice, Quot.sound |
| `C104_effects_partial` | propext, Classical.choice, Quot.sound |
| `C104_forecasters` | propext, Classical.choice, Quot.sound |
| `C104_missing` | propext, Quot.sound |
| `C104_piecewise_ignored` | propext, Quot.sound |
| `C104_trends_refuted` | propext, Classical.choice, Quot.sound |
| `C105_dates` | propext, Classical.choice, Quot.sound |
| `C105_hierarchical` | propext, Classical.choice, Quot.sound |
| `C105_hierarchical_partial` | propext, Classical.choice, Quot.sound |
| `C105_others` | propext, Classical.choice, Quot.sound |
| `C105_refit` | propext, Classical.choice, Quot.sound |
| `C105_refuted` | propext, Classical.choice, Quot.sound |
| `C105_univariate` | propext, Classical.choice, Quot.sound |
| `C106_builtin` | propext, Classical.choice, Quot.sound |
| `C106_hill_refuted` | propext, Classical.choice, Quot.sound |
| `C106_linear` | propext, Classical.choice, Quot.sound |
| `C106_log_removed_partial` | propext, Classical.choice, Quot.sound |
| `C106_proportional` | propext, Classical.choice, Quot.sound |
| `C106_removed_partial` | propext, Classical.choice, Quot.sound |
| `C106_what_if` | propext, Classical.choice, Quot.sound |
| `C107_monotone_partial` | propext, Classical.choice, Quot.sound |
| `C107_panel` | propext, Classical.choice, Quot.sound |
| `C108_diminishing` | propext, Classical.choice, Quot.sound |
| `C109_best` | propext, Classical.choice, Quot.sound |
| `C109_exists` | propext, Classical.choice, Quot.sound |
| `C109_forecast` | propext, Classical.choice, Quot.sound |
| `C109_grouping` | propext, Classical.choice, Quot.sound |
| `C109_order` | propext, Classical.choice, Quot.sound |
| `C109_posterior` | propext, Classical.choice, Quot.sound |
| `C109_same` | propext, Classical.choice, Quot.sound |
| `C10_aggregate_coherent` | propext, Classical.choice, Quot.sound |
| `C10_aggregates_present` | propext, Classical.choice, Quot.sound |
| `C10_labels_distinct` | propext, Classical.choice, Quot.sound |
| `C10_point_coherent` | propext, Classical.choice, Quot.sound |
| `C10_predict_coherent` | propext, Classical.choice, Quot.sound |
| `C10_samples_coherent` | propext, Classical.choice, Quot.sound |
| `C110_units` | propext, Classical.choice, Quot.sound |
| `C111_map_counts` | propext, Classical.choice, Quot.sound |
| `C111_map_gamma` | propext, Classical.choice, Quot.sound |
| `C111_map_normal` | propext, Classical.choice, Quot.sound |
| `C111_normal` | propext, Classical.choice, Quot.sound |
| `C111_point` | propext, Classical.choice, Quot.sound |
| `C112_forecast` | propext, Classical.choice, Quot.sound |
| `C112_interval` | propext, Classical.choice, Quot.sound |
| `C112_quantile` | propext, Classical.choice, Quot.sound |
| `C113_density` | propext, Classical.choice, Quot.sound |
| `C113_fits` | propext, Classical.choice, Quot.sound |
| `C113_forecasts` | propext, Classical.choice, Quot.sound |
| `C114_concave` | propext, Classical.choice, Quot.sound |
| `C114_exists` | propext, Classical.choice, Quot.sound |
| `C114_unique` | propext, Classical.choice, Quot.sound |
| `C115_closed_form` | propext, Classical.choice, Quot.sound |
| `C115_what_if` | propext, Classical.choice, Quot.sound |
| `C116_forecasts` | propext, Classical.choice, Quot.sound |
| `C116_separate` | propext, Classical.choice, Quot.sound |
| `C117_line` | propext, Classical.choice, Quot.sound |
| `C117_range_past_history` | propext, Classical.choice, Quot.sound |
| `C117_saturates` | propext, Classical.choice, Quot.sound |
| `C118_fits` | propext, Classical.choice, Quot.sound |
| `C118_forecasts` | propext, Classical.choice, Quot.sound |
| `C118_one_column` | propext, Classical.choice, Quot.sound |
| `C119_closer` | propext, Classical.choice, Quot.sound |
| `C119_exists` | propext, Classical.choice, Quot.sound |
| `C119_forecast` | propext, Classical.choice, Quot.sound |
| `C119_limit` | propext, Classical.choice, Quot.sound |
| `C119_outside` | propext, Classical.choice, Quot.sound |
| `C119_precision` | propext, Classical.choice, Quot.sound |
| `C119_terms` | propext, Classical.choice, Quot.sound |
| `C119_usual` | propext, Classical.choice, Quot.sound |
| `C119_works` | propext, Classical.choice, Quot.sound |
| `C11_obs_refuted` | propext, Classical.choice, Quot.sound |
| `C11_series_major_partial` | propext, Classical.choice, Quot.sound |
| `C11_single_series_partial` | propext, Classical.choice, Quot.sound |
| `C120_best` | propext, Classical.choice, Quot.sound |
| `C120_forecast` | propext, Classical.choice, Quot.sound |
| `C120_posterior` | propext, Classical.choice, Quot.sound |
| `C121_changepoints` | propext, Classical.choice, Quot.sound |
| `C121_effect` | propext, Classical.choice, Quot.sound |
| `C121_noise` | propext, Classical.choice, Quot.sound |
| `C121_offset` | propext, Classical.choice, Quot.sound |
| `C122_constant` | propext, Classical.choice, Quot.sound |
| `C122_no_fit` | propext, Classical.choice, Quot.sound |
| `C122_unbounded` | propext, Classical.choice, Quot.sound |
| `C123_centre` | propext, Classical.choice, Quot.sound |
| `C123_centre_lipschitz` | propext, Classical.choice, Quot.sound |
| `C123_line` | propext, Classical.choice, Quot.sound |
| `C123_lipschitz` | propext, Classical.choice, Quot.sound |
| `C123_outlier` | propext, Classical.choice, Quot.sound |
| `C123_smooth` | propext, Classical.choice, Quot.sound |
| `C123_unique` | propext, Classical.choice, Quot.sound |
| `C124_best` | propext, Classical.choice, Quot.sound |
| `C124_density` | propext, Classical.choice, Quot.sound |
| `C124_fit` | propext, Classical.choice, Quot.sound |
| `C124_predict` | propext, Classical.choice, Quot.sound |
| `C124_samples` | propext, Classical.choice, Quot.sound |
| `C124_trends` | propext, Classical.choice, Quot.sound |
| `C124_usual` | propext, Classical.choice, Quot.sound |
| `C125_bound` | propext, Classical.choice, Quot.sound |
| `C125_cost` | propext, Classical.choice, Quot.sound |
| `C125_exact` | propext, Classical.choice, Quot.sound |
| `C125_noise` | propext, Classical.choice, Quot.sound |
| `C125_oracle` | propext, Classical.choice, Quot.sound |
| `C125_penalised` | propext, Classical.choice, Quot.sound |
| `C126_dates` | propext, Classical.choice, Quot.sound |
| `C126_law` | propext, Classical.choice, Quot.sound |
| `C126_symmetric` | propext, Classical.choice, Quot.sound |
| `C126_univariate` | propext, Classical.choice, Quot.sound |
| `C127_horizon` | propext, Classical.choice, Quot.sound |
| `C127_map` | propext, Classical.choice, Quot.sound |
| `C127_normal` | propext, Classical.choice, Quot.sound |
| `C127_unbounded` | propext, Classical.choice, Quot.sound |
| `C127_variance` | propext, Classical.choice, Quot.sound |
| `C128_added` | propext, Classical.choice, Quot.sound |
| `C128_best` | propext, Classical.choice, Quot.sound |
| `C128_contains` | propext, Classical.choice, Quot.sound |
| `C128_panel` | propext, Classical.choice, Quot.sound |
| `C128_squares` | propext, Classical.choice, Quot.sound |
| `C129_copies` | propext, Classical.choice, Quot.sound |
| `C129_share` | propext, Classical.choice, Quot.sound |
| `C129_together` | propext, Classical.choice, Quot.sound |
| `C129_unseen` | propext, Classical.choice, Quot.sound |
| `C12_mean_times_scale_partial` | propext, Classical.choice, Quot.sound |
| `C12_scale_refuted` | propext, Classical.choice, Quot.sound |
| `C130_bounded` | propext, Classical.choice, Quot.sound |
| `C130_constant` | propext, Classical.choice, Quot.sound |
| `C130_exists` | propext, Classical.choice, Quot.sound |
| `C130_gap` | propext, Classical.choice, Quot.sound |
| `C130_given` | propext, Classical.choice, Quot.sound |
| `C130_iff` | propext, Classical.choice, Quot.sound |
| `C130_proper` | propext, Classical.choice, Quot.sound |
| `C130_unbounded` | propext, Classical.choice, Quot.sound |
| `C131_bound` | propext, Classical.choice, Quot.sound |
| `C131_exact` | propext, Classical.choice, Quot.sound |
| `C131_oracle` | propext, Classical.choice, Quot.sound |
| `C131_penalised` | propext, Classical.choice, Quot.sound |
| `C131_uncorrelated` | propext, Classical.choice, Quot.sound |
| `C132_distance` | propext, Classical.choice, Quot.sound |
| `C132_effect` | propext, Classical.choice, Quot.sound |
| `C132_limit` | propext, Classical.choice, Quot.sound |
| `C132_mean` | propext, Classical.choice, Quot.sound |
| `C132_panel` | propext, Classical.choice, Quot.sound |
| `C133_centre` | propext, Classical.choice, Quot.sound |
| `C133_centre_lipschitz` | propext, Classical.choice, Quot.sound |
| `C133_later` | propext, Classical.choice, Quot.sound |
| `C133_line` | propext, Classical.choice, Quot.sound |
| `C133_lipschitz` | propext, Classical.choice, Quot.sound |
| `C133_smooth` | propext, Classical.choice, Quot.sound |
| `C134_large` | propext, Classical.choice, Quot.sound |
| `C134_line` | propext, Classical.choice, Quot.sound |
| `C134_noise` | propext, Classical.choice, Quot.sound |
| `C134_panel_large` | propext, Classical.choice, Quot.sound |
| `C134_panel_line` | propext, Classical.choice, Quot.sound |
| `C134_panel_small` | propext, Classical.choice, Quot.sound |
| `C134_scale` | propext, Classical.choice, Quot.sound |
| `C134_small` | propext, Classical.choice, Quot.sound |
| `C135_changepoints` | propext, Classical.choice, Quot.sound |
| `C135_effect` | propext, Classical.choice, Quot.sound |
| `C135_offset` | propext, Classical.choice, Quot.sound |
| `C136_line` | propext, Classical.choice, Quot.sound |
| `C136_saturates` | propext, Classical.choice, Quot.sound |
| `C137_ignored` | propext, Classical.choice, Quot.sound |
| `C137_share` | propext, Classical.choice, Quot.sound |
| `C137_unseen` | propext, Classical.choice, Quot.sound |
| `C138_aggregate` | propext, Classical.choice, Quot.sound |
| `C138_map` | propext, Classical.choice, Quot.sound |
| `C138_normal` | propext, Classical.choice, Quot.sound |
| `C138_uncorrelated` | propext, Classical.choice, Quot.sound |
| `C139_curve` | propext, Classical.choice, Quot.sound |
| `C139_fails` | propext, Classical.choice, Quot.sound |
| `C139_prepared` | propext, Classical.choice, Quot.sound |
| `C139_works` | propext, Classical.choice, Quot.sound |
| `C13_components_add_up_partial` | propext, Classical.choice, Quot.sound |
| `C13_negbin_refuted` | propext, Classical.choice, Quot.sound |
| `C13_normal` | propext, Classical.choice, Quot.sound |
| `C140_errors` | propext, Classical.choice, Quot.sound |
| `C140_hierarchical` | propext, Classical.choice, Quot.sound |
| `C140_univariate` | propext, Classical.choice, Quot.sound |
| `C141_components` | propext, Classical.choice, Quot.sound |
| `C141_map` | propext, Classical.choice, Quot.sound |
| `C142_line` | propext, Classical.choice, Quot.sound |
| `C142_saturates` | propext, Classical.choice, Quot.sound |
| `C142_table` | propext, Classical.choice, Quot.sound |
| `C142_what_if` | propext, Classical.choice, Quot.sound |
| `C143_answers` | propext, Classical.choice, Quot.sound |
| `C143_components` | propext, Classical.choice, Quot.sound |
| `C143_fits` | propext, Classical.choice, Quot.sound |
| `C143_line` | propext, Classical.choice, Quot.sound |
| `C143_map` | propext, Classical.choice, Quot.sound |
| `C143_table` | propext, Classical.choice, Quot.sound |
| `C143_what_if` | propext, Classical.choice, Quot.sound |
| `C144_answers` | propext, Classical.choice, Quot.sound |
| `C144_least_squares` | propext, Classical.choice, Quot.sound |
| `C144_panel` | propext, Classical.choice, Quot.sound |
| `C144_table` | propext, Classical.choice, Quot.sound |
| `C145_best` | propext, Classical.choice, Quot.sound |
| `C145_forecast` | propext, Classical.choice, Quot.sound |
| `C145_posterior` | propext, Classical.choice, Quot.sound |
| `C14_blocks_partial` | propext, Classical.choice, Quot.sound |
| `C14_labels_lost_refuted` | propext, Quot.sound |
| `C15_default` | propext, Classical.choice, Quot.sound |
| `C15_every_column` | propext, Classical.choice, Quot.sound |
| `C15_explicit` | propext, Classical.choice, Quot.sound |
| `C16_not_fatal` | propext, Classical.choice, Quot.sound |
| `C16_warnings` | propext, Classical.choice, Quot.sound |
| `C17_names` | propext, Classical.choice, Quot.sound |
| `C17_own_data` | propext, Quot.sound |
| `C18_builtin_tags` | none |
| `C18_no_contribution` | propext, Classical.choice, Quot.sound |
| `C18_skip` | propext, Classical.choice, Quot.sound |
| `C18_without_exog` | propext, Classical.choice, Quot.sound |
| `C19_builtin` | propext, Quot.sound |
| `C19_column_order` | propext, Quot.sound |
| `C19_missing_column` | propext |
| `C19_unfitted` | propext |
| `C20_rows_flat` | propext, Classical.choice, Quot.sound |
| `C20_rows_panel` | propext, Classical.choice, Quot.sound |
| `C21_hierarchical` | propext, Classical.choice, Quot.sound |
| `C21_missing_row` | propext, Classical.choice, Quot.sound |
| `C22_contribution` | propext, Classical.choice, Quot.sound |
| `C22_entries` | propext, Classical.choice, Quot.sound |
| `C22_made` | propext, Quot.sound |
| `C22_missing_trend` | propext |
| `C22_mode_error` | propext |
| `C22_mode_rejected` | propext, Classical.choice, Quot.sound |
| `C22_not_made` | propext, Classical.choice, Quot.sound |
| `C22_seasonal_fit` | propext, Quot.sound |
| `C22_seasonal_made` | propext, Quot.sound |
| `C22_succeeds` | propext, Classical.choice, Quot.sound |
| `C23_builtin` | propext, Classical.choice, Quot.sound |
| `C23_order_irrelevant` | propext, Classical.choice, Quot.sound |
| `C24_custom` | propext, Classical.choice, Quot.sound |
| `C24_mean_is_sum` | propext, Classical.choice, Quot.sound |
| `C24_sees_earlier` | propext, Quot.sound |
| `C25_effects_untouched` | propext, Classical.choice, Quot.sound |
| `C26_mixed_refuted` | propext, Classical.choice, Quot.sound |
| `C26_no_sharing_partial` | propext, Classical.choice, Quot.sound |
| `C26_transformer_refuted` | propext, Classical.choice, Quot.sound |
| `C26_trend_refuted` | propext, Classical.choice, Quot.sound |
| `C27_at_zero_refuted` | propext, Classical.choice, Quot.sound |
| `C27_hill_partial` | propext, Classical.choice, Quot.sound |
| `C27_monotone_refuted` | propext, Classical.choice, Quot.sound |
| `C28_log` | propext, Classical.choice, Quot.sound |
| `C29_feature_count` | propext |
| `C29_inner_product` | propext, Classical.choice, Quot.sound |
| `C29_linear_in_coefs` | propext, Classical.choice, Quot.sound |
| `C29_linear_in_data` | propext, Classical.choice, Quot.sound |
| `C29_zero` | propext, Classical.choice, Quot.sound |
| `C30_duplicate_dates` | propext |
| `C30_inner_data` | propext, Quot.sound |
| `C30_prior_scale` | propext, Quot.sound |
| `C30_terms` | propext, Classical.choice, Quot.sound |
| `C30_value` | propext |
| `C31_forecaster` | propext, Classical.choice, Quot.sound |
| `C31_refit_partial` | propext, Quot.sound |
| `C31_refit_refuted` | propext, Classical.choice, Quot.sound |
| `C31_unfitted_refuted` | propext |
| `C32_datetime_index_partial` | propext, Classical.choice, Quot.sound |
| `C32_integer_index` | propext, Classical.choice, Quot.sound |
| `C32_subsecond_refuted` | propext, Classical.choice, Quot.sound |
| `C33_affine_change` | propext, Classical.choice, Quot.sound |
| `C33_rescaling` | propext, Classical.choice, Quot.sound |
| `C33_shifts` | propext, Classical.choice, Quot.sound |
| `C34_failure` | propext, Classical.choice, Quot.sound |
| `C34_fit_fails` | propext, Classical.choice, Quot.sound |
| `C34_fitted` | propext, Classical.choice, Quot.sound |
| `C34_multiples` | propext, Classical.choice, Quot.sound |
| `C35_fitted_partial` | propext, Classical.choice, Quot.sound |
| `C35_one_refuted` | propext, Classical.choice, Quot.sound |
| `C35_range_partial` | propext, Classical.choice, Quot.sound |
| `C35_zero_refuted` | propext, Classical.choice, Quot.sound |
| `C36_integer_intervals` | propext, Classical.choice, Quot.sound |
| `C36_ramp_partial` | propext, Classical.choice, Quot.sound |
| `C36_refuted` | propext, Classical.choice, Quot.sound |
| `C37_extrapolation` | propext, Classical.choice, Quot.sound |
| `C37_last_slope` | propext, Quot.sound |
| `C37_linear` | propext, Classical.choice, Quot.sound |
| `C37_linear_panel` | propext, Classical.choice, Quot.sound |
| `C38_fitted` | propext, Classical.choice, Quot.sound |
| `C38_fitted_single` | propext, Classical.choice, Quot.sound |
| `C38_no_influence` | propext, Classical.choice, Quot.sound |
| `C38_own_trend` | propext, Classical.choice, Quot.sound |
| `C38_single` | propext, Classical.choice, Quot.sound |
| `C39_constant_partial` | propext, Classical.choice, Quot.sound |
| `C39_panel_refuted` | propext, Classical.choice, Quot.sound |
| `C39_prior` | propext, Classical.choice, Quot.sound |
| `C40_panel` | propext, Classical.choice, Quot.sound |
| `C40_single` | propext, Classical.choice, Quot.sound |
| `C41_default_capacity` | propext, Classical.choice, Quot.sound |
| `C41_failure` | propext, Classical.choice, Quot.sound |
| `C41_interpolates_partial` | propext, Classical.choice, Quot.sound |
| `C41_zero_start` | propext, Classical.choice, Quot.sound |
| `C41_zero_start_refuted` | propext, Classical.choice, Quot.sound |
| `C42_first_partial` | propext, Classical.choice, Quot.sound |
| `C42_last` | propext, Classical.choice, Quot.sound |
| `C42_last_refuted` | propext, Classical.choice, Quot.sound |
| `C42_offset_location` | propext, Classical.choice, Quot.sound |
| `C42_prior_location` | propext, Quot.sound |
| `C42_prior_refuted` | propext, Classical.choice, Quot.sound |
| `C43_fit` | propext, Quot.sound |
| `C43_lined_up` | propext, Quot.sound |
| `C44_continuous` | propext, Classical.choice, Quot.sound |
| `C44_count_observation` | propext, Classical.choice, Quot.sound |
| `C44_gamma_observation` | propext, Classical.choice, Quot.sound |
| `C44_identity` | propext, Classical.choice, Quot.sound |
| `C44_monotone` | propext, Classical.choice, Quot.sound |
| `C44_positive` | propext, Classical.choice, Quot.sound |
| `C45_moments` | propext, Classical.choice, Quot.sound |
| `C46_actual` | propext, Classical.choice, Quot.sound |
| `C46_correlation_refuted` | propext, Classical.choice, Quot.sound |
| `C46_covariance_refuted` | propext, Classical.choice, Quot.sound |
| `C46_equal_partial` | propext, Classical.choice, Quot.sound |
| `C46_valid` | propext, Classical.choice, Quot.sound |
| `C47_fit_raises` | propext, Classical.choice, Quot.sound |
| `C47_fit_succeeds` | propext, Classical.choice, Quot.sound |
| `C47_nan_raises` | propext |
| `C47_number_succeeds` | propext |
| `C47_only_nan` | propext, Quot.sound |
| `C48_expansion` | propext, Classical.choice, Quot.sound |
| `C48_fit_transform` | propext, Classical.choice, Quot.sound |
| `C48_flat_unchanged` | propext, Classical.choice, Quot.sound |
| `C49_data_partial` | propext, Classical.choice, Quot.sound |
| `C49_frame_partial` | propext, Classical.choice, Quot.sound |
| `C49_invalid_refuted` | propext, Classical.choice, Quot.sound |
| `C49_prefix_refuted` | propext, Classical.choice, Quot.sound |
| `C49_shared_partial` | propext, Classical.choice, Quot.sound |
| `C49_special_refuted` | propext, Classical.choice, Quot.sound |
| `C50_dash_refuted` | propext |
| `C50_feature_refuted` | propext |
| `C50_pairs_partial` | propext, Classical.choice, Quot.sound |
| `C50_series_partial` | propext, Classical.choice, Quot.sound |
| `C51_column_order_refuted` | propext, Classical.choice, Quot.sound |
| `C51_order_partial` | propext, Classical.choice, Quot.sound |
| `C51_success` | propext, Classical.choice, Quot.sound |
| `C52_drops_aggregates` | propext, Quot.sound |
| `C52_flat` | propext |
| `C52_no_bottom` | propext, Classical.choice, Quot.sound |
| `C52_undoes_aggregation` | propext, Classical.choice, Quot.sound |
| `C53_entries` | propext, Classical.choice, Quot.sound |
| `C53_flat` | propext, Classical.choice, Quot.sound |
| `C53_ragged` | propext, Classical.choice, Quot.sound |
| `C54_flat` | propext, Quot.sound |
| `C54_ragged_refuted` | propext |
| `C54_reindex_partial` | propext, Quot.sound |
| `C54_series_iff_partial` | propext, Quot.sound |
| `C54_unused_refuted` | propext |
| `C55_fit_partial` | propext, Classical.choice, Quot.sound |
| `C55_predict_partial` | propext, Classical.choice, Quot.sound |
| `C55_refuted` | propext, Classical.choice, Quot.sound |
| `C56_exact_partial` | propext, Classical.choice, Quot.sound |
| `C56_newline_refuted` | propext, Classical.choice, Quot.sound |
| `C56_special_refuted` | propext, Classical.choice, Quot.sound |
| `C57_empty_refuted` | propext, Classical.choice, Quot.sound |
| `C57_single_string` | propext, Classical.choice, Quot.sound |
| `C57_special_refuted` | propext, Classical.choice, Quot.sound |
| `C57_starts_with_partial` | propext, Classical.choice, Quot.sound |
| `C58_newline_refuted` | propext, Classical.choice, Quot.sound |
| `C58_no_columns` | propext, Classical.choice, Quot.sound |
| `C58_no_input_columns_partial` | propext, Classical.choice, Quot.sound |
| `C59_constructor` | propext, Classical.choice, Quot.sound |
| `C59_list_rejected` | propext |
| `C60_discrete` | propext, Classical.choice, Quot.sound |
| `C60_engine` | propext, Classical.choice, Quot.sound |
| `C60_likelihood_table` | propext, Classical.choice, Quot.sound |
| `C60_resolves` | propext, Quot.sound |
| `C60_trend_table` | propext, Classical.choice, Quot.sound |
| `C61_seasonal` | propext, Classical.choice, Quot.sound |
| `C62_replace` | propext, Quot.sound |
| `C62_setter` | propext, Classical.choice, Quot.sound |
| `C62_triples_rejected` | propext, Quot.sound |
| `C63_readonly` | propext, Classical.choice, Quot.sound |
| `C63_repeatable` | propext, Classical.choice, Quot.sound |
| `C64_builtin_trends` | propext, Classical.choice, Quot.sound |
| `C64_refit` | propext, Classical.choice, Quot.sound |
| `C65_default_key` | propext, Classical.choice, Quot.sound |
| `C65_only_key` | propext, Classical.choice, Quot.sound |
| `C65_reproducible` | propext, Classical.choice, Quot.sound |
| `C66_builtin` | propext |
| `C66_fit` | propext, Classical.choice, Quot.sound |
| `C66_predict` | propext, Quot.sound |
| `C67_builtin_trends` | propext, Quot.sound |
| `C67_dropped_column_refuted` | propext, Classical.choice, Quot.sound |
| `C67_hierarchical` | propext, Classical.choice, Quot.sound |
| `C67_univariate_partial` | propext, Classical.choice, Quot.sound |
| `C68_array` | propext, Classical.choice, Quot.sound |
| `C68_fit` | propext, Classical.choice, Quot.sound |
| `C68_fit_flat` | propext, Classical.choice, Quot.sound |
| `C68_panel` | propext, Classical.choice, Quot.sound |
| `C68_single` | propext, Classical.choice, Quot.sound |
| `C68_single_flag` | propext, Classical.choice, Quot.sound |
| `C69_aggregated` | propext, Classical.choice, Quot.sound |
| `C69_builtin` | propext, Quot.sound |
| `C69_fit` | propext, Classical.choice, Quot.sound |
| `C69_predict` | propext, Classical.choice, Quot.sound |
| `C69_samples` | propext, Classical.choice, Quot.sound |
| `C70_flat_ragged_refuted` | propext, Classical.choice, Quot.sound |
| `C70_hierarchical` | propext, Classical.choice, Quot.sound |
| `C70_hierarchical_noX_partial` | propext, Classical.choice, Quot.sound |
| `C70_mean` | propext, Classical.choice, Quot.sound |
| `C70_piecewise_blind` | propext, Quot.sound |
| `C70_ragged_partial` | propext, Classical.choice, Quot.sound |
| `C70_univariate` | propext, Classical.choice, Quot.sound |
| `C71_builtin_effects` | propext, Classical.choice, Quot.sound |
| `C71_closed_form` | propext, Classical.choice, Quot.sound |
| `C71_effect` | propext, Classical.choice, Quot.sound |
| `C71_flat` | propext, Classical.choice, Quot.sound |
| `C71_forecaster` | propext, Classical.choice, Quot.sound |
| `C71_logistic` | propext, Classical.choice, Quot.sound |
| `C71_other_dates` | propext, Classical.choice, Quot.sound |
| `C71_piecewise` | propext, Classical.choice, Quot.sound |
| `C71_piecewise_fitted` | propext, Classical.choice, Quot.sound |
| `C72_hierarchical` | propext, Classical.choice, Quot.sound |
| `C72_no_X` | propext, Classical.choice, Quot.sound |
| `C72_univariate` | propext, Classical.choice, Quot.sound |
| `C73_builtin_tags` | none |
| `C73_effect` | propext, Quot.sound |
| `C73_effects` | propext, Classical.choice, Quot.sound |
| `C73_hierarchical` | propext, Classical.choice, Quot.sound |
| `C74_closed_form` | propext, Classical.choice, Quot.sound |
| `C74_effect` | propext, Classical.choice, Quot.sound |
| `C74_forecaster` | propext, Classical.choice, Quot.sound |
| `C74_logistic` | propext, Classical.choice, Quot.sound |
| `C74_logistic_bounds` | propext, Classical.choice, Quot.sound |
| `C74_logistic_fitted` | propext, Classical.choice, Quot.sound |
| `C74_logistic_forecaster` | propext, Classical.choice, Quot.sound |
| `C74_own_rows` | propext, Classical.choice, Quot.sound |
| `C74_piecewise` | propext, Classical.choice, Quot.sound |
| `C74_piecewise_fitted` | propext, Classical.choice, Quot.sound |
| `C75_contributions` | propext, Classical.choice, Quot.sound |
| `C75_likelihood_names_refuted` | propext, Quot.sound |
| `C75_nested_lift_refuted` | propext, Quot.sound |
| `C75_plate_names_refuted` | propext, Classical.choice, Quot.sound |
| `C75_slash_refuted` | propext |
| `C75_trend_names_refuted` | propext, Classical.choice, Quot.sound |
| `C75_unknowns` | propext, Classical.choice, Quot.sound |
| `C76_isolated` | propext, Classical.choice, Quot.sound |
| `C76_lift_reads` | propext |
| `C76_reads` | propext, Classical.choice, Quot.sound |
| `C76_trend_only` | propext, Classical.choice, Quot.sound |
| `C77_blocks` | propext, Quot.sound |
| `C77_other_rows` | propext, Quot.sound |
| `C77_separate` | propext, Quot.sound |
| `C78_calendar` | propext, Classical.choice, Quot.sound |
| `C78_date_blind` | propext, Quot.sound |
| `C78_flat` | propext, Quot.sound |
| `C78_fourier` | propext, Quot.sound |
| `C78_fourier_shift` | propext, Classical.choice, Quot.sound |
| `C78_piecewise` | propext, Classical.choice, Quot.sound |
| `C79_daily_refuted` | propext, Classical.choice, Quot.sound |
| `C79_jump_refuted` | propext, Classical.choice, Quot.sound |
| `C79_whole_steps_partial` | propext, Classical.choice, Quot.sound |
| `C80_after_training` | propext, Classical.choice, Quot.sound |
| `C80_dates` | propext, Classical.choice, Quot.sound |
| `C80_index` | propext, Classical.choice, Quot.sound |
| `C80_order` | propext, Classical.choice, Quot.sound |
| `C80_own_cutoff` | propext, Classical.choice, Quot.sound |
| `C80_rejected` | propext, Quot.sound |
| `C80_rejected_readonly` | propext, Classical.choice, Quot.sound |
| `C80_steps_are_dates` | propext, Classical.choice, Quot.sound |
| `C81_constructible` | propext, Classical.choice, Quot.sound |
| `C81_default_trend_refuted` | propext, Classical.choice, Quot.sound |
| `C81_defaults` | propext, Quot.sound |
| `C81_likelihood` | propext, Classical.choice, Quot.sound |
| `C81_named_partial` | propext, Quot.sound |
| `C81_no_trend` | propext, Quot.sound |
| `C81_objects_no_trend` | propext, Classical.choice, Quot.sound |
| `C81_objects_partial` | propext, Classical.choice, Quot.sound |
| `C82_bad_optimizer` | propext, Classical.choice, Quot.sound |
| `C82_named_partial` | propext, Classical.choice, Quot.sound |
| `C82_optax_arguments` | propext, Classical.choice, Quot.sound |
| `C82_optax_refuted` | propext, Classical.choice, Quot.sound |
| `C82_other_settings` | propext, Classical.choice, Quot.sound |
| `C83_plot_trace_refuted` | propext, Classical.choice, Quot.sound |
| `C83_site_names_partial` | propext, Quot.sound |
| `C83_var_names_refuted` | propext, Classical.choice, Quot.sound |
| `C84_own_coefs` | propext, Classical.choice, Quot.sound |
| `C84_panel` | propext, Classical.choice, Quot.sound |
| `C84_seasonal` | propext, Classical.choice, Quot.sound |
| `C84_seasonal_panel` | propext, Classical.choice, Quot.sound |
| `C84_value` | propext, Classical.choice, Quot.sound |
| `C85_defined` | propext, Classical.choice, Quot.sound |
| `C85_distributions` | propext, Classical.choice, Quot.sound |
| `C85_flat_prior` | propext, Classical.choice, Quot.sound |
| `C85_hill_prior` | propext, Classical.choice, Quot.sound |
| `C85_lift_terms` | propext, Classical.choice, Quot.sound |
| `C85_linear_prior` | propext, Classical.choice, Quot.sound |
| `C85_log_prior` | propext, Classical.choice, Quot.sound |
| `C85_logistic_prior` | propext, Classical.choice, Quot.sound |
| `C85_names` | propext, Classical.choice, Quot.sound |
| `C85_one_observation` | propext, Classical.choice, Quot.sound |
| `C85_piecewise_prior` | propext, Classical.choice, Quot.sound |
| `C85_posterior` | propext, Classical.choice, Quot.sound |
| `C85_prophet` | propext, Classical.choice, Quot.sound |
| `C85_terms` | propext, Classical.choice, Quot.sound |
| `C86_builtin` | propext, Classical.choice, Quot.sound |
| `C86_order` | propext, Classical.choice, Quot.sound |
| `C86_panel` | propext, Classical.choice, Quot.sound |
| `C86_panel_builtin` | propext, Classical.choice, Quot.sound |
| `C87_capacity` | propext, Classical.choice, Quot.sound |
| `C87_linear_refuted` | propext, Classical.choice, Quot.sound |
| `C87_logistic_refuted` | propext, Classical.choice, Quot.sound |
| `C87_partial` | propext, Classical.choice, Quot.sound |
| `C87_passed_partial` | propext, Classical.choice, Quot.sound |
| `C88_hierarchy` | propext, Classical.choice, Quot.sound |
| `C88_point` | propext, Classical.choice, Quot.sound |
| `C88_point_hierarchy` | propext, Classical.choice, Quot.sound |
| `C88_quantiles` | propext, Classical.choice, Quot.sound |
| `C88_single_series` | propext, Classical.choice, Quot.sound |
| `C89_least_squares` | propext, Classical.choice, Quot.sound |
| `C89_not_removed` | propext, Classical.choice, Quot.sound |
| `C89_on_a_line` | propext, Classical.choice, Quot.sound |
| `C89_pattern_ignored` | propext, Classical.choice, Quot.sound |
| `C90_fitted` | propext, Classical.choice, Quot.sound |
| `C90_posterior` | propext, Classical.choice, Quot.sound |
| `C90_single` | propext, Classical.choice, Quot.sound |
| `C90_uncorrelated` | propext, Classical.choice, Quot.sound |
| `C91_learned` | propext, Classical.choice, Quot.sound |
| `C92_fit` | propext, Classical.choice, Quot.sound |
| `C92_predict` | propext, Classical.choice, Quot.sound |
| `C93_days` | propext, Classical.choice, Quot.sound |
| `C93_flat` | propext, Classical.choice, Quot.sound |
| `C93_panel` | propext, Classical.choice, Quot.sound |
| `C93_refused` | propext, Classical.choice, Quot.sound |
| `C94_concave` | propext, Classical.choice, Quot.sound |
| `C94_exists` | propext, Classical.choice, Quot.sound |
| `C94_unique` | propext, Classical.choice, Quot.sound |
| `C94_usual_concave` | propext, Classical.choice, Quot.sound |
| `C94_usual_exists` | propext, Classical.choice, Quot.sound |
| `C94_usual_unique` | propext, Classical.choice, Quot.sound |
| `C95_defined` | propext, Classical.choice, Quot.sound |
| `C95_forecast` | propext, Classical.choice, Quot.sound |
| `C95_no_X` | propext, Classical.choice, Quot.sound |
| `C95_one_season` | propext, Classical.choice, Quot.sound |
| `C95_posterior` | propext, Classical.choice, Quot.sound |
| `C95_seasonal` | propext, Classical.choice, Quot.sound |
| `C95_waves` | propext, Classical.choice, Quot.sound |
| `C96_best` | propext, Classical.choice, Quot.sound |
| `C96_fit` | propext, Classical.choice, Quot.sound |
| `C96_forecast` | propext, Classical.choice, Quot.sound |
| `C96_mirror_units` | propext, Classical.choice, Quot.sound |
| `C96_parameters` | propext, Classical.choice, Quot.sound |
| `C96_posterior` | propext, Classical.choice, Quot.sound |
| `C96_shift_units` | propext, Classical.choice, Quot.sound |
| `C97_best` | propext, Classical.choice, Quot.sound |
| `C97_forecast` | propext, Classical.choice, Quot.sound |
| `C97_prior` | propext, Classical.choice, Quot.sound |
| `C97_shared` | propext, Classical.choice, Quot.sound |
| `C97_unseen` | propext, Classical.choice, Quot.sound |
| `C98_best` | propext, Classical.choice, Quot.sound |
| `C98_fits` | propext, Classical.choice, Quot.sound |
| `C98_forecasts` | propext, Classical.choice, Quot.sound |
| `C99_constant` | propext, Classical.choice, Quot.sound |
| `C99_counts` | propext, Classical.choice, Quot.sound |
| `C99_exists` | propext, Classical.choice, Quot.sound |
| `C99_iff` | propext, Classical.choice, Quot.sound |
| `C99_unbounded` | propext, Classical.choice, Quot.sound |
