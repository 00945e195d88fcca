# Axioms of the theorems in MANIFEST.json

Output of `#print axioms`, one line per theorem.

| property | theorem | axioms |
|---|---|---|
| C01 | `Verif.Props.Evaluation.C01_shared_grid_exact` | propext, Classical.choice, Quot.sound |
| C01 | `Verif.Props.Evaluation.C01_shared_grid_partial` | propext, Classical.choice, Quot.sound |
| C01 | `Verif.Props.Evaluation.C01_unsorted_points_wrong` | propext, Classical.choice, Quot.sound |
| C01 | `Verif.Props.Paths.C01_interp_ensemble_partial` | propext, Classical.choice, Quot.sound |
| C02 | `Verif.Props.Evaluation.C02_one_point_per_pdf` | propext, Classical.choice, Quot.sound |
| C03 | `Verif.Props.Evaluation.C03_sampling_uses_own_pdf` | propext, Quot.sound |
| C04 | `Verif.Props.Evaluation.C04_flat_path_partial` | propext, Classical.choice, Quot.sound |
| C04 | `Verif.Props.Evaluation.C04_exact` | propext, Classical.choice, Quot.sound |
| C04 | `Verif.Props.Evaluation.C04_iff` | propext, Classical.choice, Quot.sound |
| C04 | `Verif.Props.Evaluation.C04_depends_on_other_points` | propext, Classical.choice, Quot.sound |
| C04 | `Verif.Props.Paths.C04_interp_routines_agree` | propext, Classical.choice, Quot.sound |
| C04 | `Verif.Props.Paths.C04_paths_same_function` | propext, Classical.choice, Quot.sound |
| C04 | `Verif.Props.Evaluation.C04_two_dim` | propext, Quot.sound |
| C04 | `Verif.Props.Plot.C04_increasing` | propext, Classical.choice, Quot.sound |
| C05 | `Verif.Props.Bins.C05_uniform_iff` | propext, Classical.choice, Quot.sound |
| C05 | `Verif.Props.Bins.C05_nonuniform_iff` | propext, Classical.choice, Quot.sound |
| C05 | `Verif.Props.Bins.C05_uniform_left_closed` | propext, Classical.choice, Quot.sound |
| C05 | `Verif.Props.Bins.C05_nonuniform_right_closed` | propext, Classical.choice, Quot.sound |
| C05 | `Verif.Props.Bins.C05_bin_lookup_partial` | propext, Classical.choice, Quot.sound |
| C05 | `Verif.Props.Bins.C05_index_valid` | propext, Classical.choice, Quot.sound |
| C05 | `Verif.Props.Bins.C05_tiny_bins_wrong` | propext, Classical.choice, Quot.sound |
| C05 | `Verif.Props.Bins.C05_near_uniform_wrong` | propext, Classical.choice, Quot.sound |
| C05 | `Verif.Props.Bins.C05_within_tolerance` | propext, Classical.choice, Quot.sound |
| C05 | `Verif.Props.Bins.C05_away_from_edges` | propext, Classical.choice, Quot.sound |
| C06 | `Verif.Props.Hist.C06_hist_pdf_partial` | propext, Classical.choice, Quot.sound |
| C06 | `Verif.Props.Hist.C06_tiny_bins_wrong` | propext, Classical.choice, Quot.sound |
| C06 | `Verif.Props.Hist.C06_away_from_edges` | propext, Classical.choice, Quot.sound |
| C07 | `Verif.Props.Hist.C07_row_normalised` | propext, Classical.choice, Quot.sound |
| C07 | `Verif.Props.Hist.C07_scale_invariant` | propext, Classical.choice, Quot.sound |
| C07 | `Verif.Props.Hist.C07_reconstruct` | propext, Classical.choice, Quot.sound |
| C07 | `Verif.Props.Hist.C07_shape_check` | propext, Classical.choice, Quot.sound |
| C08 | `Verif.Props.Hist.C08_cdf_is_mass` | propext, Classical.choice, Quot.sound |
| C08 | `Verif.Props.Hist.C08_cdf_shape` | propext, Classical.choice, Quot.sound |
| C08 | `Verif.Props.Hist.C08_cdf_slope` | propext, Classical.choice, Quot.sound |
| C08 | `Verif.Props.Integrals.C08_integral_partial` | propext, Classical.choice, Quot.sound |
| C08 | `Verif.Props.Integrals.C08_integral_any_edges` | propext, Classical.choice, Quot.sound |
| C08 | `Verif.Props.RealIntegral.C08_lebesgue` | propext, Classical.choice, Quot.sound |
| C09 | `Verif.Props.Hist.C09_ppf_range` | propext, Classical.choice, Quot.sound |
| C09 | `Verif.Props.Hist.C09_cdf_ppf` | propext, Classical.choice, Quot.sound |
| C09 | `Verif.Props.Hist.C09_ppf_mono` | propext, Classical.choice, Quot.sound |
| C09 | `Verif.Props.Hist.C09_ppf_cdf` | propext, Classical.choice, Quot.sound |
| C10 | `Verif.Props.Hist.C10_ppf_ends_infinite` | propext, Classical.choice, Quot.sound |
| C10 | `Verif.Props.Hist.C10_inner_ppf_ends_partial` | propext, Classical.choice, Quot.sound |
| C100 | `Verif.Props.QuantMass.C100_linear_partial` | propext, Classical.choice, Quot.sound |
| C100 | `Verif.Props.QuantMass.C100_linear_even` | propext, Classical.choice, Quot.sound |
| C100 | `Verif.Props.QuantMass.C100_linear_unbounded` | propext, Classical.choice, Quot.sound |
| C100 | `Verif.Props.QuantMass.C100_constant` | propext, Classical.choice, Quot.sound |
| C100 | `Verif.Props.QuantMass.C100_constant_even` | propext, Classical.choice, Quot.sound |
| C101 | `Verif.Props.Logs.C101_pointwise` | propext, Classical.choice, Quot.sound |
| C101 | `Verif.Props.Logs.C101_value_partial` | propext, Classical.choice, Quot.sound |
| C101 | `Verif.Props.Logs.C101_exp` | propext, Classical.choice, Quot.sound |
| C101 | `Verif.Props.Logs.C101_tails` | propext, Classical.choice, Quot.sound |
| C101 | `Verif.Props.Logs.C101_hist` | propext, Classical.choice, Quot.sound |
| C101 | `Verif.Props.Logs.C101_nan` | propext, Classical.choice, Quot.sound |
| C102 | `Verif.Props.QuantSpline.C102_between` | propext, Classical.choice, Quot.sound |
| C102 | `Verif.Props.QuantSpline.C102_total_partial` | propext, Classical.choice, Quot.sound |
| C102 | `Verif.Props.QuantSpline.C102_sign` | propext, Classical.choice, Quot.sound |
| C102 | `Verif.Props.QuantSpline.C102_negative` | propext, Classical.choice, Quot.sound |
| C102 | `Verif.Props.QuantSpline.C102_dual_uniform` | propext, Classical.choice, Quot.sound |
| C102 | `Verif.Props.CubicSpline.C102_cubic_between` | propext, Classical.choice, Quot.sound |
| C102 | `Verif.Props.CubicSpline.C102_cubic_total_partial` | propext, Classical.choice, Quot.sound |
| C102 | `Verif.Props.CubicSpline.C102_cubic_dual_uniform` | propext, Classical.choice, Quot.sound |
| C103 | `Verif.Props.Analytic.C103_values` | propext, Classical.choice, Quot.sound |
| C103 | `Verif.Props.Analytic.C103_inside_partial` | propext, Classical.choice, Quot.sound |
| C103 | `Verif.Props.Analytic.C103_whole_line` | propext, Quot.sound |
| C103 | `Verif.Props.Analytic.C103_pdf_iff` | propext, Classical.choice, Quot.sound |
| C103 | `Verif.Props.Analytic.C103_cdf_iff` | propext, Classical.choice, Quot.sound |
| C103 | `Verif.Props.Analytic.C103_ppf_ends` | propext, Classical.choice, Quot.sound |
| C103 | `Verif.Props.Analytic.C103_uniform_wrong` | propext, Classical.choice, Quot.sound |
| C103 | `Verif.Props.Analytic.C103_expon_wrong` | propext, Classical.choice, Quot.sound |
| C103 | `Verif.Props.Analytic.C103_loaded` | propext, Classical.choice, Quot.sound |
| C104 | `Verif.Props.EndToEnd.C104_hist` | propext, Classical.choice, Quot.sound |
| C104 | `Verif.Props.EndToEnd.C104_interp` | propext, Classical.choice, Quot.sound |
| C104 | `Verif.Props.EndToEnd.C104_irregular` | propext, Classical.choice, Quot.sound |
| C104 | `Verif.Props.EndToEnd.C104_mixture` | propext, Classical.choice, Quot.sound |
| C104 | `Verif.Props.EndToEnd.C104_quantiles` | propext, Classical.choice, Quot.sound |
| C104 | `Verif.Props.EndToEndSparse.C104_sparse` | propext, Classical.choice, Quot.sound |
| C104 | `Verif.Props.EndToEndReal.C104_packed` | propext, Classical.choice, Quot.sound |
| C104 | `Verif.Props.EndToEndReal.C104_spline` | propext, Classical.choice, Quot.sound |
| C105 | `Verif.Props.ShapeStats.C105_stats_partial` | propext, Classical.choice, Quot.sound |
| C105 | `Verif.Props.ShapeStats.C105_negative_variance` | propext, Classical.choice, Quot.sound |
| C105 | `Verif.Props.ShapeStats.C105_histogram` | propext, Classical.choice, Quot.sound |
| C106 | `Verif.Props.Entropy.C106_histogram` | propext, Classical.choice, Quot.sound |
| C106 | `Verif.Props.Entropy.C106_interp` | propext, Classical.choice, Quot.sound |
| C106 | `Verif.Props.Entropy.C106_mixture` | propext, Classical.choice, Quot.sound |
| C106 | `Verif.Props.Entropy.C106_normal` | propext, Classical.choice, Quot.sound |
| C106 | `Verif.Props.Entropy.C106_support` | propext, Classical.choice, Quot.sound |
| C106 | `Verif.Props.Entropy.C106_variance` | propext, Classical.choice, Quot.sound |
| C106 | `Verif.Props.Entropy.C106_units` | propext, Classical.choice, Quot.sound |
| C107 | `Verif.Props.Cholesky.C107_least_squares_partial` | propext, Classical.choice, Quot.sound |
| C107 | `Verif.Props.Cholesky.C107_stops_early` | propext, Classical.choice, Quot.sound |
| C108 | `Verif.Props.PackedCurves.C108_distribution` | propext, Classical.choice, Quot.sound |
| C108 | `Verif.Props.PackedCurves.C108_mean_variance_partial` | propext, Classical.choice, Quot.sound |
| C109 | `Verif.Props.Plot.C109_curve_partial` | propext, Classical.choice, Quot.sound |
| C109 | `Verif.Props.Plot.C109_limits` | propext, Quot.sound |
| C109 | `Verif.Props.Plot.C109_long_range` | propext, Quot.sound |
| C109 | `Verif.Props.Plot.C109_several` | propext, Classical.choice, Quot.sound |
| C109 | `Verif.Props.Plot.C109_transposed` | propext, Classical.choice, Quot.sound |
| C109 | `Verif.Props.Plot.C109_label` | propext, Classical.choice, Quot.sound |
| C109 | `Verif.Props.Plot.C109_interp_native` | propext, Classical.choice, Quot.sound |
| C109 | `Verif.Props.Plot.C109_hist_native` | propext, Classical.choice, Quot.sound |
| C109 | `Verif.Props.Plot.C109_quant_native` | propext, Classical.choice, Quot.sound |
| C109 | `Verif.Props.Plot.C109_quant_properties` | propext, Classical.choice, Quot.sound |
| C109 | `Verif.Props.Plot.C109_native_npts` | propext, Classical.choice, Quot.sound |
| C109 | `Verif.Props.Plot.C109_irr_native` | propext, Classical.choice, Quot.sound |
| C109 | `Verif.Props.Plot.C109_irr_several_wrong` | propext, Classical.choice, Quot.sound |
| C109 | `Verif.Props.Plot.C109_spline_native` | propext, Classical.choice, Quot.sound |
| C109 | `Verif.Props.PlotPacked.C109_packed_native` | propext, Classical.choice, Quot.sound |
| C109 | `Verif.Props.PlotPacked.C109_packed_made` | propext, Classical.choice, Quot.sound |
| C109 | `Verif.Props.PlotPacked.C109_grid_native` | propext, Classical.choice, Quot.sound |
| C11 | `Verif.Props.Hist.C11_moments_partial` | propext, Classical.choice, Quot.sound |
| C11 | `Verif.Props.Hist.C11_nonuniform_wrong` | propext, Classical.choice, Quot.sound |
| C11 | `Verif.Props.Variance.C11_moment2_exact` | propext, Classical.choice, Quot.sound |
| C11 | `Verif.Props.Variance.C11_moment1_nonuniform_wrong` | propext, Classical.choice, Quot.sound |
| C110 | `Verif.Props.ConvertInterpError.C110_interp_error` | propext, Classical.choice, Quot.sound |
| C110 | `Verif.Props.ConvertInterpError.C110_fine_grids` | propext, Classical.choice, Quot.sound |
| C111 | `Verif.Props.Metrics.C111_brier_partial` | propext, Classical.choice, Quot.sound |
| C111 | `Verif.Props.Metrics.C111_brier_true_density` | propext, Classical.choice, Quot.sound |
| C111 | `Verif.Props.Metrics.C111_brier_improper` | propext, Classical.choice, Quot.sound |
| C111 | `Verif.Props.Metrics.C111_cde` | propext, Classical.choice, Quot.sound |
| C112 | `Verif.Props.Metrics.C112_uniform` | propext, Classical.choice, Quot.sound |
| C112 | `Verif.Props.Metrics.C112_approx` | propext, Classical.choice, Quot.sound |
| C112 | `Verif.Props.Metrics.C112_hist` | propext, Classical.choice, Quot.sound |
| C112 | `Verif.Props.Metrics.C112_mix` | propext, Classical.choice, Quot.sound |
| C112 | `Verif.Props.Metrics.C112_interp_partial` | propext, Classical.choice, Quot.sound |
| C112 | `Verif.Props.Metrics.C112_interp_not_uniform` | propext, Classical.choice, Quot.sound |
| C113 | `Verif.Props.ConvertError.C113_expectations` | propext, Classical.choice, Quot.sound |
| C114 | `Verif.Props.ConvertSelect.C114_convert_select_partial` | propext, Classical.choice, Quot.sound |
| C114 | `Verif.Props.ConvertSelect.C114_unsorted_differs` | propext, Classical.choice, Quot.sound |
| C114 | `Verif.Props.ConvertSelect.C114_sparse_differs` | propext, Classical.choice, Quot.sound |
| C115 | `Verif.Props.ConvertParts.C115_convert_parts_partial` | propext, Classical.choice, Quot.sound |
| C116 | `Verif.Props.Units.C116_hist_partial` | propext, Classical.choice, Quot.sound |
| C116 | `Verif.Props.Units.C116_interp` | propext, Classical.choice, Quot.sound |
| C116 | `Verif.Props.Units.C116_irregular` | propext, Classical.choice, Quot.sound |
| C116 | `Verif.Props.Units.C116_mixture` | propext, Classical.choice, Quot.sound |
| C116 | `Verif.Props.Units.normal_unit` | propext, Classical.choice, Quot.sound |
| C116 | `Verif.Props.Units.C116_hist_quantiles` | propext, Classical.choice, Quot.sound |
| C116 | `Verif.Props.Units.C116_interp_quantiles` | propext, Classical.choice, Quot.sound |
| C116 | `Verif.Props.Units.C116_irregular_quantiles` | propext, Classical.choice, Quot.sound |
| C116 | `Verif.Props.Units.C116_quantiles` | propext, Classical.choice, Quot.sound |
| C116 | `Verif.Props.QuadSpline.C116_quantiles_spline` | propext, Classical.choice, Quot.sound |
| C116 | `Verif.Props.Units.C116_mixture_quantiles` | propext, Classical.choice, Quot.sound |
| C116 | `Verif.Props.SplineConvert.C116_spline` | propext, Classical.choice, Quot.sound |
| C116 | `Verif.Props.Units.C116_small_units_wrong` | propext, Classical.choice, Quot.sound |
| C116 | `Verif.Props.Units.C116_interp_mean_wrong` | propext, Classical.choice, Quot.sound |
| C117 | `Verif.Props.UnitsMetrics.C117_grid` | propext, Classical.choice, Quot.sound |
| C117 | `Verif.Props.UnitsMetrics.C117_rmse` | propext, Classical.choice, Quot.sound |
| C117 | `Verif.Props.UnitsMetrics.C117_kld_partial` | propext, Classical.choice, Quot.sound |
| C117 | `Verif.Props.UnitsMetrics.C117_cde` | propext, Classical.choice, Quot.sound |
| C117 | `Verif.Props.UnitsMetrics.C117_gof` | propext, Classical.choice, Quot.sound |
| C117 | `Verif.Props.UnitsMetrics.C117_pit` | propext, Quot.sound |
| C117 | `Verif.Props.UnitsMetrics.C117_brier_wrong` | propext, Classical.choice, Quot.sound |
| C117 | `Verif.Props.UnitsMetrics.C117_kld_wrong` | propext, Classical.choice, Quot.sound |
| C118 | `Verif.Props.Stream.C118_stream_partial` | propext, Classical.choice, Quot.sound |
| C119 | `Verif.Props.StreamMetrics.C119_eval_partial` | propext, Classical.choice, Quot.sound |
| C119 | `Verif.Props.StreamMetrics.C119_cde` | propext, Classical.choice, Quot.sound |
| C119 | `Verif.Props.StreamMetrics.C119_brier_partial` | propext, Classical.choice, Quot.sound |
| C119 | `Verif.Props.StreamMetrics.C119_pit` | propext, Classical.choice, Quot.sound |
| C119 | `Verif.Props.StreamMetrics.C119_rmse` | propext, Classical.choice, Quot.sound |
| C119 | `Verif.Props.StreamMetrics.C119_kld_partial` | propext, Classical.choice, Quot.sound |
| C12 | `Verif.Props.InterpPdf.C12_interp_normalises` | propext, Classical.choice, Quot.sound |
| C12 | `Verif.Props.InterpPdf.C12_scale_invariant` | propext, Classical.choice, Quot.sound |
| C12 | `Verif.Props.Integrals.C12_integral` | propext, Classical.choice, Quot.sound |
| C12 | `Verif.Props.RealIntegral.C12_lebesgue` | propext, Classical.choice, Quot.sound |
| C120 | `Verif.Props.Rounding.C120_formats` | propext, Classical.choice, Quot.sound |
| C120 | `Verif.Props.Rounding.C120_double` | propext, Classical.choice, Quot.sound |
| C120 | `Verif.Props.Rounding.C120_relative_error` | propext, Classical.choice, Quot.sound |
| C120 | `Verif.Props.Rounding.C120_hist_stored` | propext, Classical.choice, Quot.sound |
| C120 | `Verif.Props.Rounding.C120_hist_cumul` | propext, Classical.choice, Quot.sound |
| C120 | `Verif.Props.Rounding.C120_hist_cdf` | propext, Classical.choice, Quot.sound |
| C120 | `Verif.Props.Rounding.C120_hist_monotone_partial` | propext, Classical.choice, Quot.sound |
| C120 | `Verif.Props.Rounding.C120_cdf_decreases` | propext, Classical.choice, Quot.sound |
| C120 | `Verif.Props.Rounding.C120_hist_double` | propext, Classical.choice, Quot.sound |
| C120 | `Verif.Props.Rounding.C120_exact` | propext, Classical.choice, Quot.sound |
| C121 | `Verif.Props.RoundingInterp.C121_interp_stored` | propext, Classical.choice, Quot.sound |
| C121 | `Verif.Props.RoundingInterp.C121_interp_cdf` | propext, Classical.choice, Quot.sound |
| C121 | `Verif.Props.RoundingInterp.C121_interp_pdf` | propext, Classical.choice, Quot.sound |
| C121 | `Verif.Props.RoundingInterp.C121_pdf_negative` | propext, Classical.choice, Quot.sound |
| C121 | `Verif.Props.RoundingInterp.C121_irregular_partial` | propext, Classical.choice, Quot.sound |
| C121 | `Verif.Props.RoundingIrregular.C121_irregular_stored` | propext, Classical.choice, Quot.sound |
| C121 | `Verif.Props.RoundingIrregular.C121_irregular_cdf` | propext, Classical.choice, Quot.sound |
| C121 | `Verif.Props.RoundingIrregular.C121_irregular_pdf` | propext, Classical.choice, Quot.sound |
| C121 | `Verif.Props.RoundingIrregular.C121_irregular_double` | propext, Classical.choice, Quot.sound |
| C121 | `Verif.Props.RoundingIrregular.C121_irregular_cdf_decreases` | propext, Classical.choice, Quot.sound |
| C121 | `Verif.Props.RoundingInterp.C121_irregular_cancels` | propext, Classical.choice, Quot.sound |
| C122 | `Verif.Props.RoundingEval.C122_weights` | propext, Classical.choice, Quot.sound |
| C122 | `Verif.Props.RoundingEval.C122_value` | propext, Classical.choice, Quot.sound |
| C122 | `Verif.Props.RoundingEval.C122_cdf_bound_partial` | propext, Classical.choice, Quot.sound |
| C122 | `Verif.Props.RoundingEval.C122_cdf_above_one` | propext, Classical.choice, Quot.sound |
| C123 | `Verif.Props.RoundingEval.C123_index_partial` | propext, Classical.choice, Quot.sound |
| C123 | `Verif.Props.RoundingEval.C123_pdf_partial` | propext, Classical.choice, Quot.sound |
| C123 | `Verif.Props.RoundingEval.C123_search` | propext, Classical.choice, Quot.sound |
| C123 | `Verif.Props.RoundingEval.C123_edge_wrong` | propext, Classical.choice, Quot.sound |
| C124 | `Verif.Props.DTypes.C124_file_partial` | propext, Classical.choice, Quot.sound |
| C124 | `Verif.Props.DTypes.C124_exact_iff` | propext, Classical.choice, Quot.sound |
| C124 | `Verif.Props.DTypes.C124_slices` | propext, Classical.choice, Quot.sound |
| C124 | `Verif.Props.DTypes.C124_again` | propext, Classical.choice, Quot.sound |
| C124 | `Verif.Props.DTypes.C124_float` | propext, Classical.choice, Quot.sound |
| C124 | `Verif.Props.DTypes.C124_int_iff` | propext, Classical.choice, Quot.sound |
| C124 | `Verif.Props.DTypes.C124_bytes_iff` | propext, Classical.choice, Quot.sound |
| C124 | `Verif.Props.DTypes.C124_wider` | propext, Classical.choice, Quot.sound |
| C124 | `Verif.Props.DTypes.C124_names_cut` | propext, Classical.choice, Quot.sound |
| C124 | `Verif.Props.DTypes.C124_fractions_lost` | propext, Classical.choice, Quot.sound |
| C125 | `Verif.Props.SinglePrecision.C125_cast` | propext, Classical.choice, Quot.sound |
| C125 | `Verif.Props.SinglePrecision.C125_columns` | propext, Quot.sound |
| C125 | `Verif.Props.SinglePrecision.C125_hist` | propext, Classical.choice, Quot.sound |
| C125 | `Verif.Props.SinglePrecision.C125_interp` | propext, Classical.choice, Quot.sound |
| C125 | `Verif.Props.SinglePrecision.C125_mix` | propext, Classical.choice, Quot.sound |
| C125 | `Verif.Props.SinglePrecision.C125_packed` | propext, Classical.choice, Quot.sound |
| C125 | `Verif.Props.SinglePrecision.C125_packed_log` | propext, Classical.choice, Quot.sound |
| C125 | `Verif.Props.SinglePrecision.C125_locations_partial` | propext, Classical.choice, Quot.sound |
| C125 | `Verif.Props.SinglePrecision.C125_locations_coincide` | propext, Classical.choice, Quot.sound |
| C126 | `Verif.Props.Sharing.C126_frame` | propext, Classical.choice, Quot.sound |
| C126 | `Verif.Props.Sharing.C126_write` | propext, Classical.choice, Quot.sound |
| C126 | `Verif.Props.Sharing.C126_values_private` | propext, Classical.choice, Quot.sound |
| C126 | `Verif.Props.Sharing.C126_values_isolated_partial` | propext, Classical.choice, Quot.sound |
| C126 | `Verif.Props.Sharing.C126_slice_shares` | propext, Classical.choice, Quot.sound |
| C126 | `Verif.Props.Sharing.C126_list_copies` | propext, Classical.choice, Quot.sound |
| C126 | `Verif.Props.Sharing.C126_int_shares` | propext, Classical.choice, Quot.sound |
| C126 | `Verif.Props.Sharing.C126_selection_holds` | propext, Classical.choice, Quot.sound |
| C126 | `Verif.Props.Sharing.C126_append_holds` | propext, Classical.choice, Quot.sound |
| C126 | `Verif.Props.Sharing.C126_ancil_accepts` | propext, Quot.sound |
| C126 | `Verif.Props.Sharing.C126_slice_writes_parent` | propext, Classical.choice, Quot.sound |
| C126 | `Verif.Props.Sharing.C126_add_to_ancil` | propext, Classical.choice, Quot.sound |
| C126 | `Verif.Props.Sharing.C126_set_ancil_keeps` | propext |
| C127 | `Verif.Props.Accept.C127_unknown_keyword` | propext, Classical.choice, Quot.sound |
| C127 | `Verif.Props.Accept.C127_missing_argument` | propext, Classical.choice, Quot.sound |
| C127 | `Verif.Props.Accept.C127_hist_partial` | propext, Classical.choice, Quot.sound |
| C127 | `Verif.Props.Accept.C127_interp_partial` | propext, Classical.choice, Quot.sound |
| C127 | `Verif.Props.Accept.C127_irregular_partial` | propext, Classical.choice, Quot.sound |
| C127 | `Verif.Props.Accept.C127_mixture_partial` | propext, Classical.choice, Quot.sound |
| C127 | `Verif.Props.Accept.C127_quantiles_partial` | propext, Classical.choice, Quot.sound |
| C127 | `Verif.Props.Accept.C127_packed_partial` | propext, Classical.choice, Quot.sound |
| C127 | `Verif.Props.Accept.C127_spline_partial` | propext, Classical.choice, Quot.sound |
| C127 | `Verif.Props.Accept.C127_accepts_invalid` | propext, Classical.choice, Quot.sound |
| C128 | `Verif.Props.Lazy.C128_hist_partial` | propext, Classical.choice, Quot.sound |
| C128 | `Verif.Props.Lazy.C128_irregular_partial` | propext, Classical.choice, Quot.sound |
| C128 | `Verif.Props.Lazy.C128_interp_partial` | propext, Classical.choice, Quot.sound |
| C128 | `Verif.Props.Lazy.C128_pdf_follows` | propext, Classical.choice, Quot.sound |
| C128 | `Verif.Props.Lazy.C128_table_fixed` | propext, Classical.choice, Quot.sound |
| C128 | `Verif.Props.Lazy.C128_hist_stale` | propext, Quot.sound |
| C128 | `Verif.Props.Lazy.C128_hist_edges` | propext, Quot.sound |
| C128 | `Verif.Props.Lazy.C128_interp_stale` | propext, Quot.sound |
| C128 | `Verif.Props.Lazy.C128_packed_stale` | propext, Classical.choice, Quot.sound |
| C129 | `Verif.Props.Order.C129_point` | propext, Classical.choice, Quot.sound |
| C129 | `Verif.Props.Order.C129_gof` | propext, Classical.choice, Quot.sound |
| C129 | `Verif.Props.Order.C129_pit` | propext, Classical.choice, Quot.sound |
| C129 | `Verif.Props.Order.C129_pit_outlier` | propext, Classical.choice, Quot.sound |
| C129 | `Verif.Props.Order.C129_brier` | propext, Classical.choice, Quot.sound |
| C129 | `Verif.Props.Order.C129_cde` | propext, Classical.choice, Quot.sound |
| C129 | `Verif.Props.Order.C129_values` | propext, Classical.choice, Quot.sound |
| C13 | `Verif.Props.InterpPdf.C13_cdf_shape` | propext, Classical.choice, Quot.sound |
| C13 | `Verif.Props.InterpPdf.C13_cdf_at_grid` | propext, Classical.choice, Quot.sound |
| C13 | `Verif.Props.InterpPdf.C13_first_point_wrong` | propext, Classical.choice, Quot.sound |
| C13 | `Verif.Props.Integrals.C13_integral_partial` | propext, Classical.choice, Quot.sound |
| C13 | `Verif.Props.RealIntegral.C13_lebesgue` | propext, Classical.choice, Quot.sound |
| C130 | `Verif.Props.Refine.C130_hist` | propext, Classical.choice, Quot.sound |
| C130 | `Verif.Props.Refine.C130_hist_padding` | propext, Classical.choice, Quot.sound |
| C130 | `Verif.Props.Refine.C130_hist_padding_example` | propext, Classical.choice, Quot.sound |
| C130 | `Verif.Props.Refine.C130_hist_moment_changes` | propext, Classical.choice, Quot.sound |
| C130 | `Verif.Props.Refine.C130_interp_partial` | propext, Classical.choice, Quot.sound |
| C130 | `Verif.Props.Refine.C130_interp_padding` | propext, Classical.choice, Quot.sound |
| C130 | `Verif.Props.Refine.C130_interp_padding_example` | propext, Classical.choice, Quot.sound |
| C130 | `Verif.Props.Refine.C130_irregular_padding` | propext, Classical.choice, Quot.sound |
| C130 | `Verif.Props.Refine.C130_irregular_padding_example` | propext, Classical.choice, Quot.sound |
| C130 | `Verif.Props.Refine.C130_packed_padding` | propext, Classical.choice, Quot.sound |
| C130 | `Verif.Props.Refine.C130_packed_padding_example` | propext, Classical.choice, Quot.sound |
| C130 | `Verif.Props.Refine.C130_pack_padding` | propext, Classical.choice, Quot.sound |
| C130 | `Verif.Props.Refine.C130_log_pack_padding` | propext, Classical.choice, Quot.sound |
| C130 | `Verif.Props.Refine.C130_log_pack_padding_example` | propext, Classical.choice, Quot.sound |
| C130 | `Verif.Props.Refine.C130_log_pack_small_changes` | propext, Classical.choice, Quot.sound |
| C130 | `Verif.Props.Refine.C130_interp_moment_padding` | propext, Classical.choice, Quot.sound |
| C130 | `Verif.Props.Refine.C130_interp_moment_changes` | propext, Classical.choice, Quot.sound |
| C130 | `Verif.Props.Refine.C130_hist_moment_padding` | propext, Classical.choice, Quot.sound |
| C130 | `Verif.Props.Refine.C130_hist_moment_padding_example` | propext, Classical.choice, Quot.sound |
| C130 | `Verif.Props.Refine.C130_interp_cdf_changes` | propext, Classical.choice, Quot.sound |
| C130 | `Verif.Props.Refine.C130_interp_cdf_bound` | propext, Classical.choice, Quot.sound |
| C130 | `Verif.Props.Refine.C130_interp_cdf_cell` | propext, Classical.choice, Quot.sound |
| C130 | `Verif.Props.Refine.C130_irregular_changes` | propext, Classical.choice, Quot.sound |
| C130 | `Verif.Props.Refine.C130_mixture` | propext, Classical.choice, Quot.sound |
| C130 | `Verif.Props.Refine.C130_zero_weight` | propext, Classical.choice, Quot.sound |
| C130 | `Verif.Props.Refine.C130_zero_weight_ppf_changes` | propext, Classical.choice, Quot.sound |
| C131 | `Verif.Props.Mirror.C131_hist` | propext, Classical.choice, Quot.sound |
| C131 | `Verif.Props.Mirror.C131_hist_mean_not_mirrored` | propext, Classical.choice, Quot.sound |
| C131 | `Verif.Props.Mirror.C131_interp_partial` | propext, Classical.choice, Quot.sound |
| C131 | `Verif.Props.Mirror.C131_interp_inner` | propext, Classical.choice, Quot.sound |
| C131 | `Verif.Props.Mirror.C131_interp_ends_not_mirrored` | propext, Classical.choice, Quot.sound |
| C131 | `Verif.Props.Mirror.C131_irregular_not_mirrored` | propext, Classical.choice, Quot.sound |
| C131 | `Verif.Props.Mirror.C131_mixture` | propext, Classical.choice, Quot.sound |
| C131 | `Verif.Props.QuadSpline.C131_quantiles` | propext, Classical.choice, Quot.sound |
| C131 | `Verif.Props.SplineConvert.C131_spline` | propext, Classical.choice, Quot.sound |
| C131 | `Verif.Props.Mirror.C131_gof` | propext, Classical.choice, Quot.sound |
| C132 | `Verif.Props.Robust.C132_median` | propext, Classical.choice, Quot.sound |
| C132 | `Verif.Props.Robust.C132_iqr` | propext, Classical.choice, Quot.sound |
| C132 | `Verif.Props.Robust.C132_outlier_rate` | propext, Classical.choice, Quot.sound |
| C132 | `Verif.Props.Robust.C132_sharp` | propext, Classical.choice, Quot.sound |
| C133 | `Verif.Props.Stability.C133_hist` | propext, Classical.choice, Quot.sound |
| C133 | `Verif.Props.Stability.C133_interp` | propext, Classical.choice, Quot.sound |
| C133 | `Verif.Props.Stability.C133_mixture_weights` | propext, Classical.choice, Quot.sound |
| C133 | `Verif.Props.Stability.C133_mixture_means` | propext, Classical.choice, Quot.sound |
| C133 | `Verif.Props.Stability.C133_point_metrics_partial` | propext, Classical.choice, Quot.sound |
| C133 | `Verif.Props.Stability.C133_ks` | propext, Classical.choice, Quot.sound |
| C133 | `Verif.Props.Stability.C133_ks_samples` | propext, Classical.choice, Quot.sound |
| C133 | `Verif.Props.Stability.C133_cvm` | propext, Classical.choice, Quot.sound |
| C133 | `Verif.Props.Stability.C133_outlier_rate_jumps` | propext, Classical.choice, Quot.sound |
| C133 | `Verif.Props.OrderMore.C133_packed_rowmax` | propext, Classical.choice, Quot.sound |
| C133 | `Verif.Props.OrderMore.C133_packed_log` | propext, Classical.choice, Quot.sound |
| C133 | `Verif.Props.OrderMore.C133_packed_linear` | propext, Classical.choice, Quot.sound |
| C133 | `Verif.Props.OrderMore.C133_quant_partial` | propext, Classical.choice, Quot.sound |
| C133 | `Verif.Props.QuadSpline.C133_quant_any` | propext, Classical.choice, Quot.sound |
| C133 | `Verif.Props.QuantStable.C133_quant_cdf` | propext, Classical.choice, Quot.sound |
| C133 | `Verif.Props.QuantStable.C133_quant_cdf_unpadded` | propext, Classical.choice, Quot.sound |
| C133 | `Verif.Props.QuantStable.C133_quant_pdf_partial` | propext, Classical.choice, Quot.sound |
| C133 | `Verif.Props.QuantStable.C133_quant_pdf_jumps` | propext, Classical.choice, Quot.sound |
| C133 | `Verif.Props.QuantStable.C133_quant_spline_pdf_partial` | propext, Classical.choice, Quot.sound |
| C133 | `Verif.Props.QuantStable.C133_quant_spline_pdf_jumps` | propext, Classical.choice, Quot.sound |
| C133 | `Verif.Props.QuantStable.C133_quant_dual_partial` | propext, Classical.choice, Quot.sound |
| C133 | `Verif.Props.QuantStable.C133_quant_dual_jumps` | propext, Classical.choice, Quot.sound |
| C133 | `Verif.Props.QuantStable.C133_quant_constant_partial` | propext, Classical.choice, Quot.sound |
| C133 | `Verif.Props.QuantStable.C133_quant_constant_jumps` | propext, Classical.choice, Quot.sound |
| C133 | `Verif.Props.EdgesStable.C133_hist_edges` | propext, Classical.choice, Quot.sound |
| C134 | `Verif.Props.Dominance.C134_hist_quantile` | propext, Classical.choice, Quot.sound |
| C134 | `Verif.Props.Dominance.C134_hist` | propext, Classical.choice, Quot.sound |
| C134 | `Verif.Props.Dominance.C134_hist_mean` | propext, Classical.choice, Quot.sound |
| C134 | `Verif.Props.Dominance.C134_interp_partial` | propext, Classical.choice, Quot.sound |
| C134 | `Verif.Props.Dominance.C134_interp_mean_wrong` | propext, Classical.choice, Quot.sound |
| C134 | `Verif.Props.Dominance.C134_irregular` | propext, Classical.choice, Quot.sound |
| C134 | `Verif.Props.Dominance.C134_mixture` | propext, Classical.choice, Quot.sound |
| C134 | `Verif.Props.Dominance.C134_mixture_means` | propext, Classical.choice, Quot.sound |
| C134 | `Verif.Props.OrderMore.C134_packed` | propext, Classical.choice, Quot.sound |
| C134 | `Verif.Props.OrderMore.C134_quant_partial` | propext, Quot.sound |
| C134 | `Verif.Props.OrderMore.C134_quant_wrong` | propext, Classical.choice, Quot.sound |
| C134 | `Verif.Props.OrderMore.C134_quant_between_wrong` | propext, Classical.choice, Quot.sound |
| C135 | `Verif.Props.Plot.C135_samples` | propext, Classical.choice, Quot.sound |
| C135 | `Verif.Props.Plot.C135_current_axes_partial` | propext, Classical.choice, Quot.sound |
| C135 | `Verif.Props.Plot.C135_other_axes_wrong` | propext, Classical.choice, Quot.sound |
| C135 | `Verif.Props.Plot.C135_npoints_wrong` | propext, Quot.sound |
| C135 | `Verif.Props.Plot.C135_properties_wrong` | propext, Classical.choice, Quot.sound |
| C136 | `Verif.Props.Rebin.C136_two_steps_partial` | propext, Classical.choice, Quot.sound |
| C136 | `Verif.Props.Rebin.C136_finer` | propext, Classical.choice, Quot.sound |
| C136 | `Verif.Props.Rebin.C136_order` | propext, Classical.choice, Quot.sound |
| C136 | `Verif.Props.Rebin.C136_unequal_wrong` | propext, Classical.choice, Quot.sound |
| C137 | `Verif.Props.LargeSamples.C137_ks` | propext, Classical.choice, Quot.sound |
| C137 | `Verif.Props.LargeSamples.C137_cvm` | propext, Classical.choice, Quot.sound |
| C137 | `Verif.Props.LargeSamples.C137_self` | propext, Classical.choice, Quot.sound |
| C137 | `Verif.Props.LargeSamples.C137_hist_partial` | propext, Classical.choice, Quot.sound |
| C137 | `Verif.Props.LargeSamples.C137_pit` | propext, Classical.choice, Quot.sound |
| C138 | `Verif.Props.RoundingPpf.C138_hist_partial` | propext, Classical.choice, Quot.sound |
| C138 | `Verif.Props.RoundingPpf.C138_hist_decreases` | propext, Classical.choice, Quot.sound |
| C138 | `Verif.Props.RoundingPpf.C138_hist_outside` | propext, Classical.choice, Quot.sound |
| C138 | `Verif.Props.RoundingPpf.C138_interp` | propext, Classical.choice, Quot.sound |
| C138 | `Verif.Props.RoundingPpf.C138_irregular_partial` | propext, Classical.choice, Quot.sound |
| C138 | `Verif.Props.RoundingPpf.C138_irregular_elsewhere` | propext, Classical.choice, Quot.sound |
| C139 | `Verif.Props.QuadSpline.C139_exists` | propext, Classical.choice, Quot.sound |
| C139 | `Verif.Props.QuadSpline.C139_unique` | propext, Classical.choice, Quot.sound |
| C139 | `Verif.Props.QuadSpline.C139_cdf_ppf` | propext, Classical.choice, Quot.sound |
| C139 | `Verif.Props.QuadSpline.C139_reproduces` | propext, Classical.choice, Quot.sound |
| C139 | `Verif.Props.QuadSpline.C139_units` | propext, Classical.choice, Quot.sound |
| C139 | `Verif.Props.QuadSpline.C139_mirror` | propext, Classical.choice, Quot.sound |
| C139 | `Verif.Props.QuadSpline.C139_weights` | propext, Classical.choice, Quot.sound |
| C139 | `Verif.Props.QuadSpline.C139_smooth` | propext, Classical.choice, Quot.sound |
| C139 | `Verif.Props.QuadSpline.C139_continuous` | propext, Classical.choice, Quot.sound |
| C14 | `Verif.Props.InterpPdf.C14_cdf_ppf_exact` | propext, Classical.choice, Quot.sound |
| C14 | `Verif.Props.InterpPdf.C14_cdf_ppf_partial` | propext, Classical.choice, Quot.sound |
| C14 | `Verif.Props.InterpPdf.C14_small_probability_wrong` | propext, Classical.choice, Quot.sound |
| C14 | `Verif.Props.InterpPdf.C14_ppf_mono` | propext, Classical.choice, Quot.sound |
| C140 | `Verif.Props.CubicSpline.C140_exists` | propext, Classical.choice, Quot.sound |
| C140 | `Verif.Props.CubicSpline.C140_unique` | propext, Classical.choice, Quot.sound |
| C140 | `Verif.Props.CubicSpline.C140_reproduces` | propext, Classical.choice, Quot.sound |
| C140 | `Verif.Props.CubicSpline.C140_linear` | propext, Classical.choice, Quot.sound |
| C140 | `Verif.Props.CubicSpline.C140_units` | propext, Classical.choice, Quot.sound |
| C140 | `Verif.Props.CubicSpline.C140_mirror` | propext, Classical.choice, Quot.sound |
| C140 | `Verif.Props.CubicSpline.C140_smooth` | propext, Classical.choice, Quot.sound |
| C141 | `Verif.Props.Splrep.C141_splrep` | propext, Classical.choice, Quot.sound |
| C141 | `Verif.Props.Splrep.C141_unique` | propext, Classical.choice, Quot.sound |
| C141 | `Verif.Props.Splrep.C141_divide` | propext, Classical.choice, Quot.sound |
| C141 | `Verif.Props.Splrep.C141_build` | propext, Classical.choice, Quot.sound |
| C141 | `Verif.Props.Splrep.C141_accepted` | propext, Classical.choice, Quot.sound |
| C141 | `Verif.Props.Splrep.C141_pdf` | propext, Classical.choice, Quot.sound |
| C141 | `Verif.Props.Splrep.C141_cdf` | propext, Classical.choice, Quot.sound |
| C141 | `Verif.Props.SplineConvert.C141_cdf_ranges` | propext, Classical.choice, Quot.sound |
| C141 | `Verif.Props.Splrep.C91_splrep_partial` | propext, Classical.choice, Quot.sound |
| C142 | `Verif.Props.SplineConvert.C142_convert_partial` | propext, Classical.choice, Quot.sound |
| C142 | `Verif.Props.SplineConvert.C142_exact` | propext, Classical.choice, Quot.sound |
| C142 | `Verif.Props.SplineConvert.C142_twice` | propext, Classical.choice, Quot.sound |
| C142 | `Verif.Props.SplineConvert.C142_negative_wrong` | propext, Classical.choice, Quot.sound |
| C143 | `Verif.Props.AndersonKs.C143_pit` | propext, Classical.choice, Quot.sound |
| C143 | `Verif.Props.AndersonKs.C143_too_few` | propext, Classical.choice, Quot.sound |
| C143 | `Verif.Props.AndersonKs.C143_distance` | propext, Classical.choice, Quot.sound |
| C143 | `Verif.Props.AndersonKs.C143_errors` | propext, Classical.choice, Quot.sound |
| C143 | `Verif.Props.AndersonKs.C143_order` | propext, Classical.choice, Quot.sound |
| C143 | `Verif.Props.AndersonKs.C143_ranks` | propext, Classical.choice, Quot.sound |
| C143 | `Verif.Props.AndersonKs.C143_mirror` | propext, Classical.choice, Quot.sound |
| C143 | `Verif.Props.AndersonKs.C143_pit_order` | propext, Classical.choice, Quot.sound |
| C144 | `Verif.Props.SparseTable.C144_accepts` | propext, Classical.choice, Quot.sound |
| C144 | `Verif.Props.SparseTable.C144_dimensions` | propext, Classical.choice, Quot.sound |
| C144 | `Verif.Props.SparseTable.C144_shapes` | propext, Quot.sound |
| C144 | `Verif.Props.SparseTable.C144_large` | propext, Classical.choice, Quot.sound |
| C144 | `Verif.Props.SparseTable.C144_first` | propext, Classical.choice, Quot.sound |
| C144 | `Verif.Props.SparseTable.C144_order` | propext, Classical.choice, Quot.sound |
| C144 | `Verif.Props.SparseTable.C144_order_first` | propext, Classical.choice, Quot.sound |
| C144 | `Verif.Props.SparseTable.C144_repeated` | propext, Classical.choice, Quot.sound |
| C144 | `Verif.Props.SparseTable.C144_signed` | propext, Classical.choice, Quot.sound |
| C145 | `Verif.Props.Mismatch.C145_mix_partial` | propext, Classical.choice, Quot.sound |
| C145 | `Verif.Props.Mismatch.C145_mix_matching` | propext, Classical.choice, Quot.sound |
| C145 | `Verif.Props.Mismatch.C145_one_weight` | propext, Classical.choice, Quot.sound |
| C145 | `Verif.Props.Mismatch.C145_one_weight_integral` | propext, Classical.choice, Quot.sound |
| C145 | `Verif.Props.Mismatch.C145_one_mean` | propext, Classical.choice, Quot.sound |
| C145 | `Verif.Props.Mismatch.C145_packed` | propext, Classical.choice, Quot.sound |
| C145 | `Verif.Props.Mismatch.C145_spline` | propext, Classical.choice, Quot.sound |
| C146 | `Verif.Props.FineGrid.C146_moment` | propext, Classical.choice, Quot.sound |
| C146 | `Verif.Props.FineGrid.C146_moment_error` | propext, Classical.choice, Quot.sound |
| C146 | `Verif.Props.FineGrid.C146_moment_uniform` | propext, Classical.choice, Quot.sound |
| C146 | `Verif.Props.FineGrid.C146_moment_limits` | propext, Classical.choice, Quot.sound |
| C146 | `Verif.Props.FineGrid.C146_rmse` | propext, Classical.choice, Quot.sound |
| C146 | `Verif.Props.FineGrid.C146_kld` | propext, Classical.choice, Quot.sound |
| C146 | `Verif.Props.FineGrid.C146_kld_negative` | propext, Classical.choice, Quot.sound |
| C146 | `Verif.Props.FineGrid.C146_brier_partial` | propext, Classical.choice, Quot.sound |
| C146 | `Verif.Props.FineGrid.C146_brier_diverges` | propext, Classical.choice, Quot.sound |
| C146 | `Verif.Props.FineGrid.C146_cde` | propext, Classical.choice, Quot.sound |
| C146 | `Verif.Props.FineGrid.C146_mode` | propext, Classical.choice, Quot.sound |
| C147 | `Verif.Props.FineConvert.C147_hist_cdf` | propext, Classical.choice, Quot.sound |
| C147 | `Verif.Props.FineConvert.C147_hist_pdf` | propext, Classical.choice, Quot.sound |
| C147 | `Verif.Props.FineConvert.C147_hist_ppf` | propext, Classical.choice, Quot.sound |
| C147 | `Verif.Props.FineConvert.C147_interp` | propext, Classical.choice, Quot.sound |
| C147 | `Verif.Props.FineConvert.C147_interp_cdf` | propext, Classical.choice, Quot.sound |
| C148 | `Verif.Props.Contraction.C148_hist` | propext, Classical.choice, Quot.sound |
| C148 | `Verif.Props.Contraction.C148_rmse` | propext, Classical.choice, Quot.sound |
| C148 | `Verif.Props.Contraction.C148_interp_larger` | propext, Classical.choice, Quot.sound |
| C149 | `Verif.Props.QuantFine.C149_ppf` | propext, Classical.choice, Quot.sound |
| C149 | `Verif.Props.QuantFine.C149_smooth` | propext, Classical.choice, Quot.sound |
| C149 | `Verif.Props.QuadSpline.C149_near_lines` | propext, Classical.choice, Quot.sound |
| C149 | `Verif.Props.QuadSpline.C149_enough` | propext, Classical.choice, Quot.sound |
| C15 | `Verif.Props.InterpPdf.C15_pdf_through_points` | propext, Classical.choice, Quot.sound |
| C150 | `Verif.Props.MetricClose.C150_moment` | propext, Classical.choice, Quot.sound |
| C150 | `Verif.Props.MetricClose.C150_rmse` | propext, Classical.choice, Quot.sound |
| C150 | `Verif.Props.MetricClose.C150_cde` | propext, Classical.choice, Quot.sound |
| C150 | `Verif.Props.MetricClose.C150_brier` | propext, Classical.choice, Quot.sound |
| C150 | `Verif.Props.MetricClose.C150_pit` | propext, Classical.choice, Quot.sound |
| C150 | `Verif.Props.MetricClose.C150_hist_conversion` | propext, Classical.choice, Quot.sound |
| C150 | `Verif.Props.MetricClose.C150_interp_conversion` | propext, Classical.choice, Quot.sound |
| C150 | `Verif.Props.PitFine.C150_hist_fine` | propext, Classical.choice, Quot.sound |
| C151 | `Verif.Props.Chain.C151_chain` | propext, Classical.choice, Quot.sound |
| C151 | `Verif.Props.Chain.C151_pit` | propext, Classical.choice, Quot.sound |
| C152 | `Verif.Props.PitDetects.C152_limits` | propext, Classical.choice, Quot.sound |
| C152 | `Verif.Props.PitDetects.C152_stored` | propext, Classical.choice, Quot.sound |
| C152 | `Verif.Props.PitDetects.C152_hist_rounded` | propext, Classical.choice, Quot.sound |
| C152 | `Verif.Props.PitDetects.C152_instance` | propext, Classical.choice, Quot.sound |
| C153 | `Verif.Props.QuantTypes.C153_kept` | propext, Classical.choice, Quot.sound |
| C153 | `Verif.Props.QuantTypes.C153_typed` | propext, Classical.choice, Quot.sound |
| C153 | `Verif.Props.QuantTypes.C153_single_partial` | propext, Classical.choice, Quot.sound |
| C153 | `Verif.Props.QuantTypes.C153_coincide` | propext, Classical.choice, Quot.sound |
| C154 | `Verif.Props.GofConvert.C154_references` | propext, Classical.choice, Quot.sound |
| C154 | `Verif.Props.GofConvert.C154_hist` | propext, Classical.choice, Quot.sound |
| C154 | `Verif.Props.GofConvert.C154_fine` | propext, Classical.choice, Quot.sound |
| C154 | `Verif.Props.GofConvert.C154_instance` | propext, Classical.choice, Quot.sound |
| C155 | `Verif.Props.Metrics.C155_point_partial` | propext, Classical.choice, Quot.sound |
| C155 | `Verif.Props.Metrics.C155_pit` | propext, Classical.choice, Quot.sound |
| C155 | `Verif.Props.Metrics.C155_evaluation` | propext, Classical.choice, Quot.sound |
| C155 | `Verif.Props.Metrics.C155_cde` | propext, Classical.choice, Quot.sound |
| C155 | `Verif.Props.Metrics.C155_brier` | propext, Quot.sound |
| C156 | `Verif.Props.Metrics.C156_cde_partial` | propext, Classical.choice, Quot.sound |
| C156 | `Verif.Props.Metrics.C156_cde_wrong` | propext, Classical.choice, Quot.sound |
| C156 | `Verif.Props.Metrics.C156_brier` | propext, Classical.choice, Quot.sound |
| C156 | `Verif.Props.Metrics.C156_pit_partial` | propext, Classical.choice, Quot.sound |
| C156 | `Verif.Props.Metrics.C156_pit_wrong` | propext, Classical.choice, Quot.sound |
| C157 | `Verif.Props.SelfTest.C157_accepts_iff_partial` | propext, Classical.choice, Quot.sound |
| C157 | `Verif.Props.SelfTest.C157_accepted` | propext, Classical.choice, Quot.sound |
| C157 | `Verif.Props.SelfTest.C157_isf_unchecked` | propext, Quot.sound |
| C157 | `Verif.Props.SelfTest.C157_scaled_density` | propext, Classical.choice, Quot.sound |
| C157 | `Verif.Props.SelfTest.C157_class_iff` | propext, Quot.sound |
| C157 | `Verif.Props.SelfTest.C157_conversion_iff` | propext, Classical.choice, Quot.sound |
| C157 | `Verif.Props.SelfTest.C157_conversion_blind` | propext, Classical.choice, Quot.sound |
| C157 | `Verif.Props.SelfTest.C157_histogram_test_blind` | propext, Classical.choice, Quot.sound |
| C157 | `Verif.Props.SelfTest.C157_conversion_one_for_all` | propext, Classical.choice, Quot.sound |
| C158 | `Verif.Props.Random.C158_seed` | propext, Classical.choice, Quot.sound |
| C158 | `Verif.Props.Random.C158_seed_any` | propext, Quot.sound |
| C158 | `Verif.Props.Random.C158_object` | propext, Classical.choice, Quot.sound |
| C158 | `Verif.Props.Random.C158_parts` | propext, Classical.choice, Quot.sound |
| C158 | `Verif.Props.Random.C158_parts_global` | propext, Classical.choice, Quot.sound |
| C158 | `Verif.Props.Random.C158_parts_seed` | propext, Classical.choice, Quot.sound |
| C158 | `Verif.Props.Random.C158_parts_example` | propext, Classical.choice, Quot.sound |
| C158 | `Verif.Props.Random.C158_prefix` | propext, Classical.choice, Quot.sound |
| C158 | `Verif.Props.Random.C158_consecutive` | propext, Classical.choice, Quot.sound |
| C158 | `Verif.Props.Random.C158_more_samples` | propext, Classical.choice, Quot.sound |
| C158 | `Verif.Props.Random.C158_gof` | propext, Quot.sound |
| C158 | `Verif.Props.Random.C158_gof_value` | propext, Classical.choice, Quot.sound |
| C158 | `Verif.Props.Random.C158_gof_unknown` | propext, Quot.sound |
| C158 | `Verif.Props.Random.C158_gof_parts` | propext, Classical.choice, Quot.sound |
| C158 | `Verif.Props.Random.C158_gof_parts_seed` | propext, Classical.choice, Quot.sound |
| C158 | `Verif.Props.Random.C158_gof_example` | propext, Classical.choice, Quot.sound |
| C158 | `Verif.Props.Random.C158_hist_ignores` | propext, Classical.choice, Quot.sound |
| C158 | `Verif.Props.Random.C158_spline_ignores` | propext, Classical.choice, Quot.sound |
| C158 | `Verif.Props.Random.C158_hist_not_repeated` | propext, Classical.choice, Quot.sound |
| C158 | `Verif.Props.Random.C158_global_seed` | propext, Quot.sound |
| C158 | `Verif.Props.Random.C158_mixture_partial` | propext, Quot.sound |
| C158 | `Verif.Props.Random.C158_mixture_start` | propext, Classical.choice, Quot.sound |
| C159 | `Verif.Props.Metrics.Declared.C159_input_types` | none |
| C159 | `Verif.Props.Metrics.Declared.C159_called_as_declared` | propext, Classical.choice, Quot.sound |
| C159 | `Verif.Props.Metrics.Declared.C159_output_partial` | propext, Classical.choice, Quot.sound |
| C159 | `Verif.Props.Metrics.Declared.C159_one_sample` | propext, Classical.choice, Quot.sound |
| C16 | `Verif.Props.InterpPdf.C16_moment0_exact` | propext, Classical.choice, Quot.sound |
| C16 | `Verif.Props.InterpPdf.C16_moment0_partial` | propext, Classical.choice, Quot.sound |
| C16 | `Verif.Props.InterpPdf.C16_moment0_wrong` | propext, Classical.choice, Quot.sound |
| C16 | `Verif.Props.Variance.C16_moments_exact` | propext, Classical.choice, Quot.sound |
| C17 | `Verif.Props.InterpPdf.C17_cdf_partial` | propext, Classical.choice, Quot.sound |
| C17 | `Verif.Props.InterpPdf.C17_integral_wrong` | propext, Classical.choice, Quot.sound |
| C17 | `Verif.Props.RealIntegral.C17_lebesgue` | propext, Classical.choice, Quot.sound |
| C18 | `Verif.Props.Quant.C18_padding` | propext, Classical.choice, Quot.sound |
| C18 | `Verif.Props.Quant.C18_padding_extrapolates` | propext, Classical.choice, Quot.sound |
| C19 | `Verif.Props.Quant.C19_knots_partial` | propext, Quot.sound |
| C19 | `Verif.Props.QuadSpline.C19_knots_spline` | propext, Classical.choice, Quot.sound |
| C19 | `Verif.Props.ConvertQuant.C19_ppf_outside` | propext, Quot.sound |
| C19 | `Verif.Props.Quant.C19_three_points_partial` | propext, Classical.choice, Quot.sound |
| C19 | `Verif.Props.QuadSpline.C19_monotone_iff_partial` | propext, Classical.choice, Quot.sound |
| C19 | `Verif.Props.Quant.C19_not_a_cdf` | propext, Classical.choice, Quot.sound |
| C19 | `Verif.Props.QuadSpline.C19_four_not_a_cdf` | propext, Classical.choice, Quot.sound |
| C20 | `Verif.Props.Quant.C20_linear_partial` | propext, Classical.choice, Quot.sound |
| C20 | `Verif.Props.Quant.C20_constant_partial` | propext, Classical.choice, Quot.sound |
| C20 | `Verif.Props.QuantMass.C20_constant_iff` | propext, Classical.choice, Quot.sound |
| C20 | `Verif.Props.Quant.C20_constant_negative` | propext, Classical.choice, Quot.sound |
| C20 | `Verif.Props.Quant.C20_dual_spline_nodes_partial` | propext, Classical.choice, Quot.sound |
| C20 | `Verif.Props.Quant.C20_dual_spline_negative` | propext, Classical.choice, Quot.sound |
| C21 | `Verif.Props.Quant.C21_spline_rows_exact` | propext, Classical.choice, Quot.sound |
| C21 | `Verif.Props.Quant.C21_rows_partial` | propext, Classical.choice, Quot.sound |
| C21 | `Verif.Props.Quant.C21_spline_rows_wrong` | propext, Classical.choice, Quot.sound |
| C22 | `Verif.Props.Quant.C22_assign` | propext, Quot.sound |
| C22 | `Verif.Props.Quant.C22_history` | propext, Quot.sound |
| C23 | `Verif.Props.Mixmod.C23_rejects_negative` | propext, Quot.sound |
| C23 | `Verif.Props.Mixmod.C23_normalises` | propext, Classical.choice, Quot.sound |
| C23 | `Verif.Props.Mixmod.C23_valid` | propext, Classical.choice, Quot.sound |
| C23 | `Verif.Props.MixmodGauss.C23_gaussian` | propext, Classical.choice, Quot.sound |
| C24 | `Verif.Props.Mixmod.C24_ppf_exact` | propext, Classical.choice, Quot.sound |
| C24 | `Verif.Props.Mixmod.C24_ppf_partial` | propext, Classical.choice, Quot.sound |
| C24 | `Verif.Props.Mixmod.C24_repeated_probability_wrong` | propext, Classical.choice, Quot.sound |
| C24 | `Verif.Props.Mixmod.C24_masked_rows_fail` | propext, Classical.choice, Quot.sound |
| C24 | `Verif.Props.Mixmod.C24_sampling_fails` | propext, Quot.sound |
| C25 | `Verif.Props.Packing.C25_linear_packing` | propext, Classical.choice, Quot.sound |
| C26 | `Verif.Props.Packing.C26_log_error` | propext, Classical.choice, Quot.sound |
| C26 | `Verif.Props.Packing.C26_log_packing_partial` | propext, Classical.choice, Quot.sound |
| C26 | `Verif.Props.Packing.C26_above_floor_lost` | propext, Classical.choice, Quot.sound |
| C26 | `Verif.Props.Packing.C26_small_rows_wrong` | propext, Classical.choice, Quot.sound |
| C27 | `Verif.Props.Packing.C27_unknown` | propext, Classical.choice, Quot.sound |
| C27 | `Verif.Props.Packing.C27_class` | propext, Classical.choice, Quot.sound |
| C27 | `Verif.Props.Packing.C27_matching` | propext, Classical.choice, Quot.sound |
| C28 | `Verif.Props.Sparse.C28_codec_partial` | propext, Classical.choice, Quot.sound |
| C28 | `Verif.Props.Sparse.C28_injective` | propext, Classical.choice, Quot.sound |
| C28 | `Verif.Props.Sparse.C28_index_overflow` | propext, Classical.choice, Quot.sound |
| C28 | `Verif.Props.Sparse.C28_default_sizes` | propext, Classical.choice, Quot.sound |
| C29 | `Verif.Props.Sparse.C29_index_addresses_column` | propext, Classical.choice, Quot.sound |
| C30 | `Verif.Props.SparseSearch.C30_dictionary_after_row` | propext, Classical.choice, Quot.sound |
| C30 | `Verif.Props.SparseSearch.C30_independent_partial` | propext, Classical.choice, Quot.sound |
| C30 | `Verif.Props.SparseSearch.C30_first_row` | propext, Quot.sound |
| C30 | `Verif.Props.SparseSearch.C30_neighbour_changes_encoding` | propext, Classical.choice, Quot.sound |
| C30 | `Verif.Props.SparseSearch.C30_zero_pdf_fails` | propext, Classical.choice, Quot.sound |
| C31 | `Verif.Props.Sparse.C31_weights_exact` | propext, Classical.choice, Quot.sound |
| C31 | `Verif.Props.Sparse.C31_weights_partial` | propext, Classical.choice, Quot.sound |
| C31 | `Verif.Props.Sparse.C31_first_weight_wrong` | propext, Classical.choice, Quot.sound |
| C31 | `Verif.Props.Sparse.C31_negative_wrong` | propext, Classical.choice, Quot.sound |
| C32 | `Verif.Props.Select.C32_int_key` | propext, Classical.choice, Quot.sound |
| C32 | `Verif.Props.Select.C32_slice_key` | propext, Classical.choice, Quot.sound |
| C32 | `Verif.Props.Select.C32_slice_all` | propext, Classical.choice, Quot.sound |
| C32 | `Verif.Props.Select.C32_slice_step` | propext, Classical.choice, Quot.sound |
| C32 | `Verif.Props.Select.C32_mask_key` | propext, Classical.choice, Quot.sound |
| C32 | `Verif.Props.Select.C32_list_key` | propext, Classical.choice, Quot.sound |
| C32 | `Verif.Props.Select.C32_select_partial` | propext, Classical.choice, Quot.sound |
| C32 | `Verif.Props.Select.C32_out_of_range` | propext, Classical.choice, Quot.sound |
| C32 | `Verif.Props.Select.C32_compose` | propext, Classical.choice, Quot.sound |
| C32 | `Verif.Props.Select.C32_empty_selection_fails` | propext, Classical.choice, Quot.sound |
| C32 | `Verif.Props.Select.C32_analytic_partial` | propext, Classical.choice, Quot.sound |
| C33 | `Verif.Props.Select.C33_many_partial` | propext, Classical.choice, Quot.sound |
| C33 | `Verif.Props.Select.C33_integer_key` | propext, Classical.choice, Quot.sound |
| C33 | `Verif.Props.Select.C33_list_column_misaligned` | propext, Classical.choice, Quot.sound |
| C33 | `Verif.Props.Select.C33_reselect_fails` | propext, Classical.choice, Quot.sound |
| C34 | `Verif.Props.Stack.C34_concatenate_partial` | propext, Classical.choice, Quot.sound |
| C34 | `Verif.Props.Stack.C34_assoc` | propext, Classical.choice, Quot.sound |
| C34 | `Verif.Props.Stack.C34_slice_part` | propext, Classical.choice, Quot.sound |
| C34 | `Verif.Props.Stack.C34_analytic` | propext, Classical.choice, Quot.sound |
| C34 | `Verif.Props.Stack.C34_spline_xy_fails` | propext, Classical.choice, Quot.sound |
| C35 | `Verif.Props.Stack.C35_append_concatenate` | propext, Classical.choice, Quot.sound |
| C35 | `Verif.Props.Stack.C35_analytic` | propext, Classical.choice, Quot.sound |
| C36 | `Verif.Props.Stack.C36_accept_partial` | propext, Classical.choice, Quot.sound |
| C36 | `Verif.Props.Stack.C36_concatenate_partial` | propext, Classical.choice, Quot.sound |
| C36 | `Verif.Props.Stack.C36_order_matters` | propext, Classical.choice, Quot.sound |
| C36 | `Verif.Props.Stack.C36_small_grids_merged` | propext, Classical.choice, Quot.sound |
| C37 | `Verif.Props.State.C37_invariant_partial` | propext, Quot.sound |
| C37 | `Verif.Props.State.C37_new` | propext, Quot.sound |
| C37 | `Verif.Props.State.C37_selected` | propext, Quot.sound |
| C37 | `Verif.Props.State.C37_failed_update_breaks` | propext, Quot.sound |
| C38 | `Verif.Props.State.C38_not_stale_partial` | propext, Quot.sound |
| C38 | `Verif.Props.State.C38_stale_after_failed_update` | propext, Quot.sound |
| C38 | `Verif.Props.State.C38_stale_after_grid_mutation` | propext, Quot.sound |
| C38 | `Verif.Props.State.C38_stale_after_alteration` | propext, Quot.sound |
| C39 | `Verif.Props.State.C39_ancil_calls` | propext, Quot.sound |
| C39 | `Verif.Props.State.C39_update_partial` | propext, Quot.sound |
| C39 | `Verif.Props.State.C39_update_objdata_partial` | propext, Quot.sound |
| C39 | `Verif.Props.State.C39_append` | propext, Classical.choice, Quot.sound |
| C39 | `Verif.Props.State.C37_failed_update_breaks` | propext, Quot.sound |
| C40 | `Verif.Props.State.C40_kept_partial` | propext, Classical.choice, Quot.sound |
| C40 | `Verif.Props.State.C40_replaced` | propext, Classical.choice, Quot.sound |
| C40 | `Verif.Props.State.C40_all_given` | propext, Classical.choice, Quot.sound |
| C40 | `Verif.Props.State.C40_irregular_changes` | propext, Classical.choice, Quot.sound |
| C41 | `Verif.Props.Select.C41_iteration_partial` | propext, Classical.choice, Quot.sound |
| C41 | `Verif.Props.Select.C41_wide_column_raises` | propext, Classical.choice, Quot.sound |
| C41 | `Verif.Props.Select.C41_scalar_parameters_never_end` | propext, Classical.choice, Quot.sound |
| C42 | `Verif.Props.Shapes.C42_integrate` | propext, Classical.choice, Quot.sound |
| C42 | `Verif.Props.Shapes.C42_histogramize_partial` | propext, Classical.choice, Quot.sound |
| C42 | `Verif.Props.Shapes.C42_single_pdf_fails` | propext, Quot.sound |
| C42 | `Verif.Props.Shapes.C42_merge` | propext, Classical.choice, Quot.sound |
| C43 | `Verif.Props.Shapes.C43_mode_partial` | propext, Classical.choice, Quot.sound |
| C43 | `Verif.Props.Shapes.C43_single_pdf_fails` | propext, Quot.sound |
| C43 | `Verif.Props.Shapes.C43_nested_wrong` | propext, Classical.choice, Quot.sound |
| C44 | `Verif.Props.Shapes.C44_flatten` | propext |
| C44 | `Verif.Props.Shapes.C44_roundtrip_partial` | propext |
| C44 | `Verif.Props.Shapes.C44_single_pdf_fails` | propext |
| C44 | `Verif.Props.Shapes.C44_row_numbers` | propext, Quot.sound |
| C45 | `Verif.Props.SliceEval.C45_slice_eval_partial` | propext, Classical.choice, Quot.sound |
| C45 | `Verif.Props.SliceEval.C45_single_partial` | propext, Classical.choice, Quot.sound |
| C45 | `Verif.Props.SliceEval.C45_unsorted_differs` | propext, Classical.choice, Quot.sound |
| C46 | `Verif.Props.Tables.C46_round_trip_partial` | propext, Classical.choice, Quot.sound |
| C46 | `Verif.Props.Tables.C46_build_read_partial` | propext, Classical.choice, Quot.sound |
| C46 | `Verif.Props.Tables.C46_unknown_class` | propext, Classical.choice, Quot.sound |
| C46 | `Verif.Props.Tables.C46_analytic` | propext, Classical.choice, Quot.sound |
| C46 | `Verif.Props.Tables.C46_nested_flattened` | propext, Classical.choice, Quot.sound |
| C46 | `Verif.Props.Tables.C46_analytic_flat_changes` | propext, Classical.choice, Quot.sound |
| C46 | `Verif.Props.Tables.C46_name_forms` | propext, Classical.choice, Quot.sound |
| C47 | `Verif.Props.Tables.C47_round_trip_partial` | propext, Classical.choice, Quot.sound |
| C47 | `Verif.Props.Tables.C47_slash_fails` | propext, Classical.choice, Quot.sound |
| C48 | `Verif.Props.Chunks.C48_range_bounds` | propext, Classical.choice, Quot.sound |
| C48 | `Verif.Props.Chunks.C48_every_row_once` | propext, Classical.choice, Quot.sound |
| C48 | `Verif.Props.Chunks.C48_in_order` | propext, Classical.choice, Quot.sound |
| C48 | `Verif.Props.Chunks.C48_one_rank` | propext, Classical.choice, Quot.sound |
| C48 | `Verif.Props.Chunks.C48_chunks` | propext, Classical.choice, Quot.sound |
| C48 | `Verif.Props.Chunks.C48_without_ancil_partial` | propext, Classical.choice, Quot.sound |
| C48 | `Verif.Props.Chunks.C48_stack` | propext, Classical.choice, Quot.sound |
| C48 | `Verif.Props.WritingAnalytic.C48_analytic` | propext, Classical.choice, Quot.sound |
| C49 | `Verif.Props.Chunks.C49_kept_items` | propext, Classical.choice, Quot.sound |
| C49 | `Verif.Props.Chunks.C49_newest_partial` | propext, Classical.choice, Quot.sound |
| C49 | `Verif.Props.Chunks.C49_ancil_overwritten` | propext, Classical.choice, Quot.sound |
| C50 | `Verif.Props.Writing.C50_any_order` | propext, Classical.choice, Quot.sound |
| C50 | `Verif.Props.Writing.C50_tables` | propext, Classical.choice, Quot.sound |
| C50 | `Verif.Props.Writing.C50_any_schedule_partial` | propext, Classical.choice, Quot.sound |
| C50 | `Verif.Props.WritingAnalytic.C50_analytic` | propext, Classical.choice, Quot.sound |
| C51 | `Verif.Props.Writing.C51_unfinished` | propext, Classical.choice, Quot.sound |
| C51 | `Verif.Props.Writing.C51_finished` | propext, Classical.choice, Quot.sound |
| C51 | `Verif.Props.Writing.C51_interrupted_finalisation` | propext, Classical.choice, Quot.sound |
| C51 | `Verif.Props.Writing.C51_missing_rows` | propext, Classical.choice, Quot.sound |
| C52 | `Verif.Props.Writing.C52_never_raises` | propext, Classical.choice, Quot.sound |
| C52 | `Verif.Props.Writing.C52_true_iff_partial` | propext, Classical.choice, Quot.sound |
| C52 | `Verif.Props.Writing.C52_scalar_name` | propext, Classical.choice, Quot.sound |
| C53 | `Verif.Props.Alloc.C53_ensemble` | propext, Quot.sound |
| C53 | `Verif.Props.Alloc.C53_ensemble_ok` | propext, Quot.sound |
| C53 | `Verif.Props.Alloc.C53_hist_partial` | propext, Classical.choice, Quot.sound |
| C53 | `Verif.Props.Alloc.C53_hist_list` | propext, Quot.sound |
| C53 | `Verif.Props.Alloc.C53_interp` | propext, Classical.choice, Quot.sound |
| C53 | `Verif.Props.Alloc.C53_irregular` | propext, Classical.choice, Quot.sound |
| C53 | `Verif.Props.Alloc.C53_mixmod` | propext, Classical.choice, Quot.sound |
| C53 | `Verif.Props.Alloc.C53_packed_iff` | propext, Classical.choice, Quot.sound |
| C53 | `Verif.Props.Alloc.C53_quant_iff` | propext, Classical.choice, Quot.sound |
| C53 | `Verif.Props.Alloc.C53_quant_missing` | propext, Quot.sound |
| C53 | `Verif.Props.Alloc.C53_spline_iff` | propext, Classical.choice, Quot.sound |
| C53 | `Verif.Props.Alloc.C53_analytic_iff` | propext, Quot.sound |
| C53 | `Verif.Props.Alloc.C53_sparse_iff` | propext, Classical.choice, Quot.sound |
| C53 | `Verif.Props.Alloc.C53_sparse_short` | propext, Quot.sound |
| C53 | `Verif.Props.Alloc.C53_spline_wrong` | propext, Quot.sound |
| C53 | `Verif.Props.Alloc.C53_quant_wrong` | propext, Classical.choice, Quot.sound |
| C53 | `Verif.Props.Alloc.C53_sparse_wrong` | propext, Classical.choice, Quot.sound |
| C54 | `Verif.Props.Registry.C54_first_wins` | propext, Classical.choice, Quot.sound |
| C54 | `Verif.Props.Registry.C54_outcome` | propext, Classical.choice, Quot.sound |
| C54 | `Verif.Props.Registry.C54_failure_changes_nothing` | propext |
| C54 | `Verif.Props.Registry.C54_methods` | propext, Classical.choice, Quot.sound |
| C54 | `Verif.Props.Registry.C54_attributes` | propext, Classical.choice, Quot.sound |
| C55 | `Verif.Props.Registry.C55_lookup` | propext, Classical.choice, Quot.sound |
| C55 | `Verif.Props.Registry.C55_never_replaced` | propext, Classical.choice, Quot.sound |
| C55 | `Verif.Props.Registry.C55_default` | propext, Classical.choice, Quot.sound |
| C55 | `Verif.Props.Registry.C55_tables` | propext, Classical.choice, Quot.sound |
| C55 | `Verif.Props.Registry.C55_irregular_second_default` | propext, Classical.choice, Quot.sound |
| C55 | `Verif.Props.Registry.C55_spline_extraction` | propext |
| C55 | `Verif.Props.Registry.C55_hist_extraction` | propext, Classical.choice, Quot.sound |
| C56 | `Verif.Props.Convert.C56_agree_partial` | propext, Classical.choice, Quot.sound |
| C56 | `Verif.Props.Convert.C56_agree_iff` | propext, Classical.choice, Quot.sound |
| C56 | `Verif.Props.Convert.C56_unknown_class` | propext, Quot.sound |
| C56 | `Verif.Props.Convert.C56_no_extraction` | propext |
| C56 | `Verif.Props.Convert.C56_no_ancil` | propext |
| C56 | `Verif.Props.Convert.C56_npdf` | propext, Classical.choice, Quot.sound |
| C56 | `Verif.Props.Accept.C56_missing_keyword` | propext, Classical.choice, Quot.sound |
| C56 | `Verif.Props.Convert.C56_no_creation_differs` | propext, Classical.choice, Quot.sound |
| C57 | `Verif.Props.Convert.C57_ensemble_partial` | propext, Classical.choice, Quot.sound |
| C57 | `Verif.Props.Convert.C57_equal_bins_partial` | propext, Classical.choice, Quot.sound |
| C57 | `Verif.Props.Convert.C57_exact` | propext, Classical.choice, Quot.sound |
| C57 | `Verif.Props.Convert.C57_unequal_bins_wrong` | propext, Classical.choice, Quot.sound |
| C58 | `Verif.Props.Convert.C58_interp` | propext, Classical.choice, Quot.sound |
| C58 | `Verif.Props.Convert.C58_hist_partial` | propext, Classical.choice, Quot.sound |
| C58 | `Verif.Props.Convert.C58_unequal_bins_wrong` | propext, Classical.choice, Quot.sound |
| C58 | `Verif.Props.Convert.C58_irregular_grid` | propext, Classical.choice, Quot.sound |
| C59 | `Verif.Props.Convert.C59_success_partial` | propext, Classical.choice, Quot.sound |
| C59 | `Verif.Props.Convert.C59_counts` | propext, Classical.choice, Quot.sound |
| C59 | `Verif.Props.Convert.C59_one_bin` | propext, Classical.choice, Quot.sound |
| C59 | `Verif.Props.Convert.C59_size_collision_wrong` | propext, Classical.choice, Quot.sound |
| C60 | `Verif.Props.Metrics.C60_success_iff` | propext, Classical.choice, Quot.sound |
| C60 | `Verif.Props.Metrics.C60_errors` | propext, Classical.choice, Quot.sound |
| C60 | `Verif.Props.Metrics.C60_grid_partial` | propext, Classical.choice, Quot.sound |
| C60 | `Verif.Props.Metrics.C60_reversed` | propext, Classical.choice, Quot.sound |
| C60 | `Verif.Props.Metrics.C60_reversed_wrong` | propext, Classical.choice, Quot.sound |
| C61 | `Verif.Props.Metrics.C61_one_hot` | propext, Classical.choice, Quot.sound |
| C61 | `Verif.Props.Metrics.C61_rejects` | propext, Quot.sound |
| C61 | `Verif.Props.Metrics.C61_encoding` | propext, Classical.choice, Quot.sound |
| C62 | `Verif.Props.Metrics.C62_value` | propext, Classical.choice, Quot.sound |
| C62 | `Verif.Props.Metrics.C62_zero_iff` | propext, Classical.choice, Quot.sound |
| C62 | `Verif.Props.Metrics.C62_range` | propext, Classical.choice, Quot.sound |
| C62 | `Verif.Props.Metrics.C62_order` | propext, Classical.choice, Quot.sound |
| C62 | `Verif.Props.Metrics.C62_shape` | propext, Quot.sound |
| C63 | `Verif.Props.Metrics.C63_chunks_partial` | propext, Classical.choice, Quot.sound |
| C63 | `Verif.Props.Metrics.C63_single_fails` | propext, Classical.choice, Quot.sound |
| C63 | `Verif.Props.Metrics.C63_single_flat` | propext, Classical.choice, Quot.sound |
| C64 | `Verif.Props.Metrics.C64_nearest` | propext, Classical.choice, Quot.sound |
| C64 | `Verif.Props.Metrics.C64_value` | propext, Classical.choice, Quot.sound |
| C64 | `Verif.Props.Metrics.C64_chunks` | propext, Classical.choice, Quot.sound |
| C64 | `Verif.Props.Metrics.C64_errors` | propext, Classical.choice, Quot.sound |
| C64 | `Verif.Props.Metrics.C64_broadcast_differs` | propext, Classical.choice, Quot.sound |
| C65 | `Verif.Props.Metrics.C65_one_chunk_partial` | propext, Quot.sound |
| C65 | `Verif.Props.Metrics.C65_last_only` | propext, Quot.sound |
| C65 | `Verif.Props.Metrics.C65_errors` | propext, Quot.sound |
| C65 | `Verif.Props.Metrics.C65_agree_iff` | propext, Quot.sound |
| C65 | `Verif.Props.Metrics.C65_drops_chunks` | propext, Classical.choice, Quot.sound |
| C66 | `Verif.Props.Metrics.C66_exists` | propext, Classical.choice, Quot.sound |
| C66 | `Verif.Props.Metrics.C66_bounds` | propext, Classical.choice, Quot.sound |
| C66 | `Verif.Props.Metrics.C66_order` | propext, Classical.choice, Quot.sound |
| C66 | `Verif.Props.Metrics.C66_upper` | propext, Classical.choice, Quot.sound |
| C66 | `Verif.Props.Metrics.C66_largest_partial` | propext, Classical.choice, Quot.sound |
| C66 | `Verif.Props.Metrics.C66_jump_wrong` | propext, Classical.choice, Quot.sound |
| C66 | `Verif.Props.Metrics.C66_exact` | propext, Classical.choice, Quot.sound |
| C67 | `Verif.Props.Metrics.C67_order` | propext, Classical.choice, Quot.sound |
| C67 | `Verif.Props.Metrics.C67_exists` | propext, Quot.sound |
| C67 | `Verif.Props.Metrics.C67_lower` | propext, Classical.choice, Quot.sound |
| C67 | `Verif.Props.Metrics.C67_lower_iff` | propext, Classical.choice, Quot.sound |
| C67 | `Verif.Props.Metrics.C67_upper` | propext, Classical.choice, Quot.sound |
| C68 | `Verif.Props.Metrics.C68_self` | propext, Classical.choice, Quot.sound |
| C68 | `Verif.Props.Metrics.C68_nonneg` | propext, Classical.choice, Quot.sound |
| C68 | `Verif.Props.Metrics.C68_shape` | propext, Classical.choice, Quot.sound |
| C68 | `Verif.Props.Metrics.C68_rows_partial` | propext, Classical.choice, Quot.sound |
| C68 | `Verif.Props.Metrics.C68_any_negative` | propext, Classical.choice, Quot.sound |
| C68 | `Verif.Props.Metrics.C68_depends_on_others` | propext, Classical.choice, Quot.sound |
| C68 | `Verif.Props.Metrics.C68_gibbs` | propext, Classical.choice, Quot.sound |
| C69 | `Verif.Props.Metrics.C69_value` | propext, Classical.choice, Quot.sound |
| C69 | `Verif.Props.Metrics.C69_metric` | propext, Classical.choice, Quot.sound |
| C69 | `Verif.Props.Metrics.C69_ensembles` | propext, Classical.choice, Quot.sound |
| C70 | `Verif.Props.Metrics.C70_relation` | propext, Classical.choice, Quot.sound |
| C70 | `Verif.Props.Metrics.C70_equal_iff` | propext, Classical.choice, Quot.sound |
| C70 | `Verif.Props.Metrics.C70_differs` | propext, Classical.choice, Quot.sound |
| C70 | `Verif.Props.Metrics.C70_errors` | propext, Classical.choice, Quot.sound |
| C70 | `Verif.Props.Metrics.C70_linear_partial` | propext, Classical.choice, Quot.sound |
| C70 | `Verif.Props.Metrics.C70_uniform_mass` | propext, Classical.choice, Quot.sound |
| C71 | `Verif.Props.Metrics.C71_rate` | propext, Classical.choice, Quot.sound |
| C71 | `Verif.Props.Metrics.C71_mono` | propext, Classical.choice, Quot.sound |
| C71 | `Verif.Props.Metrics.C71_point` | propext, Classical.choice, Quot.sound |
| C71 | `Verif.Props.Metrics.C71_point_mono` | propext, Classical.choice, Quot.sound |
| C72 | `Verif.Props.Metrics.C72_median` | propext, Classical.choice, Quot.sound |
| C72 | `Verif.Props.Metrics.C72_order` | propext, Classical.choice, Quot.sound |
| C72 | `Verif.Props.Metrics.C72_objects` | propext, Classical.choice, Quot.sound |
| C72 | `Verif.Props.Metrics.C72_nonneg` | propext, Classical.choice, Quot.sound |
| C72 | `Verif.Props.Metrics.C72_shift` | propext, Classical.choice, Quot.sound |
| C72 | `Verif.Props.Metrics.C72_exists` | propext, Classical.choice, Quot.sound |
| C72 | `Verif.Props.Metrics.C72_range` | propext, Classical.choice, Quot.sound |
| C73 | `Verif.Props.Metrics.C73_samples` | propext, Classical.choice, Quot.sound |
| C73 | `Verif.Props.Metrics.C73_few_objects` | propext, Quot.sound |
| C73 | `Verif.Props.Metrics.C73_distribution_partial` | propext, Classical.choice, Quot.sound |
| C73 | `Verif.Props.Metrics.C73_end_levels` | propext, Classical.choice, Quot.sound |
| C73 | `Verif.Props.Metrics.C73_all_zero` | propext, Classical.choice, Quot.sound |
| C74 | `Verif.Props.Metrics.C74_unknown` | propext, Classical.choice, Quot.sound |
| C74 | `Verif.Props.Metrics.C74_check` | propext, Classical.choice, Quot.sound |
| C74 | `Verif.Props.Metrics.C74_own_partial` | propext, Classical.choice, Quot.sound |
| C74 | `Verif.Props.Metrics.C74_by_name_partial` | propext, Classical.choice, Quot.sound |
| C74 | `Verif.Props.Metrics.C74_accepted` | propext, Classical.choice, Quot.sound |
| C74 | `Verif.Props.Metrics.C74_one_sample_wrong` | propext, Classical.choice, Quot.sound |
| C74 | `Verif.Props.Metrics.C74_scalar_fails` | propext, Quot.sound |
| C74 | `Verif.Props.Metrics.C74_mismatch_accepted` | propext, Classical.choice, Quot.sound |
| C75 | `Verif.Props.MetricRegistry.C75_listed` | propext, Classical.choice, Quot.sound |
| C75 | `Verif.Props.MetricRegistry.C75_create` | propext, Classical.choice, Quot.sound |
| C75 | `Verif.Props.MetricRegistry.C75_own_class_partial` | propext, Classical.choice, Quot.sound |
| C75 | `Verif.Props.MetricRegistry.C75_last_wins` | propext, Classical.choice, Quot.sound |
| C75 | `Verif.Props.MetricRegistry.C75_inherited_wrong` | propext, Classical.choice, Quot.sound |
| C75 | `Verif.Props.MetricRegistry.C75_idempotent` | propext, Classical.choice, Quot.sound |
| C75 | `Verif.Props.MetricRegistry.C75_stale` | propext, Classical.choice, Quot.sound |
| C75 | `Verif.Props.MetricRegistry.C75_key` | propext, Classical.choice, Quot.sound |
| C76 | `Verif.Props.Profile.C76_entries` | propext, Classical.choice, Quot.sound |
| C76 | `Verif.Props.Profile.C76_lengths` | propext, Classical.choice, Quot.sound |
| C76 | `Verif.Props.Profile.C76_one_bin` | propext, Classical.choice, Quot.sound |
| C76 | `Verif.Props.Profile.C76_assign_partial` | propext, Classical.choice, Quot.sound |
| C76 | `Verif.Props.Profile.C76_empty` | propext, Classical.choice, Quot.sound |
| C76 | `Verif.Props.Profile.C76_mean` | propext, Classical.choice, Quot.sound |
| C76 | `Verif.Props.Profile.C76_spread` | propext, Classical.choice, Quot.sound |
| C76 | `Verif.Props.Profile.C76_error_le` | propext, Classical.choice, Quot.sound |
| C77 | `Verif.Props.InterpPdf.C77_irregular_ppf` | propext, Classical.choice, Quot.sound |
| C77 | `Verif.Props.InterpPdf.C77_unnormalised_wrong` | propext, Classical.choice, Quot.sound |
| C78 | `Verif.Props.AndersonDarling.C78_order` | propext, Classical.choice, Quot.sound |
| C78 | `Verif.Props.AndersonDarling.C78_lower` | propext, Classical.choice, Quot.sound |
| C78 | `Verif.Props.AndersonDarling.C78_positive` | propext, Classical.choice, Quot.sound |
| C79 | `Verif.Props.PackedPdf.C79_packed_error` | propext, Classical.choice, Quot.sound |
| C79 | `Verif.Props.PackedCurves.C79_log_packed_error` | propext, Classical.choice, Quot.sound |
| C80 | `Verif.Props.Front.C80_ppf_per_pdf` | propext, Classical.choice, Quot.sound |
| C80 | `Verif.Props.Front.C80_isf_per_pdf` | propext, Classical.choice, Quot.sound |
| C80 | `Verif.Props.Front.C80_ppf_shared_exact` | propext, Classical.choice, Quot.sound |
| C80 | `Verif.Props.Front.C80_ppf_shared_partial` | propext, Classical.choice, Quot.sound |
| C80 | `Verif.Props.Front.C80_isf_shared_partial` | propext, Classical.choice, Quot.sound |
| C80 | `Verif.Props.Front.C80_isf_reversed` | propext, Classical.choice, Quot.sound |
| C80 | `Verif.Props.Front.C80_median` | propext, Classical.choice, Quot.sound |
| C80 | `Verif.Props.Front.C80_interval` | propext, Classical.choice, Quot.sound |
| C80 | `Verif.Props.Front.C80_interval_ends` | propext, Classical.choice, Quot.sound |
| C80 | `Verif.Props.Front.C80_sf` | propext, Quot.sound |
| C80 | `Verif.Props.Front.C80_sf_isf` | propext, Classical.choice, Quot.sound |
| C80 | `Verif.Props.Front.inverse_hist` | propext, Classical.choice, Quot.sound |
| C80 | `Verif.Props.Front.inverse_irregular` | propext, Classical.choice, Quot.sound |
| C81 | `Verif.Props.EndToEndReal.C81_bspline` | propext, Classical.choice, Quot.sound |
| C81 | `Verif.Props.Spline.C81_bounds` | propext, Classical.choice, Quot.sound |
| C81 | `Verif.Props.Spline.C81_splint_integral` | propext, Classical.choice, Quot.sound |
| C81 | `Verif.Props.Spline.C81_cdf_partial` | propext, Classical.choice, Quot.sound |
| C81 | `Verif.Props.Spline.C81_cdf_mono` | propext, Classical.choice, Quot.sound |
| C81 | `Verif.Props.Spline.C81_pdf_points` | propext, Classical.choice, Quot.sound |
| C81 | `Verif.Props.Spline.C81_pdf_outside` | propext, Classical.choice, Quot.sound |
| C81 | `Verif.Props.Spline.C81_outside_wrong` | propext, Classical.choice, Quot.sound |
| C82 | `Verif.Props.Spline.C82_total_exact` | propext, Classical.choice, Quot.sound |
| C82 | `Verif.Props.Spline.C82_normalised_partial` | propext, Classical.choice, Quot.sound |
| C82 | `Verif.Props.Spline.C82_wrong` | propext, Classical.choice, Quot.sound |
| C83 | `Verif.Props.SparsePdf.C83_shapes_agree` | propext, Classical.choice, Quot.sound |
| C83 | `Verif.Props.SparsePdf.C83_class_agrees_partial` | propext, Quot.sound |
| C83 | `Verif.Props.SparsePdf.C83_normalised` | propext, Classical.choice, Quot.sound |
| C83 | `Verif.Props.SparsePdf.C83_padding` | propext, Quot.sound |
| C83 | `Verif.Props.SparsePdf.C83_nonneg_partial` | propext, Classical.choice, Quot.sound |
| C83 | `Verif.Props.SparsePdf.C83_negative_wrong` | propext, Classical.choice, Quot.sound |
| C84 | `Verif.Props.ConvertQuant.C84_quantiles_kept` | propext, Classical.choice, Quot.sound |
| C84 | `Verif.Props.ConvertQuant.C84_one_quantile` | propext, Classical.choice, Quot.sound |
| C85 | `Verif.Props.ConvertError.C85_hist_error` | propext, Classical.choice, Quot.sound |
| C86 | `Verif.Props.Metrics.C86_ks` | propext, Classical.choice, Quot.sound |
| C86 | `Verif.Props.Metrics.C86_cvm` | propext, Classical.choice, Quot.sound |
| C86 | `Verif.Props.Metrics.C86_trim` | propext, Classical.choice, Quot.sound |
| C86 | `Verif.Props.Metrics.C86_order` | propext, Classical.choice, Quot.sound |
| C86 | `Verif.Props.Metrics.C86_construct` | propext, Classical.choice, Quot.sound |
| C86 | `Verif.Props.Metrics.C86_constant` | propext, Classical.choice, Quot.sound |
| C86 | `Verif.Props.Metrics.C86_outlier` | propext, Classical.choice, Quot.sound |
| C87 | `Verif.Props.SparseGrid.C87_grid_partial` | propext, Classical.choice, Quot.sound |
| C87 | `Verif.Props.SparseGrid.C87_lost` | propext, Classical.choice, Quot.sound |
| C87 | `Verif.Props.SparseGrid.C87_covered_iff` | propext, Classical.choice, Quot.sound |
| C87 | `Verif.Props.SparseGrid.C87_half_lost_wrong` | propext, Classical.choice, Quot.sound |
| C88 | `Verif.Props.Rbpe.C88_loss` | propext, Classical.choice, Quot.sound |
| C88 | `Verif.Props.Rbpe.C88_risk_bounds` | propext, Classical.choice, Quot.sound |
| C88 | `Verif.Props.Rbpe.C88_monotone` | propext, Classical.choice, Quot.sound |
| C88 | `Verif.Props.Rbpe.C88_local_min` | propext, Classical.choice, Quot.sound |
| C88 | `Verif.Props.Rbpe.C88_continuous` | propext, Classical.choice, Quot.sound |
| C88 | `Verif.Props.Rbpe.C88_best_exists` | propext, Classical.choice, Quot.sound |
| C88 | `Verif.Props.Rbpe.C88_scale` | propext, Classical.choice, Quot.sound |
| C88 | `Verif.Props.Rbpe.C88_estimates` | propext, Classical.choice, Quot.sound |
| C89 | `Verif.Props.Variance.C89_histogram_partial` | propext, Classical.choice, Quot.sound |
| C89 | `Verif.Props.Variance.C89_interp_partial` | propext, Classical.choice, Quot.sound |
| C89 | `Verif.Props.Variance.C89_interp_mean_exact` | propext, Classical.choice, Quot.sound |
| C89 | `Verif.Props.Variance.C89_mean_and_variance_wrong` | propext, Classical.choice, Quot.sound |
| C90 | `Verif.Props.MixReal.C90_density` | propext, Classical.choice, Quot.sound |
| C90 | `Verif.Props.MixReal.C90_moments` | propext, Classical.choice, Quot.sound |
| C90 | `Verif.Props.MixReal.C90_quantiles_partial` | propext, Classical.choice, Quot.sound |
| C90 | `Verif.Props.MixReal.C90_quantiles_single` | propext, Classical.choice, Quot.sound |
| C90 | `Verif.Props.MixReal.C90_quantiles_wrong` | propext, Classical.choice, Quot.sound |
| C91 | `Verif.Props.Kde.C91_defined` | propext, Classical.choice, Quot.sound |
| C91 | `Verif.Props.Kde.C91_density` | propext, Classical.choice, Quot.sound |
| C91 | `Verif.Props.Kde.C91_order` | propext, Classical.choice, Quot.sound |
| C91 | `Verif.Props.Kde.C91_units` | propext, Classical.choice, Quot.sound |
| C91 | `Verif.Props.Kde.C91_rows` | propext, Classical.choice, Quot.sound |
| C91 | `Verif.Props.Kde.C91_pdfs_partial` | propext, Classical.choice, Quot.sound |
| C91 | `Verif.Props.Kde.C91_sign` | propext, Classical.choice, Quot.sound |
| C91 | `Verif.Props.Kde.C91_negative_wrong` | propext, Classical.choice, Quot.sound |
| C91 | `Verif.Props.Splrep.C91_splrep_partial` | propext, Classical.choice, Quot.sound |
| C91 | `Verif.Props.Splrep.C91_splrep_wrong` | propext, Classical.choice, Quot.sound |
| C92 | `Verif.Props.Digest.C92_chunks_partial` | propext, Classical.choice, Quot.sound |
| C92 | `Verif.Props.Digest.C92_mad_defined` | propext, Classical.choice, Quot.sound |
| C92 | `Verif.Props.Digest.C92_mad_error` | propext, Classical.choice, Quot.sound |
| C92 | `Verif.Props.Digest.C92_mad_order` | propext, Classical.choice, Quot.sound |
| C92 | `Verif.Props.Digest.C92_outlier_range` | propext, Classical.choice, Quot.sound |
| C92 | `Verif.Props.Digest.C92_constant_index_error` | propext, Classical.choice, Quot.sound |
| C92 | `Verif.Props.Digest.C92_perfect_estimates_wrong` | propext, Classical.choice, Quot.sound |
| C93 | `Verif.Props.Digest.C93_chunks_partial` | propext, Classical.choice, Quot.sound |
| C93 | `Verif.Props.Digest.C93_chunk_fails` | propext, Classical.choice, Quot.sound |
| C93 | `Verif.Props.Digest.C93_last_object_wrong` | propext, Classical.choice, Quot.sound |
| C94 | `Verif.Props.Inspect.C94_length_partial` | propext, Classical.choice, Quot.sound |
| C94 | `Verif.Props.Inspect.C94_length_of_read` | propext, Classical.choice, Quot.sound |
| C94 | `Verif.Props.Inspect.C94_metadata` | propext, Classical.choice, Quot.sound |
| C94 | `Verif.Props.Inspect.C94_no_data` | propext, Quot.sound |
| C94 | `Verif.Props.Inspect.C94_flat_parameters_wrong` | propext, Quot.sound |
| C95 | `Verif.Props.SparseEns.C95_cut_not_stored` | propext, Classical.choice, Quot.sound |
| C95 | `Verif.Props.SparseEns.C95_selection_partial` | propext, Classical.choice, Quot.sound |
| C95 | `Verif.Props.SparseEns.C95_cut_forgotten` | propext, Classical.choice, Quot.sound |
| C95 | `Verif.Props.SparseEns.C95_normal_wrong` | propext, Classical.choice, Quot.sound |
| C96 | `Verif.Props.Freeze.C96_two_passes` | propext, Classical.choice, Quot.sound |
| C96 | `Verif.Props.Freeze.C96_flag_ignored` | propext, Classical.choice, Quot.sound |
| C96 | `Verif.Props.Freeze.C96_quant_keeps_partial` | propext, Classical.choice, Quot.sound |
| C96 | `Verif.Props.Freeze.C96_unchecked_changed` | propext, Classical.choice, Quot.sound |
| C96 | `Verif.Props.Freeze.C96_one_point_refused` | propext, Classical.choice, Quot.sound |
| C97 | `Verif.Props.Sampling.C97_samples` | propext, Classical.choice, Quot.sound |
| C97 | `Verif.Props.Sampling.C97_not_sampled` | propext, Classical.choice, Quot.sound |
| C97 | `Verif.Props.Sampling.C97_hist` | propext, Classical.choice, Quot.sound |
| C97 | `Verif.Props.Sampling.C97_hist_law` | propext, Classical.choice, Quot.sound |
| C97 | `Verif.Props.Sampling.C97_hist_made` | propext, Classical.choice, Quot.sound |
| C97 | `Verif.Props.Sampling.C97_irregular` | propext, Classical.choice, Quot.sound |
| C97 | `Verif.Props.Sampling.C97_interp_partial` | propext, Classical.choice, Quot.sound |
| C97 | `Verif.Props.SamplingMore.C97_interp_cells_partial` | propext, Classical.choice, Quot.sound |
| C97 | `Verif.Props.SamplingMore.C97_interp_density_wrong` | propext, Classical.choice, Quot.sound |
| C97 | `Verif.Props.SamplingMore.C97_packed_partial` | propext, Classical.choice, Quot.sound |
| C97 | `Verif.Props.SamplingMore.C97_quant_partial` | propext, Classical.choice, Quot.sound |
| C97 | `Verif.Props.SamplingMore.C97_quant_wrong` | propext, Classical.choice, Quot.sound |
| C97 | `Verif.Props.SamplingMore.C97_independent` | propext, Classical.choice, Quot.sound |
| C98 | `Verif.Props.SampleConvert.C98_hist_partial` | propext, Classical.choice, Quot.sound |
| C98 | `Verif.Props.SampleConvert.C98_mix` | propext, Classical.choice, Quot.sound |
| C98 | `Verif.Props.SampleConvert.C98_spline` | propext, Classical.choice, Quot.sound |
| C98 | `Verif.Props.SampleConvert.C98_refused` | propext, Classical.choice, Quot.sound |
| C98 | `Verif.Props.SampleConvert.C98_hist_unbiased` | propext, Classical.choice, Quot.sound |
| C99 | `Verif.Props.MetricObjects.C99_refused` | propext, Classical.choice, Quot.sound |
| C99 | `Verif.Props.MetricObjects.C99_settings_partial` | propext, Classical.choice, Quot.sound |
| C99 | `Verif.Props.MetricObjects.C99_ignored` | propext, Classical.choice, Quot.sound |
| C99 | `Verif.Props.MetricObjects.C99_matters` | propext, Classical.choice, Quot.sound |
| C99 | `Verif.Props.MetricObjects.C99_misspelt` | propext, Classical.choice, Quot.sound |
| C99 | `Verif.Props.MetricObjects.C99_evaluate_real` | propext, Classical.choice, Quot.sound |
| C99 | `Verif.Props.MetricObjects.C99_evaluate` | propext, Classical.choice, Quot.sound |
| C99 | `Verif.Props.MetricObjects.C99_outlier` | propext, Quot.sound |
| C99 | `Verif.Props.MetricObjects.C99_kld_direction` | propext, Classical.choice, Quot.sound |
