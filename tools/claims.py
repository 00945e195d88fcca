claim("C01", "partial", "C01_shared_grid_exact C01_shared_grid_partial C01_unsorted_points_wrong C01_interp_ensemble_partial",
      "Exact characterisation for every list of points; the code violates the property for unsorted distinct points with >= 2 PDFs (C01_unsorted_points_wrong).")
claim("C02", "proved", "C02_one_point_per_pdf", "")
claim("C03", "proved", "C03_sampling_uses_own_pdf", "")
claim("C04", "partial", "C04_flat_path_partial C04_exact C04_iff C04_depends_on_other_points C04_interp_routines_agree C04_paths_same_function C04_two_dim Plot.C04_increasing",
      "C04_exact gives the values returned for every matrix of points, C04_iff exactly when they are right; C04_two_dim gives the two-dimensional calls made when sampling; the two scipy interpolation routines agree. Violated when there are as many different points in all as points per PDF and the rows are not one increasing list (C04_depends_on_other_points).")
claim("C05", "partial", "C05_uniform_iff C05_nonuniform_iff C05_uniform_left_closed C05_nonuniform_right_closed C05_bin_lookup_partial C05_index_valid C05_tiny_bins_wrong C05_near_uniform_wrong C05_within_tolerance C05_away_from_edges",
      "Holds for exactly uniform or detectably non-uniform edges; the absolute tolerance of np.allclose makes the code wrong for tiny or nearly uniform bins (witnesses). For any increasing edges C05_within_tolerance and C05_away_from_edges bound how wrong: only points within the sum of the tolerances of an edge can be put into another bin.")
claim("C06", "partial", "C06_hist_pdf_partial C06_tiny_bins_wrong C06_away_from_edges", "As C05.")
claim("C07", "proved", "C07_row_normalised C07_scale_invariant C07_reconstruct C07_shape_check", "")
claim("C08", "proved", "C08_cdf_is_mass C08_cdf_shape C08_cdf_slope C08_integral_partial C08_integral_any_edges C08_lebesgue", "C08_integral_partial adds the Lebesgue integral of the evaluated PDF over the reals; it needs bins that the lookup recognises (C05), the other theorems do not. C08_integral_any_edges has no condition on the bins and bounds the difference by the tolerance of the lookup.")
claim("C09", "proved", "C09_ppf_range C09_cdf_ppf C09_ppf_mono C09_ppf_cdf", "")
claim("C10", "partial", "C10_ppf_ends_infinite C10_inner_ppf_ends_partial",
      "The property is false: the scipy front end answers -inf/+inf (C10_ppf_ends_infinite); the inner _ppf would have given the edges.")
claim("C11", "partial", "C11_moments_partial C11_nonuniform_wrong C11_moment2_exact C11_moment1_nonuniform_wrong", "Orders 0 and 1 hold for uniform bins and are wrong for non-uniform bins; order 2 is exactly w^2/12 too small on uniform bins.")
claim("C12", "proved", "C12_interp_normalises C12_scale_invariant C12_integral C12_lebesgue", "C12_integral: the Lebesgue integral over the real line is one.")
claim("C13", "partial", "C13_cdf_shape C13_cdf_at_grid C13_first_point_wrong C13_integral_partial C13_lebesgue",
      "Shape and all grid points but the first; at the first grid point the CDF is the first density, not 0. C13_lebesgue gives the exact error between grid points.")
claim("C14", "partial", "C14_cdf_ppf_exact C14_cdf_ppf_partial C14_small_probability_wrong C14_ppf_mono",
      "cdf(ppf(q)) characterised exactly; it is q for q at least the first cumulated value, wrong below.")
claim("C15", "proved", "C15_pdf_through_points", "")
claim("C16", "partial", "C16_moment0_exact C16_moment0_partial C16_moment0_wrong C16_moments_exact",
      "Orders 0, 1, 2 characterised exactly on uniform grids: 0 and 1 are right when the end densities vanish, order 2 is w^2/6 too small then.")
claim("C17", "partial", "C17_cdf_partial C17_integral_wrong C17_lebesgue", "Exact value of the integral in C17_lebesgue. CDF shape proved; the integral of the PDF is not one in general.")
claim("C18", "proved", "C18_padding C18_padding_extrapolates", "")
claim("C19", "partial", "C19_knots_partial C19_knots_spline C19_ppf_outside C19_three_points_partial C19_monotone_iff_partial C19_not_a_cdf C19_four_not_a_cdf",
      "The CDF reproduces the quantiles for any interpolating routine; for three points it is non-decreasing exactly under the stated slope conditions; in general it is neither monotone nor within [0,1] (C19_not_a_cdf).")
claim("C20", "partial", "C20_linear_partial C20_constant_partial C20_constant_iff C20_constant_negative C20_dual_spline_nodes_partial C20_dual_spline_negative",
      "Piecewise linear is never negative; piecewise constant: exact condition for every cell (C20_constant_iff); the other two can be negative (witnesses).")
claim("C21", "partial", "C21_spline_rows_exact C21_rows_partial C21_spline_rows_wrong",
      "The two spline reconstructions return the first PDF in every row.")
claim("C22", "proved", "C22_assign C22_history", "")
claim("C23", "proved", "C23_rejects_negative C23_normalises C23_valid C23_gaussian", "")
claim("C24", "partial", "C24_ppf_exact C24_ppf_partial C24_repeated_probability_wrong C24_masked_rows_fail C24_sampling_fails",
      "Right for increasing probabilities or one mixture; wrong mixture for repeated probabilities, failures for masked rows and sampling.")
claim("C25", "proved", "C25_linear_packing", "")
claim("C26", "partial", "C26_log_error C26_log_packing_partial C26_above_floor_lost C26_small_rows_wrong",
      "Exact error law; values within half a step above the floor are lost and rows of tiny values are inflated.")
claim("C27", "proved", "C27_unknown C27_class C27_matching", "")
claim("C28", "partial", "C28_codec_partial C28_injective C28_index_overflow C28_default_sizes",
      "Round trip exactly for indices below 65536; default dictionaries are larger for grids of 364 points or more.")
claim("C29", "proved", "C29_index_addresses_column", "")
claim("C30", "partial", "C30_dictionary_after_row C30_independent_partial C30_first_row C30_neighbour_changes_encoding C30_zero_pdf_fails",
      "The dictionary is not restored after a row; exact description of what is left and a witness.")
claim("C31", "partial", "C31_weights_exact C31_weights_partial C31_first_weight_wrong C31_negative_wrong",
      "The first weight is forced to one.")
claim("C42", "partial", "C42_integrate C42_histogramize_partial C42_single_pdf_fails C42_merge",
      "An ensemble whose PDF was given as one-dimensional arrays has an empty shape and histogramize raises TypeError.")
claim("C43", "partial", "C43_mode_partial C43_single_pdf_fails C43_nested_wrong",
      "Holds for ensembles of rank one; a single PDF without a leading axis raises, and nested shapes take the maximum along the wrong axis.")
claim("C44", "partial", "C44_flatten C44_roundtrip_partial C44_single_pdf_fails C44_row_numbers",
      "Holds for shapes of rank at least one; for the empty shape the restored array differs.")
claim("C32", "partial", "C32_int_key C32_slice_key C32_slice_all C32_slice_step C32_mask_key C32_list_key C32_select_partial C32_out_of_range C32_compose C32_empty_selection_fails C32_analytic_partial",
      "Proved for the eight row classes (any history of operations) and analytic classes with (n,1) parameters; the empty selection raises ValueError for quantile, irregular and spline classes.")
claim("C33", "partial", "C33_many_partial C33_integer_key C33_list_column_misaligned C33_reselect_fails",
      "Slices, masks and index lists keep array columns aligned. Integer keys raise ValueError for columns with several numbers per PDF; list columns are not selected; selecting from ens[i] raises IndexError.")
claim("C41", "partial", "C41_iteration_partial C41_wide_column_raises C41_scalar_parameters_never_end",
      "Proved for the row classes with at most one number per PDF in each ancillary column; wide columns raise, and analytic distributions with Python numbers as parameters iterate forever.")
claim("C34","partial","C34_concatenate_partial C34_assoc C34_slice_part C34_analytic C34_spline_xy_fails","Stacking is exact for every class with per-row arrays (all modelled kinds) and for the analytic classes; splines created from (xvals, yvals) cannot be concatenated, proved as C34_spline_xy_fails.")
claim("C35","proved","C35_append_concatenate C35_analytic","")
claim("C36","partial","C36_accept_partial C36_concatenate_partial C36_order_matters C36_small_grids_merged","Concatenation is exact when accepted metadata agree; acceptance up to the tolerance of isclose merges unequal grids and depends on the order, proved by C36_small_grids_merged and C36_order_matters.")
claim("C37","partial","C37_invariant_partial C37_new C37_selected C37_failed_update_breaks","Holds for all histories except those in which an update raises after replacing the PDFs by another number of PDFs; that exception is proved to break the claim.")
claim("C38","partial","C38_not_stale_partial C38_stale_after_failed_update C38_stale_after_grid_mutation C38_stale_after_alteration","Holds for clean histories; the three ways of getting stale values are proved.")
claim("C39","partial","C39_ancil_calls C39_update_partial C39_update_objdata_partial C39_append C37_failed_update_breaks","set_ancil, add_to_ancil and append are atomic; update/update_objdata replace the PDFs before raising when the ancillary data passed do not fit (exact characterisation proved).")
claim("C40","partial","C40_kept_partial C40_replaced C40_all_given C40_irregular_changes","All row classes; the y-values of irregular grids are renormalised when only the x-values are given (proved).")
claim("C45","partial","C45_slice_eval_partial C45_single_partial C45_unsorted_differs","Proved for all row classes, any evaluation that uses the metadata and the PDF's own table rows, any history of operations, increasing points; false for unsorted points (proved).")
claim("C46","partial","C46_round_trip_partial C46_build_read_partial C46_unknown_class C46_analytic  C46_nested_flattened C46_analytic_flat_changes C46_name_forms","Identity for every reachable ensemble of a row class (columns in any order) and for analytic classes with (n,1) parameters; false (proved) for nested shapes, 1-D analytic parameters. The file format of tables_io is trusted to return the tables it was given.")
claim("C47","partial","C47_round_trip_partial C47_slash_fails","All dictionaries of reachable ensembles with plain names as keys; keys with a slash are proved to make read_dict raise KeyError.")
claim("C48","partial","C48_range_bounds C48_every_row_once C48_in_order C48_one_rank C48_chunks C48_without_ancil_partial C48_stack C48_analytic","Coverage for all row counts, chunk sizes and ranks; items equal slices for all reachable ensembles of the row classes and for analytic classes with (n,1) parameters; without ancillary table the items have an empty dictionary instead of None (proved). data_ranges_by_rank is modelled from its documentation.")
claim("C49","partial","C49_kept_items C49_newest_partial C49_ancil_overwritten","False: the ancillary data of all items handed out are those of the last one (exact theorem and witness); the PDFs are kept, and the newest item is valid.")
claim("C50","partial","C50_any_order C50_tables C50_any_schedule_partial C50_analytic","Assignments to disjoint rows or different data sets commute (any contents); for any tables, any order and interleaving of the column assignments of chunks that cover all rows gives the tables; for reachable ensembles of the row classes and for analytic ensembles with (n,1) parameters, with array ancillary data, the file reads back as the ensemble. Missing: analytic parameters of other shapes (which do not survive reading either, C46_analytic_flat_changes); h5py is modelled as assigning rows of data sets.")
claim("C51","proved","C51_unfinished C51_finished C51_interrupted_finalisation C51_missing_rows","Any class, any prefix of the allocation, any assignments before the finalisation; after the finalisation it is a qp file. Beyond the claim: a crash within the finalisation leaves a file that passes is_qp_file but cannot be read, and missing chunks go unnoticed (both proved).")
claim("C52","partial","C52_never_raises C52_true_iff_partial C52_scalar_name","Exact characterisation for every outcome of the reader; exceptions that are not an Exception (keyboard interrupt) propagate, and a scalar or empty pdf_name entry counts as absent although read accepts a scalar one (proved).")
claim("C53","partial","C53_ensemble C53_ensemble_ok C53_hist_partial C53_hist_list C53_interp C53_irregular C53_mixmod C53_packed_iff C53_quant_iff C53_quant_missing C53_spline_iff C53_analytic_iff C53_sparse_iff C53_sparse_short C53_spline_wrong C53_quant_wrong C53_sparse_wrong","Exact for the ensemble method and for hist (array bins), interp, irregular, mixmod; exact iff conditions for packed, quant, spline, sparse, analytic, which fail for padded quantiles, for splines with another number of PDFs and for sparse codes whose recorded number differs from the table (witnesses).")
claim("C54","proved","C54_first_wins C54_outcome C54_failure_changes_nothing C54_methods C54_attributes","")
claim("C55","proved","C55_lookup C55_never_replaced C55_default C55_tables C55_irregular_second_default C55_spline_extraction C55_hist_extraction","")
claim("C56","partial","C56_agree_partial C56_agree_iff C56_unknown_class C56_no_extraction C56_no_ancil C56_npdf C56_missing_keyword C56_no_creation_differs","The two entry points agree exactly when the class has a creation method; without one they raise different errors (witness). Extractions from samples: C98.")
claim("C57","partial","C57_ensemble_partial C57_equal_bins_partial C57_exact C57_unequal_bins_wrong","The code hands bin masses to the constructor as densities: false for bins of unequal width (witness); C57_exact says exactly when the masses are kept.")
claim("C58","partial","C58_interp C58_hist_partial C58_unequal_bins_wrong C58_irregular_grid","Interpolated ensembles: proved in full. Histograms: for equal-width bins and finite rows; false for unequal bins (witness).")
claim("C59","partial","C59_success_partial C59_counts C59_one_bin C59_size_collision_wrong","Succeeds unless the number of PDFs equals the number of bins and differs from the sample size (exact condition proved, witness); counting proved.")
claim("C60","partial","C60_success_iff C60_errors C60_grid_partial C60_reversed C60_reversed_wrong","Proved for limits in increasing order; reversed limits are accepted with a negative step and give edges that do not fit the points (witness).")
claim("C61","proved","C61_one_hot C61_rejects C61_encoding","")
claim("C62","proved","C62_value C62_zero_iff C62_range C62_order C62_shape","")
claim("C63","partial","C63_chunks_partial C63_single_fails C63_single_flat","Proved for chunks of at least two PDFs; a chunk with a single PDF raises ValueError because the truth array is squeezed (C63_single_fails).")
claim("C64","proved","C64_nearest C64_value C64_chunks C64_errors C64_broadcast_differs","For chunks with one true value per PDF. The code does not check that; with one PDF and several true values the two ways differ (C64_broadcast_differs).")
claim("C65","partial","C65_one_chunk_partial C65_last_only C65_errors C65_agree_iff C65_drops_chunks","False of the code for more than one chunk: only the last chunk counts (proved for every metric, witness). The t-digest itself is not modelled.")
claim("C66","partial","C66_exists C66_bounds C66_order C66_upper C66_largest_partial C66_jump_wrong C66_exact","Bounds, order and upper bound in full; largest distance for references without jumps at the samples (false otherwise, witness), with the exact value for every reference (C66_exact).")
claim("C67","proved","C67_order C67_exists C67_lower C67_lower_iff C67_upper","")
claim("C68","partial","C68_self C68_nonneg C68_shape C68_rows_partial C68_any_negative C68_depends_on_others C68_gibbs","One PDF with a negative sum makes the code replace the values of all PDFs (witness); independence proved otherwise.")
claim("C69","proved","C69_value C69_metric C69_ensembles","")
claim("C70","partial","C70_relation C70_equal_iff C70_differs C70_errors C70_linear_partial C70_uniform_mass","Linearity proved; the two entry points agree exactly when all moments vanish (proved), so the claim of equality is false of the code.")
claim("C71","proved","C71_rate C71_mono C71_point C71_point_mono","")
claim("C72","proved","C72_median C72_order C72_objects C72_nonneg C72_shift C72_exists C72_range","")
claim("C76","partial","C76_entries C76_lengths C76_one_bin C76_assign_partial C76_empty C76_mean C76_spread C76_error_le","The assignment to bins inherits the restriction of C05 (edges unequal by less than the tolerance); everything else in full.")
claim("C73", "partial", "C73_samples C73_few_objects C73_distribution_partial C73_end_levels C73_all_zero",
      "A single object raises TypeError; quantile levels 0 and 1 stay in when the grid contains them, and the default grid is replaced by one that does when there are fewer objects than grid points.")
claim("C74", "partial", "C74_unknown C74_check C74_own_partial C74_by_name_partial C74_accepted C74_one_sample_wrong C74_scalar_fails C74_mismatch_accepted",
      "The failed size check is only logged: one estimate against several references is computed. With one sample for every PDF all samples are used for every value.")
claim("C75", "partial", "C75_listed C75_create C75_own_class_partial C75_last_wins C75_inherited_wrong C75_idempotent C75_stale C75_key",
      "Exact for an empty or refreshed registry; a subclass inheriting the name replaces its parent; without force_update new classes are not seen.")
claim("C77", "proved", "C77_irregular_ppf C77_unnormalised_wrong", "The second theorem shows that normalisation at construction is needed.")
claim("C78", "proved", "C78_order C78_lower C78_positive", "Exact logarithms (no rounding); the reference enters through log CDF and log(1-CDF).")
claim("C79", "proved", "C79_packed_error C79_log_packed_error", "Linear and logarithmic packing, for exact arithmetic; the row must not be all zero.")
claim("C80", "partial", "C80_ppf_per_pdf C80_isf_per_pdf C80_ppf_shared_exact C80_ppf_shared_partial C80_isf_shared_partial C80_isf_reversed C80_median C80_interval C80_interval_ends C80_sf C80_sf_isf inverse_hist inverse_irregular", "One probability per PDF, medians, intervals and survival functions are proved. A shared list of probabilities is right for ppf only when increasing and for isf only when decreasing; C80_isf_reversed proves that increasing probabilities give reversed rows as soon as there are two PDFs. The scipy front end is modelled from its source.")
claim("C81", "partial", "C81_bspline C81_bounds C81_splint_integral C81_cdf_partial C81_cdf_mono C81_pdf_points C81_pdf_outside C81_outside_wrong", "Proved between the first and the last knot, for every degree, knots and coefficients: the CDF is the integral of the PDF, the PDF lies between the coefficients, evaluation keeps positions. Violated outside the knots: the PDF is continued as a polynomial (negative or growing) where the CDF takes it to be zero. FITPACK's splev and splint are modelled by their algorithms.")
claim("C82", "partial", "C82_total_exact C82_normalised_partial C82_wrong", "Proved for PDFs with a common range; for different ranges C82_total_exact gives the value and C82_wrong a pair of PDFs with total probability 1/2. quad is taken to be exact; that splrep is linear is proved (C141_divide).")
claim("C83", "partial", "C83_shapes_agree C83_class_agrees_partial C83_normalised C83_padding C83_nonneg_partial C83_negative_wrong", "Decoding to Voigt parameters and decoding with the dictionary always agree; the class agrees with them unless the cut removes something, because only the decoding functions cut. Negative coefficients give negative densities in the class (C83_negative_wrong).")
claim("C84","proved","C84_quantiles_kept C84_one_quantile","For any class and any interpolant that passes through its knots (scipy's quadratic interpolant is not modelled further). A single probability raises IndexError.")
claim("C85","proved","C85_hist_error","For any class; the bins have equal width (see C57 for the others).")
claim("C86","proved","C86_ks C86_cvm C86_trim C86_order C86_construct C86_constant C86_outlier","The statistics of scipy's kstest and cramervonmises are modelled from their source; anderson_ksamp is any function of the two lists it is given; the outlier rate holds for any interpolant that passes through its knots.")
claim("C87","partial","C87_grid_partial C87_lost C87_covered_iff C87_half_lost_wrong","The new values are the densities of the input and the grid ends at the last positive grid point; the segment behind it is cut off, which C87_covered_iff characterises exactly and C87_half_lost_wrong shows to cost half of the mass in an example. The encoding of the rebinned values is the subject of C28-C31 and C83.")
claim("C88","proved","C88_loss C88_risk_bounds C88_monotone C88_local_min C88_continuous C88_best_exists C88_scale C88_estimates","quad is taken to be exact; the optimiser is any function returning a local minimum (without limits) or a point within its bounds (with limits).")
claim("C89", "partial", "C89_histogram_partial C89_interp_partial C89_interp_mean_exact C89_mean_and_variance_wrong",
      "Uniform bins: mean exact, variance too small by exactly w^2/12. Uniform grid and zero ends: mean exact, variance too small by exactly w^2/6. Otherwise wrong (witness with variance -220); exact formula for the mean.")
claim("C90", "partial", "C90_density C90_moments C90_quantiles_partial C90_quantiles_single C90_quantiles_wrong", "Density, CDF, mean and variance: proved in full (norm.cdf is taken to be the normal probability). Quantiles: the error in probability is bounded by exp(-18) or the growth of the CDF over one of the 200 cells between the extremes of the whole ensemble, 0.024 for a single normal PDF. Violated in ensembles with PDFs far apart: C90_quantiles_wrong has a standard normal PDF with a median above 200.")
claim("C91", "partial", "C91_defined C91_density C91_order C91_units C91_rows C91_pdfs_partial C91_sign C91_negative_wrong C91_splrep_partial C91_splrep_wrong", "gaussian_kde is modelled from its source (one dimension, Scott's rule); the spline is any one that passes through its points, and for four or more increasing abscissae the spline of scipy itself (C91_splrep_partial, C91_splrep_wrong). Missing because the code violates it: the integral of a spline through positive values can be negative for unequal abscissae, and the division by it then gives a negative PDF (C91_negative_wrong: samples 0.9 and 1.1, abscissae 0, 1, 2, 12); C91_sign gives the exact sign.")
claim("C92", "partial", "C92_chunks_partial C92_mad_defined C92_mad_error C92_mad_order C92_outlier_range C92_constant_index_error C92_perfect_estimates_wrong",
  "Through a digest that loses nothing the chunk-wise median, interquartile width and outlier rate equal those of the undivided data; the median absolute deviation is within half a bin (times 1.4826) of that of the digest's distribution. Missing because the code violates it: equal residuals (for instance perfect estimates) raise IndexError through digests although the direct evaluation gives zero. pytdigest itself is a parameter.")
claim("C93", "partial", "C93_chunks_partial C93_chunk_fails C93_last_object_wrong",
  "Equality with the undivided PIT distribution holds for lossless digests if the PIT object of every chunk can be constructed. Missing because the code violates it: a chunk of one object raises TypeError and a chunk of equal PIT values IndexError, although the undivided evaluation succeeds.")
claim("C94", "partial", "C94_length_partial C94_length_of_read C94_metadata C94_no_data C94_flat_parameters_wrong", "The file length agrees with the number of PDFs for all row classes (any history of operations) and the metadata read alone with what reading the ensemble uses. False for analytic classes made from flat parameter arrays (one PDF shape, several rows reported).")
claim("C95", "partial", "C95_cut_not_stored C95_selection_partial C95_cut_forgotten C95_normal_wrong", "Proved for ensembles made with the default cut (any profile and norm, increasing points). Another cut is not among the stored data, so selections use the default: for every profile between the two cuts the density changes (C95_cut_forgotten, with a normal profile C95_normal_wrong).")
claim("C96", "partial", "C96_two_passes C96_flag_ignored C96_quant_keeps_partial C96_unchecked_changed C96_one_point_refused", "Holds for quantiles, which record the flag. For histograms, interpolated (common, per-row, packed) and sparse PDFs the object is built a second time with input checking on when it is frozen: the flag has no effect (proved for all arguments), so unchecked heights are normalised. C96_two_passes also shows that the one-pass model of the constructors used elsewhere is what the two passes give.")
claim("C97", "partial", "C97_samples C97_not_sampled C97_hist C97_hist_law C97_hist_made C97_irregular C97_interp_partial C97_interp_cells_partial C97_interp_density_wrong C97_packed_partial C97_quant_partial C97_quant_wrong C97_independent", "Which PDF and draw each sample comes from, for all shapes; samples of histograms have the density of the ensemble (equality of measures), samples of irregularly interpolated PDFs the CDF. Partial: interpolated PDFs follow the CDF of the ensemble, which has an atom at the first grid point (C13), so that point is drawn with positive probability; each cell of an interpolated or packed grid gets its probability, but inside a cell the samples do not follow the density (C97_interp_density_wrong). Quantile PDFs: the stored locations are quantiles of the samples if the PPF does not decrease, otherwise not (C97_quant_wrong). Independent draws give independent samples. rvs() without size and nested ensembles raise (proved). Generator and uniformity of the draws are assumed; spline and analytic classes not covered (scipy's own rvs).")
claim("C98", "partial", "C98_hist_partial C98_mix C98_spline C98_refused C98_hist_unbiased", "For every shape with one index, every number of samples and all draws each PDF of the result is made from its own samples (histogram counts, fitted mixture, kernel density spline). Missing because the code violates it: nested ensembles and mixtures raise ValueError (C98_refused), histograms with as many bins as PDFs raise unless that is also the number of samples (C59). The fit of scikit-learn is an arbitrary function.")
claim("C99", "partial", "C99_refused C99_settings_partial C99_ignored C99_matters C99_misspelt C99_evaluate_real C99_evaluate C99_outlier C99_kld_direction", "For every metric class and all keyword arguments: which settings the object keeps, exactly when the constructor raises, and that evaluation uses the chosen settings (divergence, error, moment, Brier score, outlier rate). Missing because the code violates it: thirteen of sixteen classes drop keywords they do not know without an error (C99_misspelt, for all of them); the divergence object hands the estimate over in the role documented for the truth (C99_kld_direction).")
claim("C100", "partial", "C100_linear_partial C100_linear_even C100_linear_unbounded C100_constant C100_constant_even", "The exact total probability of the piecewise linear (default) and piecewise constant reconstructions for all quantiles. Violated by the code: with locations at equal distances the linear one is always below one, by half of the first and the last interval; otherwise it can exceed every bound. The spline reconstructions are the subject of C102.")
claim("C101", "partial", "C101_pointwise C101_value_partial C101_exp C101_tails C101_hist C101_nan", "For every class (arbitrary evaluation function) and every array of finite points the three functions are the logarithms of pdf, cdf and sf entry by entry and fail exactly when these do; exact conditions for -inf and nan; exp gives the values back; the tails add up to one; monotone for histograms. Missing because the code violates it: a negative density of a spline reconstruction has logarithm nan (C101_nan).")
claim("C102", "partial", "C102_between C102_total_partial C102_sign C102_negative C102_dual_uniform C102_cubic_between C102_cubic_total_partial C102_cubic_dual_uniform", "Derivative of the spline through the quantiles: probability between any two locations, total probability one and agreement with the CDF at the locations, for every continuously differentiable interpolant, and for the cubic spline itself (C102_cubic_between, C102_cubic_total_partial, C102_cubic_dual_uniform); the exact condition for a density that is never negative. Missing because the code violates it: the density can be negative (C102_negative), and the average of two splines loses probability already for a uniform distribution (C102_dual_uniform).")
claim("C103", "partial", "C103_values C103_inside_partial C103_whole_line C103_pdf_iff C103_cdf_iff C103_ppf_ends C103_uniform_wrong C103_expon_wrong C103_loaded", "Values of every distribution object entry by entry; the wrapped class agrees with scipy inside the support, everywhere for distributions on the whole line or with their own support method, and the exact condition otherwise. Missing because the code violates it: the ends of the support given to scipy's constructor are dropped, so the uniform distribution of qp has density 1/scale on the whole line and the exponential one grows without bound before its start. The front ends and the formulas of uniform and expon are taken from scipy's source.")
claim("C104", "proved", "C104_hist C104_interp C104_irregular C104_mixture C104_quantiles C104_sparse C104_packed C104_spline", "From the arguments of the constructor to the values of the ensemble for all eight classes with one table row per PDF, for data of non-vanishing mass. Nearly equal bins are the subject of C05, points in another order of C01, splines outside their knots of C81.")
claim("C105","partial","C105_stats_partial C105_negative_variance C105_histogram","The numbers are those of the moments the class reports, whichever letters are asked for; for histograms on equal bins they are related exactly to the density. Missing because the code differs: variance, skewness and kurtosis are those of points at bin centres, and a negative variance (C89) gives nan.")
claim("C106","proved","C106_histogram C106_interp C106_mixture C106_normal C106_support C106_variance C106_units","quad is taken to be exact; densities that are negative somewhere have no entropy.")
claim("C107","partial","C107_least_squares_partial C107_stops_early","Coefficients are least squares for the chosen functions, functions are distinct, and every way the search can end is listed. Missing because the code differs: it can stop although the dictionary fits the PDF exactly, and with a nearly dependent second function it returns two positions and one coefficient.")
claim("C108","partial","C108_distribution C108_mean_variance_partial","Density, CDF and PPF of a packed PDF for both kinds of packing. The CDF at the first grid point and small probabilities are off as for interpolated PDFs (the statement gives the exact value); the variance is w^2/6 too small.")
claim("C109","partial","C109_curve_partial C109_limits C109_long_range C109_several C109_transposed C109_label C109_interp_native C109_hist_native C109_quant_native C109_quant_properties C109_native_npts C109_irr_native C109_irr_several_wrong C109_spline_native C109_packed_native C109_packed_made C109_grid_native","One PDF: proved for all row classes. The code refuses several PDFs (or draws a jumble when there are as many points as PDFs) and raises when axis labels are given.")
claim("C110","proved","C110_interp_error C110_fine_grids","Explicit error bound for the density everywhere and for the CDF at the grid points after the first (at and below the first point the CDF has the error stated in C13).")
claim("C111","partial","C111_brier_partial C111_brier_true_density C111_brier_improper C111_cde","CDE loss: proved. Brier: the code compares densities with fractions, so the best prediction has the fractions as densities and the true density is best exactly when the grid spacing is one.")
claim("C112","partial","C112_uniform C112_approx C112_hist C112_mix C112_interp_partial C112_interp_not_uniform","Exact for every class whose distribution function is the integral of its density (histograms, Gaussian mixtures); interpolated PDFs violate it between grid points (C13), with the bound given in C112_interp_partial.")
claim("C113","proved","C113_expectations","Equal bins, as in C57 and C85 (with unequal bins the code takes masses for densities, C57_unequal_bins_wrong).")
claim("C114","partial","C114_convert_select_partial C114_unsorted_differs C114_sparse_differs","Proved for all row classes, keys and increasing grids, with target classes histogram, interpolated, irregular, quantile and packed. False for grids that are not increasing and for the sparse class, whose grid depends on the other PDFs.")
claim("C115","partial","C115_convert_parts_partial","Proved for non-empty compatible parts with one index, increasing grids and the five target classes of C114. The sparse class violates it like C114.")
claim("C116","partial","C116_hist_partial C116_interp C116_irregular C116_mixture normal_unit C116_hist_quantiles C116_interp_quantiles C116_irregular_quantiles C116_quantiles C116_quantiles_spline C116_mixture_quantiles C116_spline C116_small_units_wrong C116_interp_mean_wrong","Proved for all classes given by grids, quantiles or components. Violated by histograms with unequal bins in units in which the bins are below the tolerance of allclose, and by the mean of interpolated PDFs under shifts.")
claim("C117","partial","C117_grid C117_rmse C117_kld_partial C117_cde C117_gof C117_pit C117_brier_wrong C117_kld_wrong","Grid, RMSE, CDE loss, goodness of fit, PIT and outlier rate: proved. KL divergence: proved for densities that are not clipped, false otherwise. The Brier score depends on the units.")
claim("C118","partial","C118_stream_partial","Proved for the row classes as sources and hist, interp, interp_irregular, quant and packed_interp as targets, on increasing grids, for every schedule of the writes. Missing: the sparse target and unsorted grids (violated, C114), and ancillary data, which a conversion does not carry over.")
claim("C119","partial","C119_eval_partial C119_cde C119_brier_partial C119_pit C119_rmse C119_kld_partial","CDE loss, PIT values and RMSE: proved for every chunk size, number of processes and order. Evaluation: at increasing points (otherwise violated, C01). Brier score: chunks of two or more PDFs (a chunk of one PDF raises, C63). KL divergence: the values of the rows unless all values of the whole files were replaced by the machine epsilon because one of them is negative (C68).")
claim("C120","partial","C120_formats C120_double C120_relative_error C120_hist_stored C120_hist_cumul C120_hist_cdf C120_hist_monotone_partial C120_cdf_decreases C120_hist_double C120_exact","Error bounds, and monotonicity between neighbouring edges: proved for every rounding and every order of summation. In doubles the CDF can exceed 1 and decrease by a rounding error. Overflow and underflow are not modelled.")
claim("C121","partial","C121_interp_stored C121_interp_cdf C121_interp_pdf C121_pdf_negative C121_irregular_partial C121_irregular_stored C121_irregular_cdf C121_irregular_pdf C121_irregular_double C121_irregular_cdf_decreases C121_irregular_cancels","Error bounds for stored ordinates, PDF and CDF proved for regular and irregular grids; on irregular grids the bound grows with the distance of a cell from zero in units of its width, and without a bound on that distance the normalisation can divide by zero through cancellation. The PDF can be negative, and the CDF on irregular grids above 1, by a rounding error.")
claim("C122","partial","C122_weights C122_value C122_cdf_bound_partial C122_cdf_above_one","Error bounds proved for every order of summation, relative to the component values that scipy returns. The CDF can exceed 1 by a rounding error.")
claim("C123","partial","C123_index_partial C123_pdf_partial C123_search C123_edge_wrong","Proved away from the edges for evenly spaced bins and everywhere for unevenly spaced ones. At the edges themselves, and within a few units in the last place, the neighbouring bin can be found.")
claim("C124","partial","C124_file_partial C124_exact_iff C124_slices C124_again C124_float C124_int_iff C124_bytes_iff C124_wider C124_names_cut C124_fractions_lost","A file written in chunks holds every element converted to the type of the ensemble that allocated it, for every schedule; it holds the ensemble itself exactly when all elements are of these types. Violated otherwise: longer names of later chunks are cut off, fractions are lost when the first chunk holds integers.")
claim("C125","partial","C125_cast C125_columns C125_hist C125_interp C125_mix C125_packed C125_packed_log C125_locations_partial C125_locations_coincide","Error bounds for histograms, interpolated PDFs and mixture weights in single-precision data sets, packed PDFs exactly unchanged. Quantile locations and per-PDF grids stay ordered, but values closer than the spacing of single precision coincide and the row becomes non-finite.")
claim("C126","partial","C126_frame C126_write C126_values_private C126_values_isolated_partial C126_slice_shares C126_list_copies C126_int_shares C126_selection_holds C126_append_holds C126_ancil_accepts C126_slice_writes_parent C126_add_to_ancil C126_set_ancil_keeps","Proved for every program of array, dictionary and ensemble operations: only writing in place reaches other objects, and only through shared memory; normalised values are private to each ensemble. Isolation is violated for grids, quantile locations and the other arrays of a class, and for ancillary data: slices are views and dictionaries are kept.")
claim("C127","partial","C127_unknown_keyword C127_missing_argument C127_hist_partial C127_interp_partial C127_irregular_partial C127_mixture_partial C127_quantiles_partial C127_packed_partial C127_spline_partial C127_accepts_invalid","Exactly which arguments histograms, interpolated PDFs, mixtures, quantiles, packed PDFs and splines accept, with the exception otherwise; unknown and missing keywords for all classes that store tables. Sparse codes outside the dictionary are treated in C144. Tables of different sizes are treated in C145. Which of several exceptions comes first is not followed. Violated: values that are not distributions (negative, unordered, all zero) are accepted.")
claim("C128","partial","C128_hist_partial C128_irregular_partial C128_interp_partial C128_pdf_follows C128_table_fixed C128_hist_stale C128_hist_edges C128_interp_stale C128_packed_stale","Histograms, irregular grids and common grids: the order and number of evaluations never matters. Violated after writing into the object data in place: densities follow, CDFs and PPFs keep the table made at the first evaluation (or by the constructor), packed PDFs do not follow at all.")
claim("C129","proved","C129_point C129_gof C129_pit C129_pit_outlier C129_brier C129_cde C129_values","For all lists of objects and all orders, exceptions included, in exact arithmetic (sums of floating-point numbers can differ by rounding). The numerical integration inside the Anderson-Darling p-value and the minimiser of the best point estimate are outside the model.")
claim("C130","partial","C130_hist C130_hist_padding C130_hist_padding_example C130_hist_moment_changes C130_interp_partial C130_interp_padding C130_interp_padding_example C130_irregular_padding C130_irregular_padding_example C130_packed_padding C130_packed_padding_example C130_pack_padding C130_log_pack_padding C130_log_pack_padding_example C130_log_pack_small_changes C130_interp_moment_padding C130_interp_moment_changes C130_hist_moment_padding C130_hist_moment_padding_example C130_interp_cdf_changes C130_interp_cdf_bound C130_interp_cdf_cell C130_irregular_changes C130_mixture C130_zero_weight C130_zero_weight_ppf_changes","Histograms: density, CDF and PPF proved for any number of divided bins and of empty bins added at the ends. Mixtures: density, CDF and PPF proved for reordered and divided components, density and CDF for components of weight zero. Interpolated PDFs: density, and CDF at the old grid points but the first (elsewhere it moves by at most the largest probability of a cell); density, CDF and PPF for zeros added beyond ends that are zero, also with a grid per PDF and for packed PDFs (codes of both packings; conversion with linear packing, and with logarithmic packing unless all values are very small); moments, also of histograms, then if the first cell keeps its width. Violated by the code: reported moments of histograms and, when the width of the first cell changes, of interpolated PDFs, CDF between grid points, everything for points added between grid points with a grid per PDF, and the PPF when a component of weight zero is added.")
claim("C131","partial","C131_hist C131_hist_mean_not_mirrored C131_interp_partial C131_interp_inner C131_interp_ends_not_mirrored C131_irregular_not_mirrored C131_mixture C131_quantiles C131_spline C131_gof","Histograms (density, CDF, quantiles, mean with bins of one width), mixtures (density, CDF, quantiles), quantile PDFs (CDF and quantiles) and the three goodness-of-fit statistics are proved. Interpolated PDFs: density everywhere, CDF between the second grid point and the last but one. Violated: CDF of interpolated PDFs at the ends of the grid, normalisation of PDFs with a grid each, means of histograms with bins of different widths.")
claim("C132","proved","C132_median C132_iqr C132_outlier_rate C132_sharp","For all objects and all values of the outliers. The limits (half, a quarter of all objects but one) cannot be raised: C132_sharp. The variants on a t-digest are in C92.")
claim("C133","partial","C133_hist C133_interp C133_mixture_weights C133_mixture_means C133_point_metrics_partial C133_ks C133_ks_samples C133_cvm C133_outlier_rate_jumps OrderMore.C133_packed_rowmax OrderMore.C133_packed_log OrderMore.C133_packed_linear OrderMore.C133_quant_partial C133_quant_any C133_quant_cdf C133_quant_cdf_unpadded C133_quant_pdf_partial C133_quant_pdf_jumps C133_quant_spline_pdf_partial C133_quant_spline_pdf_jumps C133_quant_dual_partial C133_quant_dual_jumps C133_quant_constant_partial C133_quant_constant_jumps C133_hist_edges","Proved with explicit constants for histograms, interpolated PDFs, mixtures, packed PDFs (largest value and codes), the quantile function of any number of quantiles, bias, sigma-IQR, sigma-MAD, KS and CvM. False for the outlier rate: it jumps for an arbitrarily small change (C133_outlier_rate_jumps). The CDF of quantile PDFs depends continuously on the locations, uniformly in the argument (no explicit constant); the densities of all four reconstructions do, except at the points where they begin or end (and, piecewise constant, at the midpoints), where they jump (witnesses). Also proved, with a constant: the bin edges of a histogram.")
claim("C134","partial","Dominance.C134_hist_quantile Dominance.C134_hist Dominance.C134_hist_mean Dominance.C134_interp_partial Dominance.C134_interp_mean_wrong Dominance.C134_irregular Dominance.C134_mixture Dominance.C134_mixture_means OrderMore.C134_packed OrderMore.C134_quant_partial OrderMore.C134_quant_wrong OrderMore.C134_quant_between_wrong","Proved for quantiles of histograms and PDFs with their own grids (equivalence, any two objects), of interpolated PDFs, packed PDFs and Gaussian mixtures of one ensemble, and for the means of histograms on common edges of equal width. False for the reported means of interpolated PDFs (C134_interp_mean_wrong) and for quantile-parameterised PDFs (C134_quant_wrong), except at the stored probabilities. Sparse and spline PDFs use the numerical inversion of scipy, which is not modelled.")
claim("C135","partial","Plot.C135_samples Plot.C135_current_axes_partial Plot.C135_other_axes_wrong Plot.C135_npoints_wrong Plot.C135_properties_wrong","Proved for the current axes, any samples and any density. The code draws the curve on the current axes instead of those given, refuses its own argument npoints, and fails after drawing the marks when a line width or style is given.")
claim("C136","partial","Rebin.C136_two_steps_partial Rebin.C136_finer Rebin.C136_order Rebin.C136_unequal_wrong","Two steps: proved for every class, equal first bins and any second bins among their edges. Finer edges: a histogram ensemble converted to equal bins that include its edges keeps CDF, PPF and density. Order: proved for equal bins. Violated when the first bins are unequal (C57).")
claim("C137","partial","LargeSamples.C137_ks LargeSamples.C137_cvm LargeSamples.C137_self LargeSamples.C137_hist_partial LargeSamples.C137_pit","Goodness of fit (KS, CvM) and the PIT: proved, almost surely, for all estimates with independent uniform random numbers. The KS limit is proved for references without jumps (with jumps the statistic is not the distance: C66). Histograms: proved except for as many PDFs as bins, where the code refuses the samples (C59). The theorem of Glivenko and Cantelli is proved in Lemmas/LargeNumbers.lean from the strong law of Mathlib.")
claim("C138","partial","C138_hist_partial C138_hist_decreases C138_hist_outside C138_interp C138_irregular_partial C138_irregular_elsewhere","The computed quantile is next to a point of the range with the right probability to its left, with explicit bounds, for every rounding. Violated in doubles: the quantile itself can lie outside the range and can decrease, by a rounding error; with a grid per PDF it can be the largest grid point of another PDF, arbitrarily far away, for probabilities next to 1.")
claim("C139","proved","C139_exists C139_unique C139_cdf_ppf C139_reproduces C139_units C139_mirror C139_weights C139_smooth C139_continuous","The quadratic spline is modelled for any number of points, with the break points that make_interp_spline chooses for degree 2; existence and uniqueness are proved, so the method of solution does not matter in exact arithmetic. Rounding errors of the solver are not modelled.")
claim("C140","proved","C140_exists C140_unique C140_reproduces C140_linear C140_units C140_mirror C140_smooth","The cubic spline is modelled for any number of points from four, with the break points that scipy's interpolating cubic splines have (every point except the second and the last but one); existence and uniqueness are proved, so the method of solution does not matter in exact arithmetic. Rounding errors of the solver are not modelled.")
claim("C141","partial","C141_splrep C141_unique C141_divide C141_build C141_accepted C141_pdf C141_cdf C141_cdf_ranges C91_splrep_partial","The whole of create_from_xy_vals is modelled with the splines themselves: normalising the points and then building the splines is the same as dividing the coefficients (C141_build), and any other coefficients through the points would be the same (C141_unique), so FITPACK's solver is only trusted for its choice of knots. quad is taken to be exact, rounding errors are not modelled. The CDF is proved for PDFs with a common range; for different ranges and for a vanishing or negative integral the code violates it (C82_wrong, C91_splrep_wrong), hence partial.")
claim("C142","partial","C142_convert_partial C142_exact C142_twice C142_negative_wrong","Values at the abscissae, total probability, CDF, what is converted without loss, converting twice. Missing because the code violates it: the result can be negative between the abscissae although the density is not (C142_negative_wrong). How close the result is to a smooth density between the abscissae is not bounded.")
claim("C143","proved","C143_pit C143_too_few C143_distance C143_errors C143_order C143_ranks C143_mirror C143_pit_order","The statistic of scipy's k-sample Anderson-Darling test (midrank version), modelled from its source, in exact arithmetic; not the critical values and the p-value. Two samples with three values together, where scipy divides by zero, are not modelled (the PIT compares samples of the same size, so that never happens there).")
claim("C144","proved","C144_accepts C144_dimensions C144_shapes C144_large C144_first C144_order C144_order_first C144_repeated C144_signed","For every dictionary over the grid and every integer code, negative ones included. Arrays of codes with three or more axes and the keyword yvals are outside the model; sums are exact.")
claim("C145","partial","C145_mix_partial C145_mix_matching C145_one_weight C145_one_weight_integral C145_one_mean C145_packed C145_spline","Exactly which tables are accepted and what the PDFs made from them are, for tables of any sizes. Violated for mixtures and splines: nothing is compared when a mixture is built (the evaluation fails, or a single weight is used for all components and the density integrates to their number), and the orders of splines are not compared with the knots.")
claim("C146","partial","C146_moment C146_moment_error C146_moment_uniform C146_moment_limits C146_rmse C146_kld C146_kld_negative C146_brier_partial C146_brier_diverges C146_cde C146_mode","Limits as the grid step goes to zero, for bounded densities continuous almost everywhere: moments, RMSE, CDE loss, modes, and divergences with positive limits. Error bound on every grid for Lipschitz integrands; the zeroth moment of a uniform density is never one. False for the Brier score (diverges; only the rescaled score converges, and its limit ignores the truth) and for ensembles in which one divergence over the limits is negative (machine epsilon for all PDFs).")
claim("C147","proved","C147_hist_cdf C147_hist_pdf C147_hist_ppf C147_interp C147_interp_cdf","Limits of conversions on evenly spaced grids, for ensembles of any class known through the answers of cdf (pdf) at increasing points. Histograms with equal bins only: with unequal bins the conversion is wrong (C57). Mass outside the grid is lost by the normalisation, and the limits are those of the mass between the ends.")
claim("C148","proved","C148_hist C148_rmse C148_interp_larger","Conversions to histograms with the same equal bins that hold all the probability. The like is false for conversions to interpolated PDFs on a common grid (C148_interp_larger), and conversions to unequal bins are wrong altogether (C57).")
claim("C149","proved","C149_ppf C149_smooth C149_near_lines C149_enough","Evenly spaced probabilities from 0 to 1, at which the original quantiles must be finite. The density is that of the default reconstruction, away from the two ends (outside the outermost midpoints it is 0).")
claim("C150","proved","C150_moment C150_rmse C150_cde C150_brier C150_pit C150_hist_conversion C150_interp_conversion C150_hist_fine","Two ensembles whose densities (moment, RMSE, CDE loss, Brier) or distribution functions (PIT) differ by at most a given amount; the last three theorems apply this to an ensemble and its conversion.")
claim("C151","proved","C151_chain C151_pit","Equal bins with the same first and last edge in every step, all mass of the original inside.")
claim("C152","proved","C152_limits C152_stored C152_hist_rounded C152_instance","Independent true values; the limits are almost sure.")
claim("C153","partial","C153_kept C153_typed C153_single_partial C153_coincide","Exactly what is stored for every element type. The code converts the locations to the element type of the probabilities when it completes these, so they are not kept (witness); with single-precision probabilities the error is bounded.")
claim("C154","proved","C154_references C154_hist C154_fine C154_instance","References with close distribution functions, for every number of samples; conversion to histograms with equal bins holding all mass, for distribution functions without jumps, in the limit of many samples, almost surely.")
claim("C155","partial","C155_point_partial C155_pit C155_evaluation C155_cde C155_brier","Refused always by the Brier score; by the point metrics, the PIT and the CDE loss only when neither number is one. Otherwise the single entry is silently repeated, and the accumulated CDE loss of one PDF with k true values has its second term k times too large.")
claim("C156","partial","C156_cde_partial C156_cde_wrong C156_brier C156_pit_partial C156_pit_wrong","Exactly which shapes are refused, for true values given as one list. Violated for shape (n, 1): the PIT has n*n samples, and the CDE loss is wrong when all true values are next to the first grid point.")
claim("C157","partial","C157_accepts_iff_partial C157_accepted C157_isf_unchecked C157_scaled_density C157_class_iff C157_conversion_iff C157_conversion_blind C157_histogram_test_blind C157_conversion_one_for_all","Exactly what the generic tests accept, for any class. Violated: isf is never compared with anything; densities that are wrong by up to a fifth are accepted; the tolerance for conversions is divided by the distance of the points, so that on fine grids (among them the one used for histograms) every conversion is accepted; the number of PDFs after a conversion is not compared. The tests of files and plots are not modelled.")
claim("C158","partial","C158_seed C158_seed_any C158_object C158_parts C158_parts_global C158_parts_seed C158_parts_example C158_prefix C158_consecutive C158_more_samples C158_gof C158_gof_value C158_gof_unknown C158_gof_parts C158_gof_parts_seed C158_gof_example C158_hist_ignores C158_spline_ignores C158_hist_not_repeated C158_global_seed C158_mixture_partial C158_mixture_start","rvs and the goodness of fit are repeated exactly by an integer seed, in every state of the generators. Violated: the conversions to histograms and splines by samples ignore random_state, and the conversion to mixtures uses it for the samples but not for the start of the fit. Generators are arbitrary sequences; the meaning of random_state and the order in which an array is filled are from scipy and numpy. Classes with their own _rvs are not followed.")
claim("C159","partial","C159_input_types C159_called_as_declared C159_output_partial C159_one_sample","For all sixteen metric classes, all settings, ensembles with one index and as many references as estimates, or one. Violated by the goodness of fit with one sample per PDF, which gives a single number. Arguments of the wrong kind (an array instead of an ensemble) are not followed.")
