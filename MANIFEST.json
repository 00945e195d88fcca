{
 "claims": [
  {
   "property": "C01",
   "status": "partial",
   "theorems": [
    "Verif.Props.Evaluation.C01_shared_grid_exact",
    "Verif.Props.Evaluation.C01_shared_grid_partial",
    "Verif.Props.Evaluation.C01_unsorted_points_wrong",
    "Verif.Props.Paths.C01_interp_ensemble_partial"
   ],
   "note": "Exact characterisation for every list of points; the code violates the property for unsorted distinct points with >= 2 PDFs (C01_unsorted_points_wrong)."
  },
  {
   "property": "C02",
   "status": "proved",
   "theorems": [
    "Verif.Props.Evaluation.C02_one_point_per_pdf"
   ],
   "note": ""
  },
  {
   "property": "C03",
   "status": "proved",
   "theorems": [
    "Verif.Props.Evaluation.C03_sampling_uses_own_pdf"
   ],
   "note": ""
  },
  {
   "property": "C04",
   "status": "partial",
   "theorems": [
    "Verif.Props.Evaluation.C04_flat_path_partial",
    "Verif.Props.Evaluation.C04_exact",
    "Verif.Props.Evaluation.C04_iff",
    "Verif.Props.Evaluation.C04_depends_on_other_points",
    "Verif.Props.Paths.C04_interp_routines_agree",
    "Verif.Props.Paths.C04_paths_same_function",
    "Verif.Props.Evaluation.C04_two_dim",
    "Verif.Props.Plot.C04_increasing"
   ],
   "note": "C04_exact gives the values returned for every matrix of points, C04_iff exactly when they are right; C04_two_dim gives the two-dimensional calls made when sampling; the two scipy interpolation routines agree. Violated when there are as many different points in all as points per PDF and the rows are not one increasing list (C04_depends_on_other_points)."
  },
  {
   "property": "C05",
   "status": "partial",
   "theorems": [
    "Verif.Props.Bins.C05_uniform_iff",
    "Verif.Props.Bins.C05_nonuniform_iff",
    "Verif.Props.Bins.C05_uniform_left_closed",
    "Verif.Props.Bins.C05_nonuniform_right_closed",
    "Verif.Props.Bins.C05_bin_lookup_partial",
    "Verif.Props.Bins.C05_index_valid",
    "Verif.Props.Bins.C05_tiny_bins_wrong",
    "Verif.Props.Bins.C05_near_uniform_wrong",
    "Verif.Props.Bins.C05_within_tolerance",
    "Verif.Props.Bins.C05_away_from_edges"
   ],
   "note": "Holds for exactly uniform or detectably non-uniform edges; the absolute tolerance of np.allclose makes the code wrong for tiny or nearly uniform bins (witnesses). For any increasing edges C05_within_tolerance and C05_away_from_edges bound how wrong: only points within the sum of the tolerances of an edge can be put into another bin."
  },
  {
   "property": "C06",
   "status": "partial",
   "theorems": [
    "Verif.Props.Hist.C06_hist_pdf_partial",
    "Verif.Props.Hist.C06_tiny_bins_wrong",
    "Verif.Props.Hist.C06_away_from_edges"
   ],
   "note": "As C05."
  },
  {
   "property": "C07",
   "status": "proved",
   "theorems": [
    "Verif.Props.Hist.C07_row_normalised",
    "Verif.Props.Hist.C07_scale_invariant",
    "Verif.Props.Hist.C07_reconstruct",
    "Verif.Props.Hist.C07_shape_check"
   ],
   "note": ""
  },
  {
   "property": "C08",
   "status": "proved",
   "theorems": [
    "Verif.Props.Hist.C08_cdf_is_mass",
    "Verif.Props.Hist.C08_cdf_shape",
    "Verif.Props.Hist.C08_cdf_slope",
    "Verif.Props.Integrals.C08_integral_partial",
    "Verif.Props.Integrals.C08_integral_any_edges",
    "Verif.Props.RealIntegral.C08_lebesgue"
   ],
   "note": "C08_integral_partial adds the Lebesgue integral of the evaluated PDF over the reals; it needs bins that the lookup recognises (C05), the other theorems do not. C08_integral_any_edges has no condition on the bins and bounds the difference by the tolerance of the lookup."
  },
  {
   "property": "C09",
   "status": "proved",
   "theorems": [
    "Verif.Props.Hist.C09_ppf_range",
    "Verif.Props.Hist.C09_cdf_ppf",
    "Verif.Props.Hist.C09_ppf_mono",
    "Verif.Props.Hist.C09_ppf_cdf"
   ],
   "note": ""
  },
  {
   "property": "C10",
   "status": "partial",
   "theorems": [
    "Verif.Props.Hist.C10_ppf_ends_infinite",
    "Verif.Props.Hist.C10_inner_ppf_ends_partial"
   ],
   "note": "The property is false: the scipy front end answers -inf/+inf (C10_ppf_ends_infinite); the inner _ppf would have given the edges."
  },
  {
   "property": "C100",
   "status": "partial",
   "theorems": [
    "Verif.Props.QuantMass.C100_linear_partial",
    "Verif.Props.QuantMass.C100_linear_even",
    "Verif.Props.QuantMass.C100_linear_unbounded",
    "Verif.Props.QuantMass.C100_constant",
    "Verif.Props.QuantMass.C100_constant_even"
   ],
   "note": "The exact total probability of the piecewise linear (default) and piecewise constant reconstructions for all quantiles. Violated by the code: with locations at equal distances the linear one is always below one, by half of the first and the last interval; otherwise it can exceed every bound. The spline reconstructions are the subject of C102."
  },
  {
   "property": "C101",
   "status": "partial",
   "theorems": [
    "Verif.Props.Logs.C101_pointwise",
    "Verif.Props.Logs.C101_value_partial",
    "Verif.Props.Logs.C101_exp",
    "Verif.Props.Logs.C101_tails",
    "Verif.Props.Logs.C101_hist",
    "Verif.Props.Logs.C101_nan"
   ],
   "note": "For every class (arbitrary evaluation function) and every array of finite points the three functions are the logarithms of pdf, cdf and sf entry by entry and fail exactly when these do; exact conditions for -inf and nan; exp gives the values back; the tails add up to one; monotone for histograms. Missing because the code violates it: a negative density of a spline reconstruction has logarithm nan (C101_nan)."
  },
  {
   "property": "C102",
   "status": "partial",
   "theorems": [
    "Verif.Props.QuantSpline.C102_between",
    "Verif.Props.QuantSpline.C102_total_partial",
    "Verif.Props.QuantSpline.C102_sign",
    "Verif.Props.QuantSpline.C102_negative",
    "Verif.Props.QuantSpline.C102_dual_uniform",
    "Verif.Props.CubicSpline.C102_cubic_between",
    "Verif.Props.CubicSpline.C102_cubic_total_partial",
    "Verif.Props.CubicSpline.C102_cubic_dual_uniform"
   ],
   "note": "Derivative of the spline through the quantiles: probability between any two locations, total probability one and agreement with the CDF at the locations, for every continuously differentiable interpolant, and for the cubic spline itself (C102_cubic_between, C102_cubic_total_partial, C102_cubic_dual_uniform); the exact condition for a density that is never negative. Missing because the code violates it: the density can be negative (C102_negative), and the average of two splines loses probability already for a uniform distribution (C102_dual_uniform)."
  },
  {
   "property": "C103",
   "status": "partial",
   "theorems": [
    "Verif.Props.Analytic.C103_values",
    "Verif.Props.Analytic.C103_inside_partial",
    "Verif.Props.Analytic.C103_whole_line",
    "Verif.Props.Analytic.C103_pdf_iff",
    "Verif.Props.Analytic.C103_cdf_iff",
    "Verif.Props.Analytic.C103_ppf_ends",
    "Verif.Props.Analytic.C103_uniform_wrong",
    "Verif.Props.Analytic.C103_expon_wrong",
    "Verif.Props.Analytic.C103_loaded"
   ],
   "note": "Values of every distribution object entry by entry; the wrapped class agrees with scipy inside the support, everywhere for distributions on the whole line or with their own support method, and the exact condition otherwise. Missing because the code violates it: the ends of the support given to scipy's constructor are dropped, so the uniform distribution of qp has density 1/scale on the whole line and the exponential one grows without bound before its start. The front ends and the formulas of uniform and expon are taken from scipy's source."
  },
  {
   "property": "C104",
   "status": "proved",
   "theorems": [
    "Verif.Props.EndToEnd.C104_hist",
    "Verif.Props.EndToEnd.C104_interp",
    "Verif.Props.EndToEnd.C104_irregular",
    "Verif.Props.EndToEnd.C104_mixture",
    "Verif.Props.EndToEnd.C104_quantiles",
    "Verif.Props.EndToEndSparse.C104_sparse",
    "Verif.Props.EndToEndReal.C104_packed",
    "Verif.Props.EndToEndReal.C104_spline"
   ],
   "note": "From the arguments of the constructor to the values of the ensemble for all eight classes with one table row per PDF, for data of non-vanishing mass. Nearly equal bins are the subject of C05, points in another order of C01, splines outside their knots of C81."
  },
  {
   "property": "C105",
   "status": "partial",
   "theorems": [
    "Verif.Props.ShapeStats.C105_stats_partial",
    "Verif.Props.ShapeStats.C105_negative_variance",
    "Verif.Props.ShapeStats.C105_histogram"
   ],
   "note": "The numbers are those of the moments the class reports, whichever letters are asked for; for histograms on equal bins they are related exactly to the density. Missing because the code differs: variance, skewness and kurtosis are those of points at bin centres, and a negative variance (C89) gives nan."
  },
  {
   "property": "C106",
   "status": "proved",
   "theorems": [
    "Verif.Props.Entropy.C106_histogram",
    "Verif.Props.Entropy.C106_interp",
    "Verif.Props.Entropy.C106_mixture",
    "Verif.Props.Entropy.C106_normal",
    "Verif.Props.Entropy.C106_support",
    "Verif.Props.Entropy.C106_variance",
    "Verif.Props.Entropy.C106_units"
   ],
   "note": "quad is taken to be exact; densities that are negative somewhere have no entropy."
  },
  {
   "property": "C107",
   "status": "partial",
   "theorems": [
    "Verif.Props.Cholesky.C107_least_squares_partial",
    "Verif.Props.Cholesky.C107_stops_early"
   ],
   "note": "Coefficients are least squares for the chosen functions, functions are distinct, and every way the search can end is listed. Missing because the code differs: it can stop although the dictionary fits the PDF exactly, and with a nearly dependent second function it returns two positions and one coefficient."
  },
  {
   "property": "C108",
   "status": "partial",
   "theorems": [
    "Verif.Props.PackedCurves.C108_distribution",
    "Verif.Props.PackedCurves.C108_mean_variance_partial"
   ],
   "note": "Density, CDF and PPF of a packed PDF for both kinds of packing. The CDF at the first grid point and small probabilities are off as for interpolated PDFs (the statement gives the exact value); the variance is w^2/6 too small."
  },
  {
   "property": "C109",
   "status": "partial",
   "theorems": [
    "Verif.Props.Plot.C109_curve_partial",
    "Verif.Props.Plot.C109_limits",
    "Verif.Props.Plot.C109_long_range",
    "Verif.Props.Plot.C109_several",
    "Verif.Props.Plot.C109_transposed",
    "Verif.Props.Plot.C109_label",
    "Verif.Props.Plot.C109_interp_native",
    "Verif.Props.Plot.C109_hist_native",
    "Verif.Props.Plot.C109_quant_native",
    "Verif.Props.Plot.C109_quant_properties",
    "Verif.Props.Plot.C109_native_npts",
    "Verif.Props.Plot.C109_irr_native",
    "Verif.Props.Plot.C109_irr_several_wrong",
    "Verif.Props.Plot.C109_spline_native",
    "Verif.Props.PlotPacked.C109_packed_native",
    "Verif.Props.PlotPacked.C109_packed_made",
    "Verif.Props.PlotPacked.C109_grid_native"
   ],
   "note": "One PDF: proved for all row classes. The code refuses several PDFs (or draws a jumble when there are as many points as PDFs) and raises when axis labels are given."
  },
  {
   "property": "C11",
   "status": "partial",
   "theorems": [
    "Verif.Props.Hist.C11_moments_partial",
    "Verif.Props.Hist.C11_nonuniform_wrong",
    "Verif.Props.Variance.C11_moment2_exact",
    "Verif.Props.Variance.C11_moment1_nonuniform_wrong"
   ],
   "note": "Orders 0 and 1 hold for uniform bins and are wrong for non-uniform bins; order 2 is exactly w^2/12 too small on uniform bins."
  },
  {
   "property": "C110",
   "status": "proved",
   "theorems": [
    "Verif.Props.ConvertInterpError.C110_interp_error",
    "Verif.Props.ConvertInterpError.C110_fine_grids"
   ],
   "note": "Explicit error bound for the density everywhere and for the CDF at the grid points after the first (at and below the first point the CDF has the error stated in C13)."
  },
  {
   "property": "C111",
   "status": "partial",
   "theorems": [
    "Verif.Props.Metrics.C111_brier_partial",
    "Verif.Props.Metrics.C111_brier_true_density",
    "Verif.Props.Metrics.C111_brier_improper",
    "Verif.Props.Metrics.C111_cde"
   ],
   "note": "CDE loss: proved. Brier: the code compares densities with fractions, so the best prediction has the fractions as densities and the true density is best exactly when the grid spacing is one."
  },
  {
   "property": "C112",
   "status": "partial",
   "theorems": [
    "Verif.Props.Metrics.C112_uniform",
    "Verif.Props.Metrics.C112_approx",
    "Verif.Props.Metrics.C112_hist",
    "Verif.Props.Metrics.C112_mix",
    "Verif.Props.Metrics.C112_interp_partial",
    "Verif.Props.Metrics.C112_interp_not_uniform"
   ],
   "note": "Exact for every class whose distribution function is the integral of its density (histograms, Gaussian mixtures); interpolated PDFs violate it between grid points (C13), with the bound given in C112_interp_partial."
  },
  {
   "property": "C113",
   "status": "proved",
   "theorems": [
    "Verif.Props.ConvertError.C113_expectations"
   ],
   "note": "Equal bins, as in C57 and C85 (with unequal bins the code takes masses for densities, C57_unequal_bins_wrong)."
  },
  {
   "property": "C114",
   "status": "partial",
   "theorems": [
    "Verif.Props.ConvertSelect.C114_convert_select_partial",
    "Verif.Props.ConvertSelect.C114_unsorted_differs",
    "Verif.Props.ConvertSelect.C114_sparse_differs"
   ],
   "note": "Proved for all row classes, keys and increasing grids, with target classes histogram, interpolated, irregular, quantile and packed. False for grids that are not increasing and for the sparse class, whose grid depends on the other PDFs."
  },
  {
   "property": "C115",
   "status": "partial",
   "theorems": [
    "Verif.Props.ConvertParts.C115_convert_parts_partial"
   ],
   "note": "Proved for non-empty compatible parts with one index, increasing grids and the five target classes of C114. The sparse class violates it like C114."
  },
  {
   "property": "C116",
   "status": "partial",
   "theorems": [
    "Verif.Props.Units.C116_hist_partial",
    "Verif.Props.Units.C116_interp",
    "Verif.Props.Units.C116_irregular",
    "Verif.Props.Units.C116_mixture",
    "Verif.Props.Units.normal_unit",
    "Verif.Props.Units.C116_hist_quantiles",
    "Verif.Props.Units.C116_interp_quantiles",
    "Verif.Props.Units.C116_irregular_quantiles",
    "Verif.Props.Units.C116_quantiles",
    "Verif.Props.QuadSpline.C116_quantiles_spline",
    "Verif.Props.Units.C116_mixture_quantiles",
    "Verif.Props.SplineConvert.C116_spline",
    "Verif.Props.Units.C116_small_units_wrong",
    "Verif.Props.Units.C116_interp_mean_wrong"
   ],
   "note": "Proved for all classes given by grids, quantiles or components. Violated by histograms with unequal bins in units in which the bins are below the tolerance of allclose, and by the mean of interpolated PDFs under shifts."
  },
  {
   "property": "C117",
   "status": "partial",
   "theorems": [
    "Verif.Props.UnitsMetrics.C117_grid",
    "Verif.Props.UnitsMetrics.C117_rmse",
    "Verif.Props.UnitsMetrics.C117_kld_partial",
    "Verif.Props.UnitsMetrics.C117_cde",
    "Verif.Props.UnitsMetrics.C117_gof",
    "Verif.Props.UnitsMetrics.C117_pit",
    "Verif.Props.UnitsMetrics.C117_brier_wrong",
    "Verif.Props.UnitsMetrics.C117_kld_wrong"
   ],
   "note": "Grid, RMSE, CDE loss, goodness of fit, PIT and outlier rate: proved. KL divergence: proved for densities that are not clipped, false otherwise. The Brier score depends on the units."
  },
  {
   "property": "C118",
   "status": "partial",
   "theorems": [
    "Verif.Props.Stream.C118_stream_partial"
   ],
   "note": "Proved for the row classes as sources and hist, interp, interp_irregular, quant and packed_interp as targets, on increasing grids, for every schedule of the writes. Missing: the sparse target and unsorted grids (violated, C114), and ancillary data, which a conversion does not carry over."
  },
  {
   "property": "C119",
   "status": "partial",
   "theorems": [
    "Verif.Props.StreamMetrics.C119_eval_partial",
    "Verif.Props.StreamMetrics.C119_cde",
    "Verif.Props.StreamMetrics.C119_brier_partial",
    "Verif.Props.StreamMetrics.C119_pit",
    "Verif.Props.StreamMetrics.C119_rmse",
    "Verif.Props.StreamMetrics.C119_kld_partial"
   ],
   "note": "CDE loss, PIT values and RMSE: proved for every chunk size, number of processes and order. Evaluation: at increasing points (otherwise violated, C01). Brier score: chunks of two or more PDFs (a chunk of one PDF raises, C63). KL divergence: the values of the rows unless all values of the whole files were replaced by the machine epsilon because one of them is negative (C68)."
  },
  {
   "property": "C12",
   "status": "proved",
   "theorems": [
    "Verif.Props.InterpPdf.C12_interp_normalises",
    "Verif.Props.InterpPdf.C12_scale_invariant",
    "Verif.Props.Integrals.C12_integral",
    "Verif.Props.RealIntegral.C12_lebesgue"
   ],
   "note": "C12_integral: the Lebesgue integral over the real line is one."
  },
  {
   "property": "C120",
   "status": "partial",
   "theorems": [
    "Verif.Props.Rounding.C120_formats",
    "Verif.Props.Rounding.C120_double",
    "Verif.Props.Rounding.C120_relative_error",
    "Verif.Props.Rounding.C120_hist_stored",
    "Verif.Props.Rounding.C120_hist_cumul",
    "Verif.Props.Rounding.C120_hist_cdf",
    "Verif.Props.Rounding.C120_hist_monotone_partial",
    "Verif.Props.Rounding.C120_cdf_decreases",
    "Verif.Props.Rounding.C120_hist_double",
    "Verif.Props.Rounding.C120_exact"
   ],
   "note": "Error bounds, and monotonicity between neighbouring edges: proved for every rounding and every order of summation. In doubles the CDF can exceed 1 and decrease by a rounding error. Overflow and underflow are not modelled."
  },
  {
   "property": "C121",
   "status": "partial",
   "theorems": [
    "Verif.Props.RoundingInterp.C121_interp_stored",
    "Verif.Props.RoundingInterp.C121_interp_cdf",
    "Verif.Props.RoundingInterp.C121_interp_pdf",
    "Verif.Props.RoundingInterp.C121_pdf_negative",
    "Verif.Props.RoundingInterp.C121_irregular_partial",
    "Verif.Props.RoundingIrregular.C121_irregular_stored",
    "Verif.Props.RoundingIrregular.C121_irregular_cdf",
    "Verif.Props.RoundingIrregular.C121_irregular_pdf",
    "Verif.Props.RoundingIrregular.C121_irregular_double",
    "Verif.Props.RoundingIrregular.C121_irregular_cdf_decreases",
    "Verif.Props.RoundingInterp.C121_irregular_cancels"
   ],
   "note": "Error bounds for stored ordinates, PDF and CDF proved for regular and irregular grids; on irregular grids the bound grows with the distance of a cell from zero in units of its width, and without a bound on that distance the normalisation can divide by zero through cancellation. The PDF can be negative, and the CDF on irregular grids above 1, by a rounding error."
  },
  {
   "property": "C122",
   "status": "partial",
   "theorems": [
    "Verif.Props.RoundingEval.C122_weights",
    "Verif.Props.RoundingEval.C122_value",
    "Verif.Props.RoundingEval.C122_cdf_bound_partial",
    "Verif.Props.RoundingEval.C122_cdf_above_one"
   ],
   "note": "Error bounds proved for every order of summation, relative to the component values that scipy returns. The CDF can exceed 1 by a rounding error."
  },
  {
   "property": "C123",
   "status": "partial",
   "theorems": [
    "Verif.Props.RoundingEval.C123_index_partial",
    "Verif.Props.RoundingEval.C123_pdf_partial",
    "Verif.Props.RoundingEval.C123_search",
    "Verif.Props.RoundingEval.C123_edge_wrong"
   ],
   "note": "Proved away from the edges for evenly spaced bins and everywhere for unevenly spaced ones. At the edges themselves, and within a few units in the last place, the neighbouring bin can be found."
  },
  {
   "property": "C124",
   "status": "partial",
   "theorems": [
    "Verif.Props.DTypes.C124_file_partial",
    "Verif.Props.DTypes.C124_exact_iff",
    "Verif.Props.DTypes.C124_slices",
    "Verif.Props.DTypes.C124_again",
    "Verif.Props.DTypes.C124_float",
    "Verif.Props.DTypes.C124_int_iff",
    "Verif.Props.DTypes.C124_bytes_iff",
    "Verif.Props.DTypes.C124_wider",
    "Verif.Props.DTypes.C124_names_cut",
    "Verif.Props.DTypes.C124_fractions_lost"
   ],
   "note": "A file written in chunks holds every element converted to the type of the ensemble that allocated it, for every schedule; it holds the ensemble itself exactly when all elements are of these types. Violated otherwise: longer names of later chunks are cut off, fractions are lost when the first chunk holds integers."
  },
  {
   "property": "C125",
   "status": "partial",
   "theorems": [
    "Verif.Props.SinglePrecision.C125_cast",
    "Verif.Props.SinglePrecision.C125_columns",
    "Verif.Props.SinglePrecision.C125_hist",
    "Verif.Props.SinglePrecision.C125_interp",
    "Verif.Props.SinglePrecision.C125_mix",
    "Verif.Props.SinglePrecision.C125_packed",
    "Verif.Props.SinglePrecision.C125_packed_log",
    "Verif.Props.SinglePrecision.C125_locations_partial",
    "Verif.Props.SinglePrecision.C125_locations_coincide"
   ],
   "note": "Error bounds for histograms, interpolated PDFs and mixture weights in single-precision data sets, packed PDFs exactly unchanged. Quantile locations and per-PDF grids stay ordered, but values closer than the spacing of single precision coincide and the row becomes non-finite."
  },
  {
   "property": "C126",
   "status": "partial",
   "theorems": [
    "Verif.Props.Sharing.C126_frame",
    "Verif.Props.Sharing.C126_write",
    "Verif.Props.Sharing.C126_values_private",
    "Verif.Props.Sharing.C126_values_isolated_partial",
    "Verif.Props.Sharing.C126_slice_shares",
    "Verif.Props.Sharing.C126_list_copies",
    "Verif.Props.Sharing.C126_int_shares",
    "Verif.Props.Sharing.C126_selection_holds",
    "Verif.Props.Sharing.C126_append_holds",
    "Verif.Props.Sharing.C126_ancil_accepts",
    "Verif.Props.Sharing.C126_slice_writes_parent",
    "Verif.Props.Sharing.C126_add_to_ancil",
    "Verif.Props.Sharing.C126_set_ancil_keeps"
   ],
   "note": "Proved for every program of array, dictionary and ensemble operations: only writing in place reaches other objects, and only through shared memory; normalised values are private to each ensemble. Isolation is violated for grids, quantile locations and the other arrays of a class, and for ancillary data: slices are views and dictionaries are kept."
  },
  {
   "property": "C127",
   "status": "partial",
   "theorems": [
    "Verif.Props.Accept.C127_unknown_keyword",
    "Verif.Props.Accept.C127_missing_argument",
    "Verif.Props.Accept.C127_hist_partial",
    "Verif.Props.Accept.C127_interp_partial",
    "Verif.Props.Accept.C127_irregular_partial",
    "Verif.Props.Accept.C127_mixture_partial",
    "Verif.Props.Accept.C127_quantiles_partial",
    "Verif.Props.Accept.C127_packed_partial",
    "Verif.Props.Accept.C127_spline_partial",
    "Verif.Props.Accept.C127_accepts_invalid"
   ],
   "note": "Exactly which arguments histograms, interpolated PDFs, mixtures, quantiles, packed PDFs and splines accept, with the exception otherwise; unknown and missing keywords for all classes that store tables. Sparse codes outside the dictionary are treated in C144. Tables of different sizes are treated in C145. Which of several exceptions comes first is not followed. Violated: values that are not distributions (negative, unordered, all zero) are accepted."
  },
  {
   "property": "C128",
   "status": "partial",
   "theorems": [
    "Verif.Props.Lazy.C128_hist_partial",
    "Verif.Props.Lazy.C128_irregular_partial",
    "Verif.Props.Lazy.C128_interp_partial",
    "Verif.Props.Lazy.C128_pdf_follows",
    "Verif.Props.Lazy.C128_table_fixed",
    "Verif.Props.Lazy.C128_hist_stale",
    "Verif.Props.Lazy.C128_hist_edges",
    "Verif.Props.Lazy.C128_interp_stale",
    "Verif.Props.Lazy.C128_packed_stale"
   ],
   "note": "Histograms, irregular grids and common grids: the order and number of evaluations never matters. Violated after writing into the object data in place: densities follow, CDFs and PPFs keep the table made at the first evaluation (or by the constructor), packed PDFs do not follow at all."
  },
  {
   "property": "C129",
   "status": "proved",
   "theorems": [
    "Verif.Props.Order.C129_point",
    "Verif.Props.Order.C129_gof",
    "Verif.Props.Order.C129_pit",
    "Verif.Props.Order.C129_pit_outlier",
    "Verif.Props.Order.C129_brier",
    "Verif.Props.Order.C129_cde",
    "Verif.Props.Order.C129_values"
   ],
   "note": "For all lists of objects and all orders, exceptions included, in exact arithmetic (sums of floating-point numbers can differ by rounding). The numerical integration inside the Anderson-Darling p-value and the minimiser of the best point estimate are outside the model."
  },
  {
   "property": "C13",
   "status": "partial",
   "theorems": [
    "Verif.Props.InterpPdf.C13_cdf_shape",
    "Verif.Props.InterpPdf.C13_cdf_at_grid",
    "Verif.Props.InterpPdf.C13_first_point_wrong",
    "Verif.Props.Integrals.C13_integral_partial",
    "Verif.Props.RealIntegral.C13_lebesgue"
   ],
   "note": "Shape and all grid points but the first; at the first grid point the CDF is the first density, not 0. C13_lebesgue gives the exact error between grid points."
  },
  {
   "property": "C130",
   "status": "partial",
   "theorems": [
    "Verif.Props.Refine.C130_hist",
    "Verif.Props.Refine.C130_hist_padding",
    "Verif.Props.Refine.C130_hist_padding_example",
    "Verif.Props.Refine.C130_hist_moment_changes",
    "Verif.Props.Refine.C130_interp_partial",
    "Verif.Props.Refine.C130_interp_padding",
    "Verif.Props.Refine.C130_interp_padding_example",
    "Verif.Props.Refine.C130_irregular_padding",
    "Verif.Props.Refine.C130_irregular_padding_example",
    "Verif.Props.Refine.C130_packed_padding",
    "Verif.Props.Refine.C130_packed_padding_example",
    "Verif.Props.Refine.C130_pack_padding",
    "Verif.Props.Refine.C130_log_pack_padding",
    "Verif.Props.Refine.C130_log_pack_padding_example",
    "Verif.Props.Refine.C130_log_pack_small_changes",
    "Verif.Props.Refine.C130_interp_moment_padding",
    "Verif.Props.Refine.C130_interp_moment_changes",
    "Verif.Props.Refine.C130_hist_moment_padding",
    "Verif.Props.Refine.C130_hist_moment_padding_example",
    "Verif.Props.Refine.C130_interp_cdf_changes",
    "Verif.Props.Refine.C130_interp_cdf_bound",
    "Verif.Props.Refine.C130_interp_cdf_cell",
    "Verif.Props.Refine.C130_irregular_changes",
    "Verif.Props.Refine.C130_mixture",
    "Verif.Props.Refine.C130_zero_weight",
    "Verif.Props.Refine.C130_zero_weight_ppf_changes"
   ],
   "note": "Histograms: density, CDF and PPF proved for any number of divided bins and of empty bins added at the ends. Mixtures: density, CDF and PPF proved for reordered and divided components, density and CDF for components of weight zero. Interpolated PDFs: density, and CDF at the old grid points but the first (elsewhere it moves by at most the largest probability of a cell); density, CDF and PPF for zeros added beyond ends that are zero, also with a grid per PDF and for packed PDFs (codes of both packings; conversion with linear packing, and with logarithmic packing unless all values are very small); moments, also of histograms, then if the first cell keeps its width. Violated by the code: reported moments of histograms and, when the width of the first cell changes, of interpolated PDFs, CDF between grid points, everything for points added between grid points with a grid per PDF, and the PPF when a component of weight zero is added."
  },
  {
   "property": "C131",
   "status": "partial",
   "theorems": [
    "Verif.Props.Mirror.C131_hist",
    "Verif.Props.Mirror.C131_hist_mean_not_mirrored",
    "Verif.Props.Mirror.C131_interp_partial",
    "Verif.Props.Mirror.C131_interp_inner",
    "Verif.Props.Mirror.C131_interp_ends_not_mirrored",
    "Verif.Props.Mirror.C131_irregular_not_mirrored",
    "Verif.Props.Mirror.C131_mixture",
    "Verif.Props.QuadSpline.C131_quantiles",
    "Verif.Props.SplineConvert.C131_spline",
    "Verif.Props.Mirror.C131_gof"
   ],
   "note": "Histograms (density, CDF, quantiles, mean with bins of one width), mixtures (density, CDF, quantiles), quantile PDFs (CDF and quantiles) and the three goodness-of-fit statistics are proved. Interpolated PDFs: density everywhere, CDF between the second grid point and the last but one. Violated: CDF of interpolated PDFs at the ends of the grid, normalisation of PDFs with a grid each, means of histograms with bins of different widths."
  },
  {
   "property": "C132",
   "status": "proved",
   "theorems": [
    "Verif.Props.Robust.C132_median",
    "Verif.Props.Robust.C132_iqr",
    "Verif.Props.Robust.C132_outlier_rate",
    "Verif.Props.Robust.C132_sharp"
   ],
   "note": "For all objects and all values of the outliers. The limits (half, a quarter of all objects but one) cannot be raised: C132_sharp. The variants on a t-digest are in C92."
  },
  {
   "property": "C133",
   "status": "partial",
   "theorems": [
    "Verif.Props.Stability.C133_hist",
    "Verif.Props.Stability.C133_interp",
    "Verif.Props.Stability.C133_mixture_weights",
    "Verif.Props.Stability.C133_mixture_means",
    "Verif.Props.Stability.C133_point_metrics_partial",
    "Verif.Props.Stability.C133_ks",
    "Verif.Props.Stability.C133_ks_samples",
    "Verif.Props.Stability.C133_cvm",
    "Verif.Props.Stability.C133_outlier_rate_jumps",
    "Verif.Props.OrderMore.C133_packed_rowmax",
    "Verif.Props.OrderMore.C133_packed_log",
    "Verif.Props.OrderMore.C133_packed_linear",
    "Verif.Props.OrderMore.C133_quant_partial",
    "Verif.Props.QuadSpline.C133_quant_any",
    "Verif.Props.QuantStable.C133_quant_cdf",
    "Verif.Props.QuantStable.C133_quant_cdf_unpadded",
    "Verif.Props.QuantStable.C133_quant_pdf_partial",
    "Verif.Props.QuantStable.C133_quant_pdf_jumps",
    "Verif.Props.QuantStable.C133_quant_spline_pdf_partial",
    "Verif.Props.QuantStable.C133_quant_spline_pdf_jumps",
    "Verif.Props.QuantStable.C133_quant_dual_partial",
    "Verif.Props.QuantStable.C133_quant_dual_jumps",
    "Verif.Props.QuantStable.C133_quant_constant_partial",
    "Verif.Props.QuantStable.C133_quant_constant_jumps",
    "Verif.Props.EdgesStable.C133_hist_edges"
   ],
   "note": "Proved with explicit constants for histograms, interpolated PDFs, mixtures, packed PDFs (largest value and codes), the quantile function of any number of quantiles, bias, sigma-IQR, sigma-MAD, KS and CvM. False for the outlier rate: it jumps for an arbitrarily small change (C133_outlier_rate_jumps). The CDF of quantile PDFs depends continuously on the locations, uniformly in the argument (no explicit constant); the densities of all four reconstructions do, except at the points where they begin or end (and, piecewise constant, at the midpoints), where they jump (witnesses). Also proved, with a constant: the bin edges of a histogram."
  },
  {
   "property": "C134",
   "status": "partial",
   "theorems": [
    "Verif.Props.Dominance.C134_hist_quantile",
    "Verif.Props.Dominance.C134_hist",
    "Verif.Props.Dominance.C134_hist_mean",
    "Verif.Props.Dominance.C134_interp_partial",
    "Verif.Props.Dominance.C134_interp_mean_wrong",
    "Verif.Props.Dominance.C134_irregular",
    "Verif.Props.Dominance.C134_mixture",
    "Verif.Props.Dominance.C134_mixture_means",
    "Verif.Props.OrderMore.C134_packed",
    "Verif.Props.OrderMore.C134_quant_partial",
    "Verif.Props.OrderMore.C134_quant_wrong",
    "Verif.Props.OrderMore.C134_quant_between_wrong"
   ],
   "note": "Proved for quantiles of histograms and PDFs with their own grids (equivalence, any two objects), of interpolated PDFs, packed PDFs and Gaussian mixtures of one ensemble, and for the means of histograms on common edges of equal width. False for the reported means of interpolated PDFs (C134_interp_mean_wrong) and for quantile-parameterised PDFs (C134_quant_wrong), except at the stored probabilities. Sparse and spline PDFs use the numerical inversion of scipy, which is not modelled."
  },
  {
   "property": "C135",
   "status": "partial",
   "theorems": [
    "Verif.Props.Plot.C135_samples",
    "Verif.Props.Plot.C135_current_axes_partial",
    "Verif.Props.Plot.C135_other_axes_wrong",
    "Verif.Props.Plot.C135_npoints_wrong",
    "Verif.Props.Plot.C135_properties_wrong"
   ],
   "note": "Proved for the current axes, any samples and any density. The code draws the curve on the current axes instead of those given, refuses its own argument npoints, and fails after drawing the marks when a line width or style is given."
  },
  {
   "property": "C136",
   "status": "partial",
   "theorems": [
    "Verif.Props.Rebin.C136_two_steps_partial",
    "Verif.Props.Rebin.C136_finer",
    "Verif.Props.Rebin.C136_order",
    "Verif.Props.Rebin.C136_unequal_wrong"
   ],
   "note": "Two steps: proved for every class, equal first bins and any second bins among their edges. Finer edges: a histogram ensemble converted to equal bins that include its edges keeps CDF, PPF and density. Order: proved for equal bins. Violated when the first bins are unequal (C57)."
  },
  {
   "property": "C137",
   "status": "partial",
   "theorems": [
    "Verif.Props.LargeSamples.C137_ks",
    "Verif.Props.LargeSamples.C137_cvm",
    "Verif.Props.LargeSamples.C137_self",
    "Verif.Props.LargeSamples.C137_hist_partial",
    "Verif.Props.LargeSamples.C137_pit"
   ],
   "note": "Goodness of fit (KS, CvM) and the PIT: proved, almost surely, for all estimates with independent uniform random numbers. The KS limit is proved for references without jumps (with jumps the statistic is not the distance: C66). Histograms: proved except for as many PDFs as bins, where the code refuses the samples (C59). The theorem of Glivenko and Cantelli is proved in Lemmas/LargeNumbers.lean from the strong law of Mathlib."
  },
  {
   "property": "C138",
   "status": "partial",
   "theorems": [
    "Verif.Props.RoundingPpf.C138_hist_partial",
    "Verif.Props.RoundingPpf.C138_hist_decreases",
    "Verif.Props.RoundingPpf.C138_hist_outside",
    "Verif.Props.RoundingPpf.C138_interp",
    "Verif.Props.RoundingPpf.C138_irregular_partial",
    "Verif.Props.RoundingPpf.C138_irregular_elsewhere"
   ],
   "note": "The computed quantile is next to a point of the range with the right probability to its left, with explicit bounds, for every rounding. Violated in doubles: the quantile itself can lie outside the range and can decrease, by a rounding error; with a grid per PDF it can be the largest grid point of another PDF, arbitrarily far away, for probabilities next to 1."
  },
  {
   "property": "C139",
   "status": "proved",
   "theorems": [
    "Verif.Props.QuadSpline.C139_exists",
    "Verif.Props.QuadSpline.C139_unique",
    "Verif.Props.QuadSpline.C139_cdf_ppf",
    "Verif.Props.QuadSpline.C139_reproduces",
    "Verif.Props.QuadSpline.C139_units",
    "Verif.Props.QuadSpline.C139_mirror",
    "Verif.Props.QuadSpline.C139_weights",
    "Verif.Props.QuadSpline.C139_smooth",
    "Verif.Props.QuadSpline.C139_continuous"
   ],
   "note": "The quadratic spline is modelled for any number of points, with the break points that make_interp_spline chooses for degree 2; existence and uniqueness are proved, so the method of solution does not matter in exact arithmetic. Rounding errors of the solver are not modelled."
  },
  {
   "property": "C14",
   "status": "partial",
   "theorems": [
    "Verif.Props.InterpPdf.C14_cdf_ppf_exact",
    "Verif.Props.InterpPdf.C14_cdf_ppf_partial",
    "Verif.Props.InterpPdf.C14_small_probability_wrong",
    "Verif.Props.InterpPdf.C14_ppf_mono"
   ],
   "note": "cdf(ppf(q)) characterised exactly; it is q for q at least the first cumulated value, wrong below."
  },
  {
   "property": "C140",
   "status": "proved",
   "theorems": [
    "Verif.Props.CubicSpline.C140_exists",
    "Verif.Props.CubicSpline.C140_unique",
    "Verif.Props.CubicSpline.C140_reproduces",
    "Verif.Props.CubicSpline.C140_linear",
    "Verif.Props.CubicSpline.C140_units",
    "Verif.Props.CubicSpline.C140_mirror",
    "Verif.Props.CubicSpline.C140_smooth"
   ],
   "note": "The cubic spline is modelled for any number of points from four, with the break points that scipy's interpolating cubic splines have (every point except the second and the last but one); existence and uniqueness are proved, so the method of solution does not matter in exact arithmetic. Rounding errors of the solver are not modelled."
  },
  {
   "property": "C141",
   "status": "partial",
   "theorems": [
    "Verif.Props.Splrep.C141_splrep",
    "Verif.Props.Splrep.C141_unique",
    "Verif.Props.Splrep.C141_divide",
    "Verif.Props.Splrep.C141_build",
    "Verif.Props.Splrep.C141_accepted",
    "Verif.Props.Splrep.C141_pdf",
    "Verif.Props.Splrep.C141_cdf",
    "Verif.Props.SplineConvert.C141_cdf_ranges",
    "Verif.Props.Splrep.C91_splrep_partial"
   ],
   "note": "The whole of create_from_xy_vals is modelled with the splines themselves: normalising the points and then building the splines is the same as dividing the coefficients (C141_build), and any other coefficients through the points would be the same (C141_unique), so FITPACK's solver is only trusted for its choice of knots. quad is taken to be exact, rounding errors are not modelled. The CDF is proved for PDFs with a common range; for different ranges and for a vanishing or negative integral the code violates it (C82_wrong, C91_splrep_wrong), hence partial."
  },
  {
   "property": "C142",
   "status": "partial",
   "theorems": [
    "Verif.Props.SplineConvert.C142_convert_partial",
    "Verif.Props.SplineConvert.C142_exact",
    "Verif.Props.SplineConvert.C142_twice",
    "Verif.Props.SplineConvert.C142_negative_wrong"
   ],
   "note": "Values at the abscissae, total probability, CDF, what is converted without loss, converting twice. Missing because the code violates it: the result can be negative between the abscissae although the density is not (C142_negative_wrong). How close the result is to a smooth density between the abscissae is not bounded."
  },
  {
   "property": "C143",
   "status": "proved",
   "theorems": [
    "Verif.Props.AndersonKs.C143_pit",
    "Verif.Props.AndersonKs.C143_too_few",
    "Verif.Props.AndersonKs.C143_distance",
    "Verif.Props.AndersonKs.C143_errors",
    "Verif.Props.AndersonKs.C143_order",
    "Verif.Props.AndersonKs.C143_ranks",
    "Verif.Props.AndersonKs.C143_mirror",
    "Verif.Props.AndersonKs.C143_pit_order"
   ],
   "note": "The statistic of scipy's k-sample Anderson-Darling test (midrank version), modelled from its source, in exact arithmetic; not the critical values and the p-value. Two samples with three values together, where scipy divides by zero, are not modelled (the PIT compares samples of the same size, so that never happens there)."
  },
  {
   "property": "C144",
   "status": "proved",
   "theorems": [
    "Verif.Props.SparseTable.C144_accepts",
    "Verif.Props.SparseTable.C144_dimensions",
    "Verif.Props.SparseTable.C144_shapes",
    "Verif.Props.SparseTable.C144_large",
    "Verif.Props.SparseTable.C144_first",
    "Verif.Props.SparseTable.C144_order",
    "Verif.Props.SparseTable.C144_order_first",
    "Verif.Props.SparseTable.C144_repeated",
    "Verif.Props.SparseTable.C144_signed"
   ],
   "note": "For every dictionary over the grid and every integer code, negative ones included. Arrays of codes with three or more axes and the keyword yvals are outside the model; sums are exact."
  },
  {
   "property": "C145",
   "status": "partial",
   "theorems": [
    "Verif.Props.Mismatch.C145_mix_partial",
    "Verif.Props.Mismatch.C145_mix_matching",
    "Verif.Props.Mismatch.C145_one_weight",
    "Verif.Props.Mismatch.C145_one_weight_integral",
    "Verif.Props.Mismatch.C145_one_mean",
    "Verif.Props.Mismatch.C145_packed",
    "Verif.Props.Mismatch.C145_spline"
   ],
   "note": "Exactly which tables are accepted and what the PDFs made from them are, for tables of any sizes. Violated for mixtures and splines: nothing is compared when a mixture is built (the evaluation fails, or a single weight is used for all components and the density integrates to their number), and the orders of splines are not compared with the knots."
  },
  {
   "property": "C146",
   "status": "partial",
   "theorems": [
    "Verif.Props.FineGrid.C146_moment",
    "Verif.Props.FineGrid.C146_moment_error",
    "Verif.Props.FineGrid.C146_moment_uniform",
    "Verif.Props.FineGrid.C146_moment_limits",
    "Verif.Props.FineGrid.C146_rmse",
    "Verif.Props.FineGrid.C146_kld",
    "Verif.Props.FineGrid.C146_kld_negative",
    "Verif.Props.FineGrid.C146_brier_partial",
    "Verif.Props.FineGrid.C146_brier_diverges",
    "Verif.Props.FineGrid.C146_cde",
    "Verif.Props.FineGrid.C146_mode"
   ],
   "note": "Limits as the grid step goes to zero, for bounded densities continuous almost everywhere: moments, RMSE, CDE loss, modes, and divergences with positive limits. Error bound on every grid for Lipschitz integrands; the zeroth moment of a uniform density is never one. False for the Brier score (diverges; only the rescaled score converges, and its limit ignores the truth) and for ensembles in which one divergence over the limits is negative (machine epsilon for all PDFs)."
  },
  {
   "property": "C147",
   "status": "proved",
   "theorems": [
    "Verif.Props.FineConvert.C147_hist_cdf",
    "Verif.Props.FineConvert.C147_hist_pdf",
    "Verif.Props.FineConvert.C147_hist_ppf",
    "Verif.Props.FineConvert.C147_interp",
    "Verif.Props.FineConvert.C147_interp_cdf"
   ],
   "note": "Limits of conversions on evenly spaced grids, for ensembles of any class known through the answers of cdf (pdf) at increasing points. Histograms with equal bins only: with unequal bins the conversion is wrong (C57). Mass outside the grid is lost by the normalisation, and the limits are those of the mass between the ends."
  },
  {
   "property": "C148",
   "status": "proved",
   "theorems": [
    "Verif.Props.Contraction.C148_hist",
    "Verif.Props.Contraction.C148_rmse",
    "Verif.Props.Contraction.C148_interp_larger"
   ],
   "note": "Conversions to histograms with the same equal bins that hold all the probability. The like is false for conversions to interpolated PDFs on a common grid (C148_interp_larger), and conversions to unequal bins are wrong altogether (C57)."
  },
  {
   "property": "C149",
   "status": "proved",
   "theorems": [
    "Verif.Props.QuantFine.C149_ppf",
    "Verif.Props.QuantFine.C149_smooth",
    "Verif.Props.QuadSpline.C149_near_lines",
    "Verif.Props.QuadSpline.C149_enough"
   ],
   "note": "Evenly spaced probabilities from 0 to 1, at which the original quantiles must be finite. The density is that of the default reconstruction, away from the two ends (outside the outermost midpoints it is 0)."
  },
  {
   "property": "C15",
   "status": "proved",
   "theorems": [
    "Verif.Props.InterpPdf.C15_pdf_through_points"
   ],
   "note": ""
  },
  {
   "property": "C150",
   "status": "proved",
   "theorems": [
    "Verif.Props.MetricClose.C150_moment",
    "Verif.Props.MetricClose.C150_rmse",
    "Verif.Props.MetricClose.C150_cde",
    "Verif.Props.MetricClose.C150_brier",
    "Verif.Props.MetricClose.C150_pit",
    "Verif.Props.MetricClose.C150_hist_conversion",
    "Verif.Props.MetricClose.C150_interp_conversion",
    "Verif.Props.PitFine.C150_hist_fine"
   ],
   "note": "Two ensembles whose densities (moment, RMSE, CDE loss, Brier) or distribution functions (PIT) differ by at most a given amount; the last three theorems apply this to an ensemble and its conversion."
  },
  {
   "property": "C151",
   "status": "proved",
   "theorems": [
    "Verif.Props.Chain.C151_chain",
    "Verif.Props.Chain.C151_pit"
   ],
   "note": "Equal bins with the same first and last edge in every step, all mass of the original inside."
  },
  {
   "property": "C152",
   "status": "proved",
   "theorems": [
    "Verif.Props.PitDetects.C152_limits",
    "Verif.Props.PitDetects.C152_stored",
    "Verif.Props.PitDetects.C152_hist_rounded",
    "Verif.Props.PitDetects.C152_instance"
   ],
   "note": "Independent true values; the limits are almost sure."
  },
  {
   "property": "C153",
   "status": "partial",
   "theorems": [
    "Verif.Props.QuantTypes.C153_kept",
    "Verif.Props.QuantTypes.C153_typed",
    "Verif.Props.QuantTypes.C153_single_partial",
    "Verif.Props.QuantTypes.C153_coincide"
   ],
   "note": "Exactly what is stored for every element type. The code converts the locations to the element type of the probabilities when it completes these, so they are not kept (witness); with single-precision probabilities the error is bounded."
  },
  {
   "property": "C154",
   "status": "proved",
   "theorems": [
    "Verif.Props.GofConvert.C154_references",
    "Verif.Props.GofConvert.C154_hist",
    "Verif.Props.GofConvert.C154_fine",
    "Verif.Props.GofConvert.C154_instance"
   ],
   "note": "References with close distribution functions, for every number of samples; conversion to histograms with equal bins holding all mass, for distribution functions without jumps, in the limit of many samples, almost surely."
  },
  {
   "property": "C155",
   "status": "partial",
   "theorems": [
    "Verif.Props.Metrics.C155_point_partial",
    "Verif.Props.Metrics.C155_pit",
    "Verif.Props.Metrics.C155_evaluation",
    "Verif.Props.Metrics.C155_cde",
    "Verif.Props.Metrics.C155_brier"
   ],
   "note": "Refused always by the Brier score; by the point metrics, the PIT and the CDE loss only when neither number is one. Otherwise the single entry is silently repeated, and the accumulated CDE loss of one PDF with k true values has its second term k times too large."
  },
  {
   "property": "C156",
   "status": "partial",
   "theorems": [
    "Verif.Props.Metrics.C156_cde_partial",
    "Verif.Props.Metrics.C156_cde_wrong",
    "Verif.Props.Metrics.C156_brier",
    "Verif.Props.Metrics.C156_pit_partial",
    "Verif.Props.Metrics.C156_pit_wrong"
   ],
   "note": "Exactly which shapes are refused, for true values given as one list. Violated for shape (n, 1): the PIT has n*n samples, and the CDE loss is wrong when all true values are next to the first grid point."
  },
  {
   "property": "C157",
   "status": "partial",
   "theorems": [
    "Verif.Props.SelfTest.C157_accepts_iff_partial",
    "Verif.Props.SelfTest.C157_accepted",
    "Verif.Props.SelfTest.C157_isf_unchecked",
    "Verif.Props.SelfTest.C157_scaled_density",
    "Verif.Props.SelfTest.C157_class_iff",
    "Verif.Props.SelfTest.C157_conversion_iff",
    "Verif.Props.SelfTest.C157_conversion_blind",
    "Verif.Props.SelfTest.C157_histogram_test_blind",
    "Verif.Props.SelfTest.C157_conversion_one_for_all"
   ],
   "note": "Exactly what the generic tests accept, for any class. Violated: isf is never compared with anything; densities that are wrong by up to a fifth are accepted; the tolerance for conversions is divided by the distance of the points, so that on fine grids (among them the one used for histograms) every conversion is accepted; the number of PDFs after a conversion is not compared. The tests of files and plots are not modelled."
  },
  {
   "property": "C158",
   "status": "partial",
   "theorems": [
    "Verif.Props.Random.C158_seed",
    "Verif.Props.Random.C158_seed_any",
    "Verif.Props.Random.C158_object",
    "Verif.Props.Random.C158_parts",
    "Verif.Props.Random.C158_parts_global",
    "Verif.Props.Random.C158_parts_seed",
    "Verif.Props.Random.C158_parts_example",
    "Verif.Props.Random.C158_prefix",
    "Verif.Props.Random.C158_consecutive",
    "Verif.Props.Random.C158_more_samples",
    "Verif.Props.Random.C158_gof",
    "Verif.Props.Random.C158_gof_value",
    "Verif.Props.Random.C158_gof_unknown",
    "Verif.Props.Random.C158_gof_parts",
    "Verif.Props.Random.C158_gof_parts_seed",
    "Verif.Props.Random.C158_gof_example",
    "Verif.Props.Random.C158_hist_ignores",
    "Verif.Props.Random.C158_spline_ignores",
    "Verif.Props.Random.C158_hist_not_repeated",
    "Verif.Props.Random.C158_global_seed",
    "Verif.Props.Random.C158_mixture_partial",
    "Verif.Props.Random.C158_mixture_start"
   ],
   "note": "rvs and the goodness of fit are repeated exactly by an integer seed, in every state of the generators. Violated: the conversions to histograms and splines by samples ignore random_state, and the conversion to mixtures uses it for the samples but not for the start of the fit. Generators are arbitrary sequences; the meaning of random_state and the order in which an array is filled are from scipy and numpy. Classes with their own _rvs are not followed."
  },
  {
   "property": "C159",
   "status": "partial",
   "theorems": [
    "Verif.Props.Metrics.Declared.C159_input_types",
    "Verif.Props.Metrics.Declared.C159_called_as_declared",
    "Verif.Props.Metrics.Declared.C159_output_partial",
    "Verif.Props.Metrics.Declared.C159_one_sample"
   ],
   "note": "For all sixteen metric classes, all settings, ensembles with one index and as many references as estimates, or one. Violated by the goodness of fit with one sample per PDF, which gives a single number. Arguments of the wrong kind (an array instead of an ensemble) are not followed."
  },
  {
   "property": "C16",
   "status": "partial",
   "theorems": [
    "Verif.Props.InterpPdf.C16_moment0_exact",
    "Verif.Props.InterpPdf.C16_moment0_partial",
    "Verif.Props.InterpPdf.C16_moment0_wrong",
    "Verif.Props.Variance.C16_moments_exact"
   ],
   "note": "Orders 0, 1, 2 characterised exactly on uniform grids: 0 and 1 are right when the end densities vanish, order 2 is w^2/6 too small then."
  },
  {
   "property": "C17",
   "status": "partial",
   "theorems": [
    "Verif.Props.InterpPdf.C17_cdf_partial",
    "Verif.Props.InterpPdf.C17_integral_wrong",
    "Verif.Props.RealIntegral.C17_lebesgue"
   ],
   "note": "Exact value of the integral in C17_lebesgue. CDF shape proved; the integral of the PDF is not one in general."
  },
  {
   "property": "C18",
   "status": "proved",
   "theorems": [
    "Verif.Props.Quant.C18_padding",
    "Verif.Props.Quant.C18_padding_extrapolates"
   ],
   "note": ""
  },
  {
   "property": "C19",
   "status": "partial",
   "theorems": [
    "Verif.Props.Quant.C19_knots_partial",
    "Verif.Props.QuadSpline.C19_knots_spline",
    "Verif.Props.ConvertQuant.C19_ppf_outside",
    "Verif.Props.Quant.C19_three_points_partial",
    "Verif.Props.QuadSpline.C19_monotone_iff_partial",
    "Verif.Props.Quant.C19_not_a_cdf",
    "Verif.Props.QuadSpline.C19_four_not_a_cdf"
   ],
   "note": "The CDF reproduces the quantiles for any interpolating routine; for three points it is non-decreasing exactly under the stated slope conditions; in general it is neither monotone nor within [0,1] (C19_not_a_cdf)."
  },
  {
   "property": "C20",
   "status": "partial",
   "theorems": [
    "Verif.Props.Quant.C20_linear_partial",
    "Verif.Props.Quant.C20_constant_partial",
    "Verif.Props.QuantMass.C20_constant_iff",
    "Verif.Props.Quant.C20_constant_negative",
    "Verif.Props.Quant.C20_dual_spline_nodes_partial",
    "Verif.Props.Quant.C20_dual_spline_negative"
   ],
   "note": "Piecewise linear is never negative; piecewise constant: exact condition for every cell (C20_constant_iff); the other two can be negative (witnesses)."
  },
  {
   "property": "C21",
   "status": "partial",
   "theorems": [
    "Verif.Props.Quant.C21_spline_rows_exact",
    "Verif.Props.Quant.C21_rows_partial",
    "Verif.Props.Quant.C21_spline_rows_wrong"
   ],
   "note": "The two spline reconstructions return the first PDF in every row."
  },
  {
   "property": "C22",
   "status": "proved",
   "theorems": [
    "Verif.Props.Quant.C22_assign",
    "Verif.Props.Quant.C22_history"
   ],
   "note": ""
  },
  {
   "property": "C23",
   "status": "proved",
   "theorems": [
    "Verif.Props.Mixmod.C23_rejects_negative",
    "Verif.Props.Mixmod.C23_normalises",
    "Verif.Props.Mixmod.C23_valid",
    "Verif.Props.MixmodGauss.C23_gaussian"
   ],
   "note": ""
  },
  {
   "property": "C24",
   "status": "partial",
   "theorems": [
    "Verif.Props.Mixmod.C24_ppf_exact",
    "Verif.Props.Mixmod.C24_ppf_partial",
    "Verif.Props.Mixmod.C24_repeated_probability_wrong",
    "Verif.Props.Mixmod.C24_masked_rows_fail",
    "Verif.Props.Mixmod.C24_sampling_fails"
   ],
   "note": "Right for increasing probabilities or one mixture; wrong mixture for repeated probabilities, failures for masked rows and sampling."
  },
  {
   "property": "C25",
   "status": "proved",
   "theorems": [
    "Verif.Props.Packing.C25_linear_packing"
   ],
   "note": ""
  },
  {
   "property": "C26",
   "status": "partial",
   "theorems": [
    "Verif.Props.Packing.C26_log_error",
    "Verif.Props.Packing.C26_log_packing_partial",
    "Verif.Props.Packing.C26_above_floor_lost",
    "Verif.Props.Packing.C26_small_rows_wrong"
   ],
   "note": "Exact error law; values within half a step above the floor are lost and rows of tiny values are inflated."
  },
  {
   "property": "C27",
   "status": "proved",
   "theorems": [
    "Verif.Props.Packing.C27_unknown",
    "Verif.Props.Packing.C27_class",
    "Verif.Props.Packing.C27_matching"
   ],
   "note": ""
  },
  {
   "property": "C28",
   "status": "partial",
   "theorems": [
    "Verif.Props.Sparse.C28_codec_partial",
    "Verif.Props.Sparse.C28_injective",
    "Verif.Props.Sparse.C28_index_overflow",
    "Verif.Props.Sparse.C28_default_sizes"
   ],
   "note": "Round trip exactly for indices below 65536; default dictionaries are larger for grids of 364 points or more."
  },
  {
   "property": "C29",
   "status": "proved",
   "theorems": [
    "Verif.Props.Sparse.C29_index_addresses_column"
   ],
   "note": ""
  },
  {
   "property": "C30",
   "status": "partial",
   "theorems": [
    "Verif.Props.SparseSearch.C30_dictionary_after_row",
    "Verif.Props.SparseSearch.C30_independent_partial",
    "Verif.Props.SparseSearch.C30_first_row",
    "Verif.Props.SparseSearch.C30_neighbour_changes_encoding",
    "Verif.Props.SparseSearch.C30_zero_pdf_fails"
   ],
   "note": "The dictionary is not restored after a row; exact description of what is left and a witness."
  },
  {
   "property": "C31",
   "status": "partial",
   "theorems": [
    "Verif.Props.Sparse.C31_weights_exact",
    "Verif.Props.Sparse.C31_weights_partial",
    "Verif.Props.Sparse.C31_first_weight_wrong",
    "Verif.Props.Sparse.C31_negative_wrong"
   ],
   "note": "The first weight is forced to one."
  },
  {
   "property": "C32",
   "status": "partial",
   "theorems": [
    "Verif.Props.Select.C32_int_key",
    "Verif.Props.Select.C32_slice_key",
    "Verif.Props.Select.C32_slice_all",
    "Verif.Props.Select.C32_slice_step",
    "Verif.Props.Select.C32_mask_key",
    "Verif.Props.Select.C32_list_key",
    "Verif.Props.Select.C32_select_partial",
    "Verif.Props.Select.C32_out_of_range",
    "Verif.Props.Select.C32_compose",
    "Verif.Props.Select.C32_empty_selection_fails",
    "Verif.Props.Select.C32_analytic_partial"
   ],
   "note": "Proved for the eight row classes (any history of operations) and analytic classes with (n,1) parameters; the empty selection raises ValueError for quantile, irregular and spline classes."
  },
  {
   "property": "C33",
   "status": "partial",
   "theorems": [
    "Verif.Props.Select.C33_many_partial",
    "Verif.Props.Select.C33_integer_key",
    "Verif.Props.Select.C33_list_column_misaligned",
    "Verif.Props.Select.C33_reselect_fails"
   ],
   "note": "Slices, masks and index lists keep array columns aligned. Integer keys raise ValueError for columns with several numbers per PDF; list columns are not selected; selecting from ens[i] raises IndexError."
  },
  {
   "property": "C34",
   "status": "partial",
   "theorems": [
    "Verif.Props.Stack.C34_concatenate_partial",
    "Verif.Props.Stack.C34_assoc",
    "Verif.Props.Stack.C34_slice_part",
    "Verif.Props.Stack.C34_analytic",
    "Verif.Props.Stack.C34_spline_xy_fails"
   ],
   "note": "Stacking is exact for every class with per-row arrays (all modelled kinds) and for the analytic classes; splines created from (xvals, yvals) cannot be concatenated, proved as C34_spline_xy_fails."
  },
  {
   "property": "C35",
   "status": "proved",
   "theorems": [
    "Verif.Props.Stack.C35_append_concatenate",
    "Verif.Props.Stack.C35_analytic"
   ],
   "note": ""
  },
  {
   "property": "C36",
   "status": "partial",
   "theorems": [
    "Verif.Props.Stack.C36_accept_partial",
    "Verif.Props.Stack.C36_concatenate_partial",
    "Verif.Props.Stack.C36_order_matters",
    "Verif.Props.Stack.C36_small_grids_merged"
   ],
   "note": "Concatenation is exact when accepted metadata agree; acceptance up to the tolerance of isclose merges unequal grids and depends on the order, proved by C36_small_grids_merged and C36_order_matters."
  },
  {
   "property": "C37",
   "status": "partial",
   "theorems": [
    "Verif.Props.State.C37_invariant_partial",
    "Verif.Props.State.C37_new",
    "Verif.Props.State.C37_selected",
    "Verif.Props.State.C37_failed_update_breaks"
   ],
   "note": "Holds for all histories except those in which an update raises after replacing the PDFs by another number of PDFs; that exception is proved to break the claim."
  },
  {
   "property": "C38",
   "status": "partial",
   "theorems": [
    "Verif.Props.State.C38_not_stale_partial",
    "Verif.Props.State.C38_stale_after_failed_update",
    "Verif.Props.State.C38_stale_after_grid_mutation",
    "Verif.Props.State.C38_stale_after_alteration"
   ],
   "note": "Holds for clean histories; the three ways of getting stale values are proved."
  },
  {
   "property": "C39",
   "status": "partial",
   "theorems": [
    "Verif.Props.State.C39_ancil_calls",
    "Verif.Props.State.C39_update_partial",
    "Verif.Props.State.C39_update_objdata_partial",
    "Verif.Props.State.C39_append",
    "Verif.Props.State.C37_failed_update_breaks"
   ],
   "note": "set_ancil, add_to_ancil and append are atomic; update/update_objdata replace the PDFs before raising when the ancillary data passed do not fit (exact characterisation proved)."
  },
  {
   "property": "C40",
   "status": "partial",
   "theorems": [
    "Verif.Props.State.C40_kept_partial",
    "Verif.Props.State.C40_replaced",
    "Verif.Props.State.C40_all_given",
    "Verif.Props.State.C40_irregular_changes"
   ],
   "note": "All row classes; the y-values of irregular grids are renormalised when only the x-values are given (proved)."
  },
  {
   "property": "C41",
   "status": "partial",
   "theorems": [
    "Verif.Props.Select.C41_iteration_partial",
    "Verif.Props.Select.C41_wide_column_raises",
    "Verif.Props.Select.C41_scalar_parameters_never_end"
   ],
   "note": "Proved for the row classes with at most one number per PDF in each ancillary column; wide columns raise, and analytic distributions with Python numbers as parameters iterate forever."
  },
  {
   "property": "C42",
   "status": "partial",
   "theorems": [
    "Verif.Props.Shapes.C42_integrate",
    "Verif.Props.Shapes.C42_histogramize_partial",
    "Verif.Props.Shapes.C42_single_pdf_fails",
    "Verif.Props.Shapes.C42_merge"
   ],
   "note": "An ensemble whose PDF was given as one-dimensional arrays has an empty shape and histogramize raises TypeError."
  },
  {
   "property": "C43",
   "status": "partial",
   "theorems": [
    "Verif.Props.Shapes.C43_mode_partial",
    "Verif.Props.Shapes.C43_single_pdf_fails",
    "Verif.Props.Shapes.C43_nested_wrong"
   ],
   "note": "Holds for ensembles of rank one; a single PDF without a leading axis raises, and nested shapes take the maximum along the wrong axis."
  },
  {
   "property": "C44",
   "status": "partial",
   "theorems": [
    "Verif.Props.Shapes.C44_flatten",
    "Verif.Props.Shapes.C44_roundtrip_partial",
    "Verif.Props.Shapes.C44_single_pdf_fails",
    "Verif.Props.Shapes.C44_row_numbers"
   ],
   "note": "Holds for shapes of rank at least one; for the empty shape the restored array differs."
  },
  {
   "property": "C45",
   "status": "partial",
   "theorems": [
    "Verif.Props.SliceEval.C45_slice_eval_partial",
    "Verif.Props.SliceEval.C45_single_partial",
    "Verif.Props.SliceEval.C45_unsorted_differs"
   ],
   "note": "Proved for all row classes, any evaluation that uses the metadata and the PDF's own table rows, any history of operations, increasing points; false for unsorted points (proved)."
  },
  {
   "property": "C46",
   "status": "partial",
   "theorems": [
    "Verif.Props.Tables.C46_round_trip_partial",
    "Verif.Props.Tables.C46_build_read_partial",
    "Verif.Props.Tables.C46_unknown_class",
    "Verif.Props.Tables.C46_analytic",
    "Verif.Props.Tables.C46_nested_flattened",
    "Verif.Props.Tables.C46_analytic_flat_changes",
    "Verif.Props.Tables.C46_name_forms"
   ],
   "note": "Identity for every reachable ensemble of a row class (columns in any order) and for analytic classes with (n,1) parameters; false (proved) for nested shapes, 1-D analytic parameters. The file format of tables_io is trusted to return the tables it was given."
  },
  {
   "property": "C47",
   "status": "partial",
   "theorems": [
    "Verif.Props.Tables.C47_round_trip_partial",
    "Verif.Props.Tables.C47_slash_fails"
   ],
   "note": "All dictionaries of reachable ensembles with plain names as keys; keys with a slash are proved to make read_dict raise KeyError."
  },
  {
   "property": "C48",
   "status": "partial",
   "theorems": [
    "Verif.Props.Chunks.C48_range_bounds",
    "Verif.Props.Chunks.C48_every_row_once",
    "Verif.Props.Chunks.C48_in_order",
    "Verif.Props.Chunks.C48_one_rank",
    "Verif.Props.Chunks.C48_chunks",
    "Verif.Props.Chunks.C48_without_ancil_partial",
    "Verif.Props.Chunks.C48_stack",
    "Verif.Props.WritingAnalytic.C48_analytic"
   ],
   "note": "Coverage for all row counts, chunk sizes and ranks; items equal slices for all reachable ensembles of the row classes and for analytic classes with (n,1) parameters; without ancillary table the items have an empty dictionary instead of None (proved). data_ranges_by_rank is modelled from its documentation."
  },
  {
   "property": "C49",
   "status": "partial",
   "theorems": [
    "Verif.Props.Chunks.C49_kept_items",
    "Verif.Props.Chunks.C49_newest_partial",
    "Verif.Props.Chunks.C49_ancil_overwritten"
   ],
   "note": "False: the ancillary data of all items handed out are those of the last one (exact theorem and witness); the PDFs are kept, and the newest item is valid."
  },
  {
   "property": "C50",
   "status": "partial",
   "theorems": [
    "Verif.Props.Writing.C50_any_order",
    "Verif.Props.Writing.C50_tables",
    "Verif.Props.Writing.C50_any_schedule_partial",
    "Verif.Props.WritingAnalytic.C50_analytic"
   ],
   "note": "Assignments to disjoint rows or different data sets commute (any contents); for any tables, any order and interleaving of the column assignments of chunks that cover all rows gives the tables; for reachable ensembles of the row classes and for analytic ensembles with (n,1) parameters, with array ancillary data, the file reads back as the ensemble. Missing: analytic parameters of other shapes (which do not survive reading either, C46_analytic_flat_changes); h5py is modelled as assigning rows of data sets."
  },
  {
   "property": "C51",
   "status": "proved",
   "theorems": [
    "Verif.Props.Writing.C51_unfinished",
    "Verif.Props.Writing.C51_finished",
    "Verif.Props.Writing.C51_interrupted_finalisation",
    "Verif.Props.Writing.C51_missing_rows"
   ],
   "note": "Any class, any prefix of the allocation, any assignments before the finalisation; after the finalisation it is a qp file. Beyond the claim: a crash within the finalisation leaves a file that passes is_qp_file but cannot be read, and missing chunks go unnoticed (both proved)."
  },
  {
   "property": "C52",
   "status": "partial",
   "theorems": [
    "Verif.Props.Writing.C52_never_raises",
    "Verif.Props.Writing.C52_true_iff_partial",
    "Verif.Props.Writing.C52_scalar_name"
   ],
   "note": "Exact characterisation for every outcome of the reader; exceptions that are not an Exception (keyboard interrupt) propagate, and a scalar or empty pdf_name entry counts as absent although read accepts a scalar one (proved)."
  },
  {
   "property": "C53",
   "status": "partial",
   "theorems": [
    "Verif.Props.Alloc.C53_ensemble",
    "Verif.Props.Alloc.C53_ensemble_ok",
    "Verif.Props.Alloc.C53_hist_partial",
    "Verif.Props.Alloc.C53_hist_list",
    "Verif.Props.Alloc.C53_interp",
    "Verif.Props.Alloc.C53_irregular",
    "Verif.Props.Alloc.C53_mixmod",
    "Verif.Props.Alloc.C53_packed_iff",
    "Verif.Props.Alloc.C53_quant_iff",
    "Verif.Props.Alloc.C53_quant_missing",
    "Verif.Props.Alloc.C53_spline_iff",
    "Verif.Props.Alloc.C53_analytic_iff",
    "Verif.Props.Alloc.C53_sparse_iff",
    "Verif.Props.Alloc.C53_sparse_short",
    "Verif.Props.Alloc.C53_spline_wrong",
    "Verif.Props.Alloc.C53_quant_wrong",
    "Verif.Props.Alloc.C53_sparse_wrong"
   ],
   "note": "Exact for the ensemble method and for hist (array bins), interp, irregular, mixmod; exact iff conditions for packed, quant, spline, sparse, analytic, which fail for padded quantiles, for splines with another number of PDFs and for sparse codes whose recorded number differs from the table (witnesses)."
  },
  {
   "property": "C54",
   "status": "proved",
   "theorems": [
    "Verif.Props.Registry.C54_first_wins",
    "Verif.Props.Registry.C54_outcome",
    "Verif.Props.Registry.C54_failure_changes_nothing",
    "Verif.Props.Registry.C54_methods",
    "Verif.Props.Registry.C54_attributes"
   ],
   "note": ""
  },
  {
   "property": "C55",
   "status": "proved",
   "theorems": [
    "Verif.Props.Registry.C55_lookup",
    "Verif.Props.Registry.C55_never_replaced",
    "Verif.Props.Registry.C55_default",
    "Verif.Props.Registry.C55_tables",
    "Verif.Props.Registry.C55_irregular_second_default",
    "Verif.Props.Registry.C55_spline_extraction",
    "Verif.Props.Registry.C55_hist_extraction"
   ],
   "note": ""
  },
  {
   "property": "C56",
   "status": "partial",
   "theorems": [
    "Verif.Props.Convert.C56_agree_partial",
    "Verif.Props.Convert.C56_agree_iff",
    "Verif.Props.Convert.C56_unknown_class",
    "Verif.Props.Convert.C56_no_extraction",
    "Verif.Props.Convert.C56_no_ancil",
    "Verif.Props.Convert.C56_npdf",
    "Verif.Props.Accept.C56_missing_keyword",
    "Verif.Props.Convert.C56_no_creation_differs"
   ],
   "note": "The two entry points agree exactly when the class has a creation method; without one they raise different errors (witness). Extractions from samples: C98."
  },
  {
   "property": "C57",
   "status": "partial",
   "theorems": [
    "Verif.Props.Convert.C57_ensemble_partial",
    "Verif.Props.Convert.C57_equal_bins_partial",
    "Verif.Props.Convert.C57_exact",
    "Verif.Props.Convert.C57_unequal_bins_wrong"
   ],
   "note": "The code hands bin masses to the constructor as densities: false for bins of unequal width (witness); C57_exact says exactly when the masses are kept."
  },
  {
   "property": "C58",
   "status": "partial",
   "theorems": [
    "Verif.Props.Convert.C58_interp",
    "Verif.Props.Convert.C58_hist_partial",
    "Verif.Props.Convert.C58_unequal_bins_wrong",
    "Verif.Props.Convert.C58_irregular_grid"
   ],
   "note": "Interpolated ensembles: proved in full. Histograms: for equal-width bins and finite rows; false for unequal bins (witness)."
  },
  {
   "property": "C59",
   "status": "partial",
   "theorems": [
    "Verif.Props.Convert.C59_success_partial",
    "Verif.Props.Convert.C59_counts",
    "Verif.Props.Convert.C59_one_bin",
    "Verif.Props.Convert.C59_size_collision_wrong"
   ],
   "note": "Succeeds unless the number of PDFs equals the number of bins and differs from the sample size (exact condition proved, witness); counting proved."
  },
  {
   "property": "C60",
   "status": "partial",
   "theorems": [
    "Verif.Props.Metrics.C60_success_iff",
    "Verif.Props.Metrics.C60_errors",
    "Verif.Props.Metrics.C60_grid_partial",
    "Verif.Props.Metrics.C60_reversed",
    "Verif.Props.Metrics.C60_reversed_wrong"
   ],
   "note": "Proved for limits in increasing order; reversed limits are accepted with a negative step and give edges that do not fit the points (witness)."
  },
  {
   "property": "C61",
   "status": "proved",
   "theorems": [
    "Verif.Props.Metrics.C61_one_hot",
    "Verif.Props.Metrics.C61_rejects",
    "Verif.Props.Metrics.C61_encoding"
   ],
   "note": ""
  },
  {
   "property": "C62",
   "status": "proved",
   "theorems": [
    "Verif.Props.Metrics.C62_value",
    "Verif.Props.Metrics.C62_zero_iff",
    "Verif.Props.Metrics.C62_range",
    "Verif.Props.Metrics.C62_order",
    "Verif.Props.Metrics.C62_shape"
   ],
   "note": ""
  },
  {
   "property": "C63",
   "status": "partial",
   "theorems": [
    "Verif.Props.Metrics.C63_chunks_partial",
    "Verif.Props.Metrics.C63_single_fails",
    "Verif.Props.Metrics.C63_single_flat"
   ],
   "note": "Proved for chunks of at least two PDFs; a chunk with a single PDF raises ValueError because the truth array is squeezed (C63_single_fails)."
  },
  {
   "property": "C64",
   "status": "proved",
   "theorems": [
    "Verif.Props.Metrics.C64_nearest",
    "Verif.Props.Metrics.C64_value",
    "Verif.Props.Metrics.C64_chunks",
    "Verif.Props.Metrics.C64_errors",
    "Verif.Props.Metrics.C64_broadcast_differs"
   ],
   "note": "For chunks with one true value per PDF. The code does not check that; with one PDF and several true values the two ways differ (C64_broadcast_differs)."
  },
  {
   "property": "C65",
   "status": "partial",
   "theorems": [
    "Verif.Props.Metrics.C65_one_chunk_partial",
    "Verif.Props.Metrics.C65_last_only",
    "Verif.Props.Metrics.C65_errors",
    "Verif.Props.Metrics.C65_agree_iff",
    "Verif.Props.Metrics.C65_drops_chunks"
   ],
   "note": "False of the code for more than one chunk: only the last chunk counts (proved for every metric, witness). The t-digest itself is not modelled."
  },
  {
   "property": "C66",
   "status": "partial",
   "theorems": [
    "Verif.Props.Metrics.C66_exists",
    "Verif.Props.Metrics.C66_bounds",
    "Verif.Props.Metrics.C66_order",
    "Verif.Props.Metrics.C66_upper",
    "Verif.Props.Metrics.C66_largest_partial",
    "Verif.Props.Metrics.C66_jump_wrong",
    "Verif.Props.Metrics.C66_exact"
   ],
   "note": "Bounds, order and upper bound in full; largest distance for references without jumps at the samples (false otherwise, witness), with the exact value for every reference (C66_exact)."
  },
  {
   "property": "C67",
   "status": "proved",
   "theorems": [
    "Verif.Props.Metrics.C67_order",
    "Verif.Props.Metrics.C67_exists",
    "Verif.Props.Metrics.C67_lower",
    "Verif.Props.Metrics.C67_lower_iff",
    "Verif.Props.Metrics.C67_upper"
   ],
   "note": ""
  },
  {
   "property": "C68",
   "status": "partial",
   "theorems": [
    "Verif.Props.Metrics.C68_self",
    "Verif.Props.Metrics.C68_nonneg",
    "Verif.Props.Metrics.C68_shape",
    "Verif.Props.Metrics.C68_rows_partial",
    "Verif.Props.Metrics.C68_any_negative",
    "Verif.Props.Metrics.C68_depends_on_others",
    "Verif.Props.Metrics.C68_gibbs"
   ],
   "note": "One PDF with a negative sum makes the code replace the values of all PDFs (witness); independence proved otherwise."
  },
  {
   "property": "C69",
   "status": "proved",
   "theorems": [
    "Verif.Props.Metrics.C69_value",
    "Verif.Props.Metrics.C69_metric",
    "Verif.Props.Metrics.C69_ensembles"
   ],
   "note": ""
  },
  {
   "property": "C70",
   "status": "partial",
   "theorems": [
    "Verif.Props.Metrics.C70_relation",
    "Verif.Props.Metrics.C70_equal_iff",
    "Verif.Props.Metrics.C70_differs",
    "Verif.Props.Metrics.C70_errors",
    "Verif.Props.Metrics.C70_linear_partial",
    "Verif.Props.Metrics.C70_uniform_mass"
   ],
   "note": "Linearity proved; the two entry points agree exactly when all moments vanish (proved), so the claim of equality is false of the code."
  },
  {
   "property": "C71",
   "status": "proved",
   "theorems": [
    "Verif.Props.Metrics.C71_rate",
    "Verif.Props.Metrics.C71_mono",
    "Verif.Props.Metrics.C71_point",
    "Verif.Props.Metrics.C71_point_mono"
   ],
   "note": ""
  },
  {
   "property": "C72",
   "status": "proved",
   "theorems": [
    "Verif.Props.Metrics.C72_median",
    "Verif.Props.Metrics.C72_order",
    "Verif.Props.Metrics.C72_objects",
    "Verif.Props.Metrics.C72_nonneg",
    "Verif.Props.Metrics.C72_shift",
    "Verif.Props.Metrics.C72_exists",
    "Verif.Props.Metrics.C72_range"
   ],
   "note": ""
  },
  {
   "property": "C73",
   "status": "partial",
   "theorems": [
    "Verif.Props.Metrics.C73_samples",
    "Verif.Props.Metrics.C73_few_objects",
    "Verif.Props.Metrics.C73_distribution_partial",
    "Verif.Props.Metrics.C73_end_levels",
    "Verif.Props.Metrics.C73_all_zero"
   ],
   "note": "A single object raises TypeError; quantile levels 0 and 1 stay in when the grid contains them, and the default grid is replaced by one that does when there are fewer objects than grid points."
  },
  {
   "property": "C74",
   "status": "partial",
   "theorems": [
    "Verif.Props.Metrics.C74_unknown",
    "Verif.Props.Metrics.C74_check",
    "Verif.Props.Metrics.C74_own_partial",
    "Verif.Props.Metrics.C74_by_name_partial",
    "Verif.Props.Metrics.C74_accepted",
    "Verif.Props.Metrics.C74_one_sample_wrong",
    "Verif.Props.Metrics.C74_scalar_fails",
    "Verif.Props.Metrics.C74_mismatch_accepted"
   ],
   "note": "The failed size check is only logged: one estimate against several references is computed. With one sample for every PDF all samples are used for every value."
  },
  {
   "property": "C75",
   "status": "partial",
   "theorems": [
    "Verif.Props.MetricRegistry.C75_listed",
    "Verif.Props.MetricRegistry.C75_create",
    "Verif.Props.MetricRegistry.C75_own_class_partial",
    "Verif.Props.MetricRegistry.C75_last_wins",
    "Verif.Props.MetricRegistry.C75_inherited_wrong",
    "Verif.Props.MetricRegistry.C75_idempotent",
    "Verif.Props.MetricRegistry.C75_stale",
    "Verif.Props.MetricRegistry.C75_key"
   ],
   "note": "Exact for an empty or refreshed registry; a subclass inheriting the name replaces its parent; without force_update new classes are not seen."
  },
  {
   "property": "C76",
   "status": "partial",
   "theorems": [
    "Verif.Props.Profile.C76_entries",
    "Verif.Props.Profile.C76_lengths",
    "Verif.Props.Profile.C76_one_bin",
    "Verif.Props.Profile.C76_assign_partial",
    "Verif.Props.Profile.C76_empty",
    "Verif.Props.Profile.C76_mean",
    "Verif.Props.Profile.C76_spread",
    "Verif.Props.Profile.C76_error_le"
   ],
   "note": "The assignment to bins inherits the restriction of C05 (edges unequal by less than the tolerance); everything else in full."
  },
  {
   "property": "C77",
   "status": "proved",
   "theorems": [
    "Verif.Props.InterpPdf.C77_irregular_ppf",
    "Verif.Props.InterpPdf.C77_unnormalised_wrong"
   ],
   "note": "The second theorem shows that normalisation at construction is needed."
  },
  {
   "property": "C78",
   "status": "proved",
   "theorems": [
    "Verif.Props.AndersonDarling.C78_order",
    "Verif.Props.AndersonDarling.C78_lower",
    "Verif.Props.AndersonDarling.C78_positive"
   ],
   "note": "Exact logarithms (no rounding); the reference enters through log CDF and log(1-CDF)."
  },
  {
   "property": "C79",
   "status": "proved",
   "theorems": [
    "Verif.Props.PackedPdf.C79_packed_error",
    "Verif.Props.PackedCurves.C79_log_packed_error"
   ],
   "note": "Linear and logarithmic packing, for exact arithmetic; the row must not be all zero."
  },
  {
   "property": "C80",
   "status": "partial",
   "theorems": [
    "Verif.Props.Front.C80_ppf_per_pdf",
    "Verif.Props.Front.C80_isf_per_pdf",
    "Verif.Props.Front.C80_ppf_shared_exact",
    "Verif.Props.Front.C80_ppf_shared_partial",
    "Verif.Props.Front.C80_isf_shared_partial",
    "Verif.Props.Front.C80_isf_reversed",
    "Verif.Props.Front.C80_median",
    "Verif.Props.Front.C80_interval",
    "Verif.Props.Front.C80_interval_ends",
    "Verif.Props.Front.C80_sf",
    "Verif.Props.Front.C80_sf_isf",
    "Verif.Props.Front.inverse_hist",
    "Verif.Props.Front.inverse_irregular"
   ],
   "note": "One probability per PDF, medians, intervals and survival functions are proved. A shared list of probabilities is right for ppf only when increasing and for isf only when decreasing; C80_isf_reversed proves that increasing probabilities give reversed rows as soon as there are two PDFs. The scipy front end is modelled from its source."
  },
  {
   "property": "C81",
   "status": "partial",
   "theorems": [
    "Verif.Props.EndToEndReal.C81_bspline",
    "Verif.Props.Spline.C81_bounds",
    "Verif.Props.Spline.C81_splint_integral",
    "Verif.Props.Spline.C81_cdf_partial",
    "Verif.Props.Spline.C81_cdf_mono",
    "Verif.Props.Spline.C81_pdf_points",
    "Verif.Props.Spline.C81_pdf_outside",
    "Verif.Props.Spline.C81_outside_wrong"
   ],
   "note": "Proved between the first and the last knot, for every degree, knots and coefficients: the CDF is the integral of the PDF, the PDF lies between the coefficients, evaluation keeps positions. Violated outside the knots: the PDF is continued as a polynomial (negative or growing) where the CDF takes it to be zero. FITPACK's splev and splint are modelled by their algorithms."
  },
  {
   "property": "C82",
   "status": "partial",
   "theorems": [
    "Verif.Props.Spline.C82_total_exact",
    "Verif.Props.Spline.C82_normalised_partial",
    "Verif.Props.Spline.C82_wrong"
   ],
   "note": "Proved for PDFs with a common range; for different ranges C82_total_exact gives the value and C82_wrong a pair of PDFs with total probability 1/2. quad is taken to be exact; that splrep is linear is proved (C141_divide)."
  },
  {
   "property": "C83",
   "status": "partial",
   "theorems": [
    "Verif.Props.SparsePdf.C83_shapes_agree",
    "Verif.Props.SparsePdf.C83_class_agrees_partial",
    "Verif.Props.SparsePdf.C83_normalised",
    "Verif.Props.SparsePdf.C83_padding",
    "Verif.Props.SparsePdf.C83_nonneg_partial",
    "Verif.Props.SparsePdf.C83_negative_wrong"
   ],
   "note": "Decoding to Voigt parameters and decoding with the dictionary always agree; the class agrees with them unless the cut removes something, because only the decoding functions cut. Negative coefficients give negative densities in the class (C83_negative_wrong)."
  },
  {
   "property": "C84",
   "status": "proved",
   "theorems": [
    "Verif.Props.ConvertQuant.C84_quantiles_kept",
    "Verif.Props.ConvertQuant.C84_one_quantile"
   ],
   "note": "For any class and any interpolant that passes through its knots (scipy's quadratic interpolant is not modelled further). A single probability raises IndexError."
  },
  {
   "property": "C85",
   "status": "proved",
   "theorems": [
    "Verif.Props.ConvertError.C85_hist_error"
   ],
   "note": "For any class; the bins have equal width (see C57 for the others)."
  },
  {
   "property": "C86",
   "status": "proved",
   "theorems": [
    "Verif.Props.Metrics.C86_ks",
    "Verif.Props.Metrics.C86_cvm",
    "Verif.Props.Metrics.C86_trim",
    "Verif.Props.Metrics.C86_order",
    "Verif.Props.Metrics.C86_construct",
    "Verif.Props.Metrics.C86_constant",
    "Verif.Props.Metrics.C86_outlier"
   ],
   "note": "The statistics of scipy's kstest and cramervonmises are modelled from their source; anderson_ksamp is any function of the two lists it is given; the outlier rate holds for any interpolant that passes through its knots."
  },
  {
   "property": "C87",
   "status": "partial",
   "theorems": [
    "Verif.Props.SparseGrid.C87_grid_partial",
    "Verif.Props.SparseGrid.C87_lost",
    "Verif.Props.SparseGrid.C87_covered_iff",
    "Verif.Props.SparseGrid.C87_half_lost_wrong"
   ],
   "note": "The new values are the densities of the input and the grid ends at the last positive grid point; the segment behind it is cut off, which C87_covered_iff characterises exactly and C87_half_lost_wrong shows to cost half of the mass in an example. The encoding of the rebinned values is the subject of C28-C31 and C83."
  },
  {
   "property": "C88",
   "status": "proved",
   "theorems": [
    "Verif.Props.Rbpe.C88_loss",
    "Verif.Props.Rbpe.C88_risk_bounds",
    "Verif.Props.Rbpe.C88_monotone",
    "Verif.Props.Rbpe.C88_local_min",
    "Verif.Props.Rbpe.C88_continuous",
    "Verif.Props.Rbpe.C88_best_exists",
    "Verif.Props.Rbpe.C88_scale",
    "Verif.Props.Rbpe.C88_estimates"
   ],
   "note": "quad is taken to be exact; the optimiser is any function returning a local minimum (without limits) or a point within its bounds (with limits)."
  },
  {
   "property": "C89",
   "status": "partial",
   "theorems": [
    "Verif.Props.Variance.C89_histogram_partial",
    "Verif.Props.Variance.C89_interp_partial",
    "Verif.Props.Variance.C89_interp_mean_exact",
    "Verif.Props.Variance.C89_mean_and_variance_wrong"
   ],
   "note": "Uniform bins: mean exact, variance too small by exactly w^2/12. Uniform grid and zero ends: mean exact, variance too small by exactly w^2/6. Otherwise wrong (witness with variance -220); exact formula for the mean."
  },
  {
   "property": "C90",
   "status": "partial",
   "theorems": [
    "Verif.Props.MixReal.C90_density",
    "Verif.Props.MixReal.C90_moments",
    "Verif.Props.MixReal.C90_quantiles_partial",
    "Verif.Props.MixReal.C90_quantiles_single",
    "Verif.Props.MixReal.C90_quantiles_wrong"
   ],
   "note": "Density, CDF, mean and variance: proved in full (norm.cdf is taken to be the normal probability). Quantiles: the error in probability is bounded by exp(-18) or the growth of the CDF over one of the 200 cells between the extremes of the whole ensemble, 0.024 for a single normal PDF. Violated in ensembles with PDFs far apart: C90_quantiles_wrong has a standard normal PDF with a median above 200."
  },
  {
   "property": "C91",
   "status": "partial",
   "theorems": [
    "Verif.Props.Kde.C91_defined",
    "Verif.Props.Kde.C91_density",
    "Verif.Props.Kde.C91_order",
    "Verif.Props.Kde.C91_units",
    "Verif.Props.Kde.C91_rows",
    "Verif.Props.Kde.C91_pdfs_partial",
    "Verif.Props.Kde.C91_sign",
    "Verif.Props.Kde.C91_negative_wrong",
    "Verif.Props.Splrep.C91_splrep_partial",
    "Verif.Props.Splrep.C91_splrep_wrong"
   ],
   "note": "gaussian_kde is modelled from its source (one dimension, Scott's rule); the spline is any one that passes through its points, and for four or more increasing abscissae the spline of scipy itself (C91_splrep_partial, C91_splrep_wrong). Missing because the code violates it: the integral of a spline through positive values can be negative for unequal abscissae, and the division by it then gives a negative PDF (C91_negative_wrong: samples 0.9 and 1.1, abscissae 0, 1, 2, 12); C91_sign gives the exact sign."
  },
  {
   "property": "C92",
   "status": "partial",
   "theorems": [
    "Verif.Props.Digest.C92_chunks_partial",
    "Verif.Props.Digest.C92_mad_defined",
    "Verif.Props.Digest.C92_mad_error",
    "Verif.Props.Digest.C92_mad_order",
    "Verif.Props.Digest.C92_outlier_range",
    "Verif.Props.Digest.C92_constant_index_error",
    "Verif.Props.Digest.C92_perfect_estimates_wrong"
   ],
   "note": "Through a digest that loses nothing the chunk-wise median, interquartile width and outlier rate equal those of the undivided data; the median absolute deviation is within half a bin (times 1.4826) of that of the digest's distribution. Missing because the code violates it: equal residuals (for instance perfect estimates) raise IndexError through digests although the direct evaluation gives zero. pytdigest itself is a parameter."
  },
  {
   "property": "C93",
   "status": "partial",
   "theorems": [
    "Verif.Props.Digest.C93_chunks_partial",
    "Verif.Props.Digest.C93_chunk_fails",
    "Verif.Props.Digest.C93_last_object_wrong"
   ],
   "note": "Equality with the undivided PIT distribution holds for lossless digests if the PIT object of every chunk can be constructed. Missing because the code violates it: a chunk of one object raises TypeError and a chunk of equal PIT values IndexError, although the undivided evaluation succeeds."
  },
  {
   "property": "C94",
   "status": "partial",
   "theorems": [
    "Verif.Props.Inspect.C94_length_partial",
    "Verif.Props.Inspect.C94_length_of_read",
    "Verif.Props.Inspect.C94_metadata",
    "Verif.Props.Inspect.C94_no_data",
    "Verif.Props.Inspect.C94_flat_parameters_wrong"
   ],
   "note": "The file length agrees with the number of PDFs for all row classes (any history of operations) and the metadata read alone with what reading the ensemble uses. False for analytic classes made from flat parameter arrays (one PDF shape, several rows reported)."
  },
  {
   "property": "C95",
   "status": "partial",
   "theorems": [
    "Verif.Props.SparseEns.C95_cut_not_stored",
    "Verif.Props.SparseEns.C95_selection_partial",
    "Verif.Props.SparseEns.C95_cut_forgotten",
    "Verif.Props.SparseEns.C95_normal_wrong"
   ],
   "note": "Proved for ensembles made with the default cut (any profile and norm, increasing points). Another cut is not among the stored data, so selections use the default: for every profile between the two cuts the density changes (C95_cut_forgotten, with a normal profile C95_normal_wrong)."
  },
  {
   "property": "C96",
   "status": "partial",
   "theorems": [
    "Verif.Props.Freeze.C96_two_passes",
    "Verif.Props.Freeze.C96_flag_ignored",
    "Verif.Props.Freeze.C96_quant_keeps_partial",
    "Verif.Props.Freeze.C96_unchecked_changed",
    "Verif.Props.Freeze.C96_one_point_refused"
   ],
   "note": "Holds for quantiles, which record the flag. For histograms, interpolated (common, per-row, packed) and sparse PDFs the object is built a second time with input checking on when it is frozen: the flag has no effect (proved for all arguments), so unchecked heights are normalised. C96_two_passes also shows that the one-pass model of the constructors used elsewhere is what the two passes give."
  },
  {
   "property": "C97",
   "status": "partial",
   "theorems": [
    "Verif.Props.Sampling.C97_samples",
    "Verif.Props.Sampling.C97_not_sampled",
    "Verif.Props.Sampling.C97_hist",
    "Verif.Props.Sampling.C97_hist_law",
    "Verif.Props.Sampling.C97_hist_made",
    "Verif.Props.Sampling.C97_irregular",
    "Verif.Props.Sampling.C97_interp_partial",
    "Verif.Props.SamplingMore.C97_interp_cells_partial",
    "Verif.Props.SamplingMore.C97_interp_density_wrong",
    "Verif.Props.SamplingMore.C97_packed_partial",
    "Verif.Props.SamplingMore.C97_quant_partial",
    "Verif.Props.SamplingMore.C97_quant_wrong",
    "Verif.Props.SamplingMore.C97_independent"
   ],
   "note": "Which PDF and draw each sample comes from, for all shapes; samples of histograms have the density of the ensemble (equality of measures), samples of irregularly interpolated PDFs the CDF. Partial: interpolated PDFs follow the CDF of the ensemble, which has an atom at the first grid point (C13), so that point is drawn with positive probability; each cell of an interpolated or packed grid gets its probability, but inside a cell the samples do not follow the density (C97_interp_density_wrong). Quantile PDFs: the stored locations are quantiles of the samples if the PPF does not decrease, otherwise not (C97_quant_wrong). Independent draws give independent samples. rvs() without size and nested ensembles raise (proved). Generator and uniformity of the draws are assumed; spline and analytic classes not covered (scipy's own rvs)."
  },
  {
   "property": "C98",
   "status": "partial",
   "theorems": [
    "Verif.Props.SampleConvert.C98_hist_partial",
    "Verif.Props.SampleConvert.C98_mix",
    "Verif.Props.SampleConvert.C98_spline",
    "Verif.Props.SampleConvert.C98_refused",
    "Verif.Props.SampleConvert.C98_hist_unbiased"
   ],
   "note": "For every shape with one index, every number of samples and all draws each PDF of the result is made from its own samples (histogram counts, fitted mixture, kernel density spline). Missing because the code violates it: nested ensembles and mixtures raise ValueError (C98_refused), histograms with as many bins as PDFs raise unless that is also the number of samples (C59). The fit of scikit-learn is an arbitrary function."
  },
  {
   "property": "C99",
   "status": "partial",
   "theorems": [
    "Verif.Props.MetricObjects.C99_refused",
    "Verif.Props.MetricObjects.C99_settings_partial",
    "Verif.Props.MetricObjects.C99_ignored",
    "Verif.Props.MetricObjects.C99_matters",
    "Verif.Props.MetricObjects.C99_misspelt",
    "Verif.Props.MetricObjects.C99_evaluate_real",
    "Verif.Props.MetricObjects.C99_evaluate",
    "Verif.Props.MetricObjects.C99_outlier",
    "Verif.Props.MetricObjects.C99_kld_direction"
   ],
   "note": "For every metric class and all keyword arguments: which settings the object keeps, exactly when the constructor raises, and that evaluation uses the chosen settings (divergence, error, moment, Brier score, outlier rate). Missing because the code violates it: thirteen of sixteen classes drop keywords they do not know without an error (C99_misspelt, for all of them); the divergence object hands the estimate over in the role documented for the truth (C99_kld_direction)."
  }
 ]
}