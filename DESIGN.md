# Formal model of qp in Lean 4: design and trusted base

## 1. Layout

* `properties.jsonl`: the properties, in terms of the public API (generated by `tools/mkprops.py`).
* `MANIFEST.json`: which theorems settle which property (generated by `tools/mkmanifest.py` from `tools/claims.py`).
* `AXIOMS.md`: the axioms of every theorem named in the manifest (output of `#print axioms`, collected by `tools/mkaxioms.py`).
* `lean/Verif/Np/*`: the numpy primitives that the modelled code calls.
* `lean/Verif/Model/*`: the functions of qp, one definition per function, each citing file and lines of `/repo`.
* `lean/Verif/Spec/*`: specifications shared by several properties (reachable ensembles, tables, histories).
* `lean/Verif/Lemmas/*`: helper lemmas, no property statement.
* `lean/Verif/Props/*`: the remaining specifications and the property theorems, each with an `example` (or a `_wrong` theorem) that shows its
  hypotheses met by a concrete case.
* `lean/Verif/Ex/*`: further concrete cases that take longer to check.
* `seeded/LOG.jsonl`: deliberately broken models and the theorems that noticed.

A theorem is called `Cnn_...` after its property. `_partial` marks theorems that need a condition which the property does not grant; in
almost all cases the code violates the property without it, and a `_wrong`/`_fails` theorem beside it proves that with a concrete case.
`_exact` and `_iff` theorems describe completely what the code does, including where it differs from the property.

## 2. Numbers, failure, state

* Floating point numbers are elements of an arbitrary linearly ordered field `K` (the theorems hold for `ℚ`, `ℝ`, ...), or of `ℝ` where
  logarithms, roots, powers or integrals occur. *Rounding is modelled only in `Model/Rounding.lean`* (C120-C123:
  normalisation, PDF and CDF of histograms, interpolated PDFs and mixtures, bin lookup), as an arbitrary function `fl` after each operation that is monotone, idempotent and has a
  bounded relative error; doubles without overflow and underflow are one such function. Sums may be added in any order and bracketing. Everywhere else numbers are
  exact. Overflow, underflow and signed zeros are not modelled, except in files: `Model/DTypes.lean` (C124, C125) models the element types of the data sets (floats with
  gradual underflow and a largest number, integers, byte strings) and the conversion on assignment. Constants in tolerance tests
  (`np.allclose`, `epsilon`) are the rationals written in the code.
* Results that numpy reports as `nan` are `none`; no theorem gets its truth from `x / 0 = 0`.
* Python exceptions are values of `Except Err`. `Err.Unmodelled` marks inputs that the model does not follow; no theorem reports it as a success.
* An operation on a mutable object returns the new state together with the outcome, so that partial updates before an exception are visible.
  Histories are lists of operations; invariants are proved by induction over them.
* Arrays of rank 0..n are a shape and row-major data (`Np/Arr.lean`); strides and views are not modelled, except where aliasing
  is the subject (`State.lean`, `Sharing.lean`, the iterator in `Tables.lean`); element types only for data sets of files (`DTypes.lean`) and for the padding of quantiles (`QuantTypes.lean`).
* Ensembles of the eight row classes (`RowKind`: hist, interp, irregular interp, mixmod, quantiles, packed, spline, sparse) are those reached from
  plain constructor arguments by any history of selections, updates, concatenations and writing and reading (`Spec.Reach`). Analytic classes have
  their own theorems.

## 3. Trusted base

* The Lean 4.33.0 kernel, and the axioms `propext`, `Classical.choice`, `Quot.sound` (`AXIOMS.md` lists them for each theorem). No axioms of our own, no
  `sorry`, no `native_decide`, no `bv_decide`.
* The reading of the Python source recorded in the comments of the definitions.
* The behaviour of the libraries, recalled from their sources and documentation (they are not installed here):

| library | taken to be |
|---|---|
| `np.interp`, `interp1d(kind="linear")` | `Np/Interp.lean` (sorted knots) |
| `interp1d(kind="quadratic"/"cubic")` | quadratic: the spline itself (`quadSpline`; scipy's banded system has exactly one solution, `C139_unique`, so only the choice of the break points is trusted); theorems that hold for any function through the knots are stated so; cubic, and `InterpolatedUnivariateSpline(k=3)`: the spline itself (`cubSpline`, `C140_unique`; trusted: the break points, every point except the second and the last but one) |
| `np.unique`, `searchsorted`, `allclose`, `isclose`, `argmax`, `round`, `histogram`, `linspace`, `percentile`, `quantile`, `median`, `place`, casts to `uint8` | executable definitions in `Np/*` and the `Model` file that uses them |
| `np.vectorize(signature=...)` | bracketed digits are dimension *names* |
| `scipy.stats.rv_continuous.pdf/cdf/ppf/isf/sf/logpdf/logcdf/logsf/median/interval/moment/mean/var/std/stats/entropy` | `EvalCase.lean`, `Front.lean`, `Logs.lean`, `Scipy.lean`, `Stats.lean`, `StatsReal.lean`, `Entropy.lean`, `Analytic.lean`: broadcast, `argsreduce`, call the class once, `np.place`; support -inf..inf |
| freezing (`rv_frozen.__init__`) | keeps `dist.__class__(**dist._updated_ctor_param())`, a second object (`Freeze.lean`; proved equal to the one-pass model in `Classes.lean`) |
| `norm.pdf`, `norm.cdf` | the normal density and probability |
| `uniform`, `expon` | formulas of the standardised distribution without regard to the support; scipy's instances declare `a`, `b` in the constructor (`Analytic.lean`); other distributions are arbitrary formulas |
| `gaussian_kde` | one dimension, Scott's rule, from its source |
| FITPACK `splev`, `splint` | their algorithms (`Spline.lean`) |
| FITPACK `splrep` (degree 3, no smoothing) | `Splrep.lean`: knots as FITPACK chooses them (trusted), coefficients from the cubics of `cubSpline`; the linear system has exactly one solution (`C141_unique`). Fewer than four points and abscissae that do not increase (scipy raises) are not modelled |
| `integrate.quad` | the exact integral |
| `minimize_scalar` | any function returning a local minimum, or a point within its bounds |
| `kstest`, `cramervonmises` | the statistic, from the source; p-values not modelled |
| `anderson_ksamp` | the statistic, modelled from scipy's source (`Model/AndersonKs.lean`); critical values and p-value are not modelled |
| `pytdigest` | a parameter `DigestLib`; theorems state what they need of it (`Lossless`) |
| `tables_io`, `h5py` | return the tables they were given, assign rows of data sets, converting to the type of the data set without an error (`DTypes.lean`); `data_ranges_by_rank` and `getGroupInputDataLength` from their documentation |
| `voigt_profile` | an arbitrary function |
| `solve_triangular`, `cho_solve` | forward and back substitution (`Cholesky.lean`); `overwrite_b=True` writes the solution into its argument, which the code relies on |
| matplotlib `axes.plot`, `axes.hist` | `Plot.lean`: first axes must agree, one curve per column, unknown keyword arguments refused; weights summed over bins |
| random samples | arguments; uniform on the unit interval where a distribution is stated; the size test `_argcheck_rvs` in `Sampling.lean`; where they come from (`check_random_state`, arrays filled row after row) in `Random.lean` |

### Modelled parts of /repo/src/qp

| file | model |
|---|---|
| `utils.py` | `EvalCase`, `Bins`, `Shapes`, `InterpPdf`, `Kde`, `MetricsReal` |
| `hist_pdf.py`, `interp_pdf.py`, `mixmod_pdf.py`, `quant_pdf.py`, `quantile_pdf_constructors/*`, `packed_interp_pdf.py`, `packing_utils.py`, `spline_pdf.py`, `sparse_pdf.py`, `sparse_rep.py` | `Cholesky`, `Hist`, `InterpPdf`, `Mixmod`, `MixReal`, `Quant`, `QuantEval`, `QuantPdfEval`, `QuadSpline`, `CubicSpline`, `Splrep`, `SplrepReal`, `QuantSpline`, `PackedPdf`, `Packing`, `Spline`, `SplineReal`, `Sparse`, `SparsePdf`, `SparseGrid`, `Classes`, `Freeze`, `SparseEns`, `SparseTable`, `Mismatch`, `Alloc` |
| `pdf_gen.py`, `ensemble.py`, `dict_utils.py` | `Dict`, `Ensemble`, `State`, `Sharing`, `EnsEval`, `EnsCurves`, `EnsCurvesReal`, `Front`, `Scipy`, `Shapes`, `Stats`, `StatsReal`, `Entropy`, `Sampling` |
| `factory.py` | `Registry`, `Tables`, `H5`, `DTypes`, `Convert`, `Analytic` |
| `conversion_funcs.py` | `Convert`, `SampleConvert`, `Random`, `SparseGrid` |
| `plotting.py` (43-263) and the methods that call it | `Plot` |
| tables made on demand (`hist_pdf.py` 65-130, `interp_pdf.py` 76-144 and 274-334, `packed_interp_pdf.py` 93-203) | `Lazy` |
| the same with rounding: `hist_pdf.py` 66-117, `interp_pdf.py` 97-130 and 289-297, `mixmod_pdf.py` 63-117, `utils.py` 80-95 | `Rounding` |
| `test_funcs.py` | `SelfTest` (the tests of distributions and of conversions) |
| `metrics/*` | `Metrics`, `MetricsReal`, `Moments`, `PointStats`, `Pit`, `NestedPit`, `PitMeta`, `Gof`, `MetricRegistry`, `MetricObjects`, `Declared`, `Rbpe`, `Digest` |

Not modelled: colours, the test data (`test_data.py` and of the classes), the tests of files and plots in `test_funcs.py`, the EM fit of
`extract_mixmod_fit_samples` (an arbitrary function), `extract_voigt_mixmod`, `extract_voigt_xy`, p-values, t-digest
internals, MPI itself, element types in memory and file formats.

## 4. Where the code differs from the properties

Each line is proved by the theorem named; the `_partial`/`_exact`/`_iff` theorems of the same property say what does hold.

| id | what happens | theorem |
|----|--------------|---------|
| C01, C04 | points shared by all PDFs, or points factored into a product, are evaluated in sorted order: unsorted points get each other's values | `C01_unsorted_points_wrong`, `C04_depends_on_other_points` |
| C05, C06 | bins narrower than or differing by less than the tolerance of `allclose` count as uniform and are looked up wrongly; only points within the sum of the tolerances of an edge can be affected (`C05_away_from_edges`) | `C05_tiny_bins_wrong`, `C05_near_uniform_wrong`, `C06_tiny_bins_wrong` |
| C10 | `ppf(0)`, `ppf(1)` are -inf, inf | `C10_ppf_ends_infinite` |
| C11, C16, C89 | moments: wrong for unequal bins, second moment too small by w²/12 (hist) or w²/6 (interp), ends not zero | `C11_nonuniform_wrong`, `C16_moment0_wrong`, `C89_mean_and_variance_wrong` |
| C105 | a negative variance (interpolated PDFs on coarse grids) makes `std()` and the skewness nan; the kurtosis is a number if asked for alone and nan together with the skewness | `C105_negative_variance` |
| C107 | the greedy search stops when the best function does not overlap with the PDF itself, although it would reduce the error | `C107_stops_early` |
| C109 | several PDFs cannot be plotted at once: `ValueError`, or a jumble when there are as many points as PDFs | `C109_several`, `C109_transposed` |
| C109 | axis labels given for a new figure are also handed to the curve, which refuses them | `C109_label` |
| C109 | a range of more than two numbers: the curve ends at the second | `C109_long_range` |
| C111 | the Brier score compares densities with 0/1 indicators, so the true density has the best score only if the grid spacing is one | `C111_brier_true_density`, `C111_brier_improper` |
| C112 | PIT values of interpolated PDFs are not uniform even if the PDFs are right, since the CDF is not the integral of the density between grid points | `C112_interp_not_uniform` |
| C114 | conversion to the sparse class depends on the other PDFs of the ensemble; on a grid that is not increasing so do the other conversions | `C114_sparse_differs`, `C114_unsorted_differs` |
| C116 | unequal bins are looked up wrongly in units in which they are narrower than 1e-8; the mean of an interpolated PDF does not shift with the grid | `C116_small_units_wrong`, `C116_interp_mean_wrong` |
| C117 | the Brier score can prefer another prediction when the units are changed; the KL divergence depends on the units where densities are clipped | `C117_brier_wrong`, `C117_kld_wrong` |
| C120 | in doubles the CDF of a histogram can exceed 1 and decrease by one unit in the last place | `C120_cdf_decreases` |
| C121 | in doubles an interpolated PDF can be negative next to a grid point with ordinate zero; on irregular grids the masses can cancel completely, and the CDF can exceed 1 and decrease | `C121_pdf_negative`, `C121_irregular_cancels`, `C121_irregular_cdf_decreases` |
| C122 | in doubles the stored weights of a mixture can add up to more than 1, and so can the CDF | `C122_cdf_above_one` |
| C123 | in doubles edges such as those of `linspace(1, 2, 11)` are looked up in the bin to their left, and the last edge counts as inside | `C123_edge_wrong` |
| C124 | written in chunks: later names longer than those of the allocating ensemble are cut off; fractions are lost when it holds integers | `C124_names_cut`, `C124_fractions_lost` |
| C125 | per-PDF grids and quantile locations far from zero (dates) coincide in single precision; the row becomes non-finite | `C125_locations_coincide` |
| C126 | a selection by a slice shares its ancillary columns, and the arrays that are not normalised, with the ensemble it was taken from: writing into the selection's column writes into the other's | `C126_slice_shares`, `C126_slice_writes_parent` |
| C126 | `set_ancil` and the constructor keep the caller's dictionary and `add_to_ancil` writes into it: all ensembles given the same dictionary change | `C126_add_to_ancil`, `C126_set_ancil_keeps` |
| C127 | values that are not distributions are accepted: text as coefficients of splines, negative heights, decreasing edges, all-zero rows (stored as nan), quantile locations in the wrong order | `C127_accepts_invalid` |
| C109 | marks and curve of a quantile plot carry the same label (the label meant for the curve is never used), and line properties cannot be chosen | `C109_quant_native`, `C109_quant_properties` |
| C128 | after writing into the object data in place, densities follow but CDFs and PPFs keep the table made at the first evaluation; common grids never follow, packed PDFs not even in their densities; with edges written in place the CDF keeps the old widths | `C128_hist_stale`, `C128_hist_edges`, `C128_interp_stale`, `C128_packed_stale`, `C128_table_fixed` |
| C130 | a grid point added on the line between its neighbours changes the CDF between the grid points; with a grid per PDF it changes the normalisation and so the density | `C130_interp_cdf_changes`, `C130_irregular_changes` |
| C130 | the reported mean of a histogram changes when a bin is divided | `C130_hist_moment_changes` |
| C130 | zeros added around a PDF whose values are all below 10^(2 log_floor) are packed logarithmically like its largest values (see C26) | `C130_log_pack_small_changes` |
| C130 | the reported moments of an interpolated PDF change when a point of value zero is added below with another spacing (the width of the first cell multiplies the sum) | `C130_interp_moment_changes` |
| C130 | a component of weight zero changes the PPF of a mixture (the grid of the PPF covers all components) | `C130_zero_weight_ppf_changes` |
| C131 | mirrored PDFs: the CDF of an interpolated PDF is not mirrored at the ends of its grid; with a grid per PDF a PDF can be normalised while its mirror image cannot; means of histograms with bins of different widths are not mirrored | `C131_interp_ends_not_mirrored`, `C131_irregular_not_mirrored`, `C131_hist_mean_not_mirrored` |
| C133 | The density of a quantile PDF (default reconstruction) jumps at the first and last midpoint of the locations: an arbitrarily small shift of a location takes it from 1/2 to 0 there | `C133_quant_pdf_jumps` |
| C133 | The other three reconstructions jump in the same way: at the first and last location (spline derivative), at the first two and last two locations (average of two splines), at the midpoints (piecewise constant) | `C133_quant_spline_pdf_jumps`, `C133_quant_dual_jumps`, `C133_quant_constant_jumps` |
| C133 | The outlier rate is not continuous: five objects, one residual moved by an arbitrarily small amount, rate changes from 0 to 1/5 (threshold 0.06) | `C133_outlier_rate_jumps` |
| C134 | Reported means of interpolated PDFs are not ordered like the PDFs: uniform on [0,2] and the triangle above it, three grid points, means 3/2 and 1 although the first CDF is nowhere below | `C134_interp_mean_wrong` |
| C109 | the native plot of several PDFs with their own grids draws curves that join points of different PDFs, without an exception; for several splines it raises | `C109_irr_several_wrong`, `C109_spline_native` |
| C109 | native plots of interpolated PDFs and histograms refuse the number of points that `plot` takes | `C109_native_npts` |
| C135 | samples: the curve goes to the current axes, not those given; `npoints` is refused; with `lw` or `linestyle` an exception after the marks are drawn | `C135_other_axes_wrong`, `C135_npoints_wrong`, `C135_properties_wrong` |
| C136 | through a histogram with unequal bins the second histogram differs from the direct one | `C136_unequal_wrong` |
| C91 | a spline through positive kernel densities can have a negative integral; the PDF made from it is negative at all abscissae | `C91_negative_wrong`, `C91_sign` |
| C134 | quantile-parameterised PDFs: ordered CDFs or ordered locations with disordered quartiles | `C134_quant_wrong`, `C134_quant_between_wrong` |
| C138 | in doubles a quantile of a histogram can lie right of the last edge, and a larger probability can give a smaller quantile; with a grid per PDF the quantile for a probability next to 1 can be the largest grid point of *another* PDF | `C138_hist_outside`, `C138_hist_decreases`, `C138_irregular_elsewhere` |
| C141 | spline PDFs from samples at the abscissae 0, 1, 2, 12 can be negative at all abscissae, with scipy's spline itself | `C91_splrep_wrong` |
| C142 | Converting a density that is never negative can give a spline PDF that is negative between two abscissae, with a CDF that decreases there | `C142_negative_wrong` |
| C143 | the Anderson-Darling statistic of the PIT exists for two or more values, is a weighted distance of distribution functions, smallest exactly for equally spaced values; a single PIT value raises `IndexError` | `C143_pit`, `C143_too_few`, `C143_distance`, `C143_errors`, `C143_order`, `C143_ranks`, `C143_mirror`, `C143_pit_order` |
| C145 | tables of different sizes are accepted: one weight for n components gives a density that integrates to n; other sizes fail at the first evaluation | `C145_one_weight_integral`, `C145_mix_partial`, `C145_spline` |
| C146 | the Brier score on finer grids grows without limit; resolution times score approaches the mean integral of the squared densities, whatever the truth | `C146_brier_diverges`, `C146_brier_partial` |
| C146 | divergences of an ensemble, one of them negative over the limits: on all fine grids every PDF gets the machine epsilon | `C146_kld_negative` |
| C146 | zeroth moment of a uniform density is n / (n - 1) on a grid of n points, never one | `C146_moment_uniform` |
| C148 | two normalised PDFs that nowhere differ by more than 1/10 and agree at 0, converted to interpolated PDFs on every other point of their grid, differ by 1/6 at 0: the normalisation of what little the coarse grid sees moves them apart (histograms in the same equal bins never move apart) | `C148_interp_larger`, `C148_hist` |
| C153 | double-precision locations become single precision when single-precision probabilities are completed with 0 or 1; close locations coincide | `C153_coincide` |
| C155 | a single true value is silently used for all PDFs (point metrics, PIT, CDE loss), a single PDF for all true values | `C155_point_partial`, `C155_pit`, `C155_cde` |
| C156 | shape (n, 1): the PIT evaluates every PDF at every true value; the CDE loss is wrong when all true values are next to the first grid point | `C156_pit_wrong`, `C156_cde_wrong` |
| C157 | the generic tests for new classes never compare `isf`, accept densities wrong by a fifth, and on fine grids accept every conversion | `C157_isf_unchecked`, `C157_scaled_density`, `C157_histogram_test_blind`, `C157_conversion_one_for_all` |
| C158 | `random_state` is ignored by the conversions to `hist` and `spline` with samples; for `mixmod` it does not reach the start of the fit; with one integer seed for every part, the parts of an ensemble get the same random numbers | `C158_hist_ignores`, `C158_hist_not_repeated`, `C158_spline_ignores`, `C158_mixture_start`, `C158_parts_seed` |
| C159 | the goodness of fit declares one value per distribution, but with one sample per PDF and one reference it gives a single value, that of all samples together | `C159_one_sample` |
| C13, C14 | the CDF at the first grid point is the first density | `C13_first_point_wrong`, `C14_small_probability_wrong` |
| C17 | irregular grids: the density does not integrate to one | `C17_integral_wrong` |
| C19, C20 | quantile CDF not monotone; constant and dual spline reconstructions negative | `C19_not_a_cdf`, `C20_constant_negative`, `C20_dual_spline_negative` |
| C21 | spline reconstructions return the first PDF in every row | `C21_spline_rows_wrong` |
| C24, C90 | mixture quantiles: wrong mixture for repeated probabilities, failures when rows are masked or sampled, accuracy depends on the other PDFs | `C24_repeated_probability_wrong`, `C24_masked_rows_fail`, `C24_sampling_fails`, `C90_quantiles_wrong` |
| C26 | log packing loses values just above the floor and inflates small rows | `C26_above_floor_lost`, `C26_small_rows_wrong` |
| C28, C30, C31 | sparse codes: indices from 65536 are lost, the dictionary stays permuted after a row, the first weight is forced to one | `C28_index_overflow`, `C30_neighbour_changes_encoding`, `C31_first_weight_wrong` |
| C32, C33, C41 | empty selections raise; ancillary columns with several numbers raise for integer keys, lists are not selected; scalar parameters never end an iteration | `C32_empty_selection_fails`, `C33_*`, `C41_*` |
| C34, C36 | splines from points cannot be concatenated; acceptance of metadata up to `isclose` merges unequal grids | `C34_spline_xy_fails`, `C36_small_grids_merged`, `C36_order_matters` |
| C37-C39 | an update that raises has already replaced the PDFs; cached grids go stale | `C37_failed_update_breaks`, `C38_stale_*` |
| C40 | changing the abscissae of irregular grids renormalises the ordinates | `C40_irregular_changes` |
| C42-C44 | single PDFs without leading axis raise; nested shapes take the maximum along the wrong axis | `C42_single_pdf_fails`, `C43_nested_wrong`, `C44_single_pdf_fails` |
| C45, C46 | selections evaluated at unsorted points differ; nested shapes and flat analytic parameters do not survive writing | `C45_unsorted_differs`, `C46_*` |
| C47 | names with a slash break `read_dict` | `C47_slash_fails` |
| C48, C49 | items of the iterator share their ancillary data; empty instead of none | `C49_ancil_overwritten`, `C48_without_ancil_partial` |
| C51, C52 | a crash within the finalisation leaves a file that passes `is_qp_file` but cannot be read; scalar names count as absent | `C51_interrupted_finalisation`, `C52_scalar_name` |
| C53 | allocation differs from what is written: padded quantiles, splines, sparse codes | `C53_quant_wrong`, `C53_spline_wrong`, `C53_sparse_wrong` |
| C56 | a missing creation method raises TypeError or KeyError depending on the entry point; a misspelt method falls back to the default | `C56_no_creation_differs` |
| C57, C58 | bin masses are used as densities: wrong for unequal bins | `C57_unequal_bins_wrong`, `C58_unequal_bins_wrong` |
| C59 | histogramming samples fails when the number of PDFs equals the number of bins | `C59_size_collision_wrong` |
| C60 | reversed limits are accepted | `C60_reversed_wrong` |
| C63 | Brier score of a chunk with one PDF raises | `C63_single_fails` |
| C64 | one PDF with several true values is broadcast | `C64_broadcast_differs` |
| C65 | chunk-wise evaluation keeps the last chunk only | `C65_drops_chunks` |
| C66 | Kolmogorov-Smirnov distance misses jumps of the reference | `C66_jump_wrong` |
| C68 | one PDF with negative sum replaces the values of all | `C68_depends_on_others` |
| C70 | two entry points for moments use different step widths | `C70_differs` |
| C73, C86, C93 | PIT: one object raises TypeError, equal values IndexError, none inside (0,1) ValueError; end levels stay in | `C73_few_objects`, `C73_end_levels`, `C86_constant`, `C93_chunk_fails` |
| C74 | a failed size check is only logged; one sample per PDF mixes PDFs | `C74_mismatch_accepted`, `C74_one_sample_wrong` |
| C75 | a subclass inheriting a metric's name replaces its parent; registry not refreshed | `C75_inherited_wrong`, `C75_stale` |
| C77 | without normalisation the inverse CDF of irregular grids would be filled from other rows | `C77_unnormalised_wrong` |
| C80 | `isf` of increasing shared probabilities returns reversed rows | `C80_isf_reversed` |
| C81, C82 | spline PDFs are continued outside their knots; rows with different ranges are not normalised | `C81_outside_wrong`, `C82_wrong` |
| C83, C95 | the sparse class keeps negative densities that decoding cuts; another cut than the default is forgotten | `C83_negative_wrong`, `C95_cut_forgotten` |
| C84 | a single probability raises IndexError | `C84_one_quantile` |
| C87 | the sparse grid cuts the last segment | `C87_half_lost_wrong` |
| C92 | digests: equal residuals raise IndexError | `C92_constant_index_error`, `C92_perfect_estimates_wrong` |
| C94 | flat analytic parameters: the file reports another length than the ensemble | `C94_flat_parameters_wrong` |
| C96 | `check_input=False` has no effect except for quantiles: freezing builds the object again with the default | `C96_flag_ignored`, `C96_unchecked_changed` |
| C97 | `ens.rvs()` without a size always raises, nested ensembles cannot be sampled; interpolated PDFs draw their first grid point with positive probability and do not follow the density inside a cell; samples of quantile PDFs can exceed the location of the quantile 1 | `C97_not_sampled`, `C97_interp_partial`, `C97_interp_density_wrong`, `C97_quant_wrong` |
| C98 | mixtures and nested ensembles cannot be converted through samples | `C98_refused` |
| C99 | thirteen metric classes drop unknown keywords, so a misspelt setting leaves the default in force | `C99_misspelt` |
| C99 | the divergence object passes the estimate in the role documented for the truth | `C99_kld_direction` |
| C100 | densities of quantile ensembles do not integrate to one: below one for locations at equal distances, unbounded otherwise | `C100_linear_even`, `C100_linear_unbounded`, `C100_constant_even` |
| C101 | `logpdf` is `nan` where a spline reconstruction has a negative density | `C101_nan` |
| C102 | the density from the derivative of the spline can be negative between valid quantiles | `C102_negative` |
| C102 | the average of two splines has total probability (N-2)/(N-1) for N (even) quantiles of a uniform distribution | `C102_dual_uniform` |
| C103 | the wrapped scipy classes lose the ends of the support given to scipy's constructor: `qp.stats.uniform` has density 1/scale everywhere and an unbounded CDF, `qp.stats.expon` grows without bound on the left | `C103_uniform_wrong`, `C103_expon_wrong`, `C103_pdf_iff` |

All partial claims fail in the code for some of the inputs they quantify over; what holds for the rest is
proved and the failing inputs are named. Where several things are wrong with the arguments of a constructor at once, the model does not
always follow which exception comes first; the theorems of C127 say which exception is raised when one thing is wrong.

## 5. Checking the theorems against wrong programs

`seeded/LOG.jsonl` lists edits of the model (wrong boundary, missed case, swapped argument, dropped update, ...), the claim each breaks, the theorems that
no longer prove, and the theorems that were tightened when an edit went unnoticed. In the course of this C19_knots turned out to have
hypotheses that no interpolant meets and was restated, and theorems were added for the quantile functions of histograms and irregular grids, the
encoding of metadata columns and the expansion of one-dimensional abscissae.

Entries whose note begins with "Method:" were made without a rebuild: the edited definitions were copied over the rationals and sampled instances of the
theorem were decided by the kernel. There, `failed` lists theorems that are false, or whose example no longer meets the hypotheses; an empty list means no
sampled instance was false, not that the theorem was rebuilt and survived.
