{"id": "C01", "title": "Shared-grid evaluation returns the value asked for", "statement": "For an ensemble of n PDFs and a 1-D list of points x, ens.pdf(x)[i][j] (likewise cdf, ppf) is the value of the i-th PDF at x[j], whatever the order or multiplicity of the points in x.", "quantifier": "every ensemble size, every list of points in any order, every family of per-row functions", "why_tests_cant": "The answer depends on an order-sensitive shape heuristic (the number of distinct points times the number of distinct rows); tests use sorted grids only, so no finite set of grids covers the orderings.", "anchors": ["src/qp/utils.py:get_eval_case", "src/qp/utils.py:interpolate_x_multi_y", "src/qp/utils.py:evaluate_hist_x_multi_y", "src/qp/pdf_gen.py:rv_frozen_rows"]}
{"id": "C02", "title": "One point per PDF is evaluated on its own PDF", "statement": "When one point per PDF is supplied (x of shape (n,1)), entry i of the answer is the i-th PDF at x[i], also when some or all points coincide.", "quantifier": "every n, every list of n points with arbitrary coincidences", "why_tests_cant": "Which code path is taken depends on how many points coincide; a test fixes one pattern of coincidences.", "anchors": ["src/qp/utils.py:get_eval_case", "src/qp/metrics/pit.py:PIT._gather_pit_samples"]}
{"id": "C03", "title": "Sampling transforms each uniform draw with its own PDF", "statement": "ens.rvs(size=m) applies the i-th PDF's inverse CDF to the i-th row of uniform draws: the sample (i,j) is the ppf of PDF i at the draw U[i][j].", "quantifier": "every ensemble size, every number of samples, every realisation of the random draws", "why_tests_cant": "Random draws are sampled by tests, and swapped rows are statistically invisible for similar PDFs.", "anchors": ["src/qp/pdf_gen.py:Pdf_rows_gen._rvs", "src/qp/ensemble.py:Ensemble.rvs", "src/qp/utils.py:interpolate_multi_x_y_2d", "src/qp/utils.py:get_eval_case"]}
{"id": "C04", "title": "Evaluation paths agree", "statement": "The flattened, factored, product and 2-D evaluation paths return the same number for the same (point, row) pair: the result for a pair never depends on which other points or rows are evaluated in the same call.", "quantifier": "every pair of calls that contain the same (point,row) pair", "why_tests_cant": "It is a relation between infinitely many calls; tests compare a handful of grids.", "anchors": ["src/qp/utils.py:get_eval_case", "src/qp/utils.py:evaluate_hist_x_multi_y_flat", "src/qp/utils.py:evaluate_hist_x_multi_y_product", "src/qp/utils.py:interpolate_x_multi_y_product"]}
{"id": "C05", "title": "Bin lookup finds the bin", "statement": "For strictly increasing bin edges and a point strictly inside bin i, the bin lookup returns i and flags the point as in range; points outside the edges are flagged out of range; the returned index is always a valid bin number.", "quantifier": "every strictly increasing list of edges (uniform or not), every real point", "why_tests_cant": "The algorithm switches on a floating tolerance test over all edges; tests use a few ordinary grids.", "anchors": ["src/qp/utils.py:get_bin_indices", "src/qp/utils.py:bin_widths"]}
{"id": "C06", "title": "Histogram PDF is the bin content inside and zero outside", "statement": "For a histogram PDF the density strictly inside bin i is the (normalised) content of bin i, and it is zero left of the first and right of the last edge.", "quantifier": "every edge list, every row of contents, every point", "why_tests_cant": "Continuum of points and unbounded number of bins, including the non-uniform binning path.", "anchors": ["src/qp/hist_pdf.py:hist_gen._pdf", "src/qp/utils.py:evaluate_hist_x_multi_y", "src/qp/utils.py:get_bin_indices"]}
{"id": "C07", "title": "Histogram construction normalises every PDF", "statement": "Constructing a histogram ensemble divides each row by its own total mass so that the sum of content times width is one; rescaling a row by a non-zero factor gives the same PDF; non-negative rows stay non-negative; constructing again from the stored contents changes nothing; a row with zero mass becomes non-finite rather than silently wrong.", "quantifier": "every edge list, every number of rows, every row of contents", "why_tests_cant": "Universally quantified algebraic law over arrays of any size.", "anchors": ["src/qp/hist_pdf.py:hist_gen.__init__", "src/qp/utils.py:bin_widths"]}
{"id": "C08", "title": "Histogram CDF is the integral of the PDF", "statement": "The histogram CDF is 0 up to the first edge, 1 from the last edge on, non-decreasing, between 0 and 1, and at any point x of bin i equals the mass of the earlier bins plus content_i times (x - left edge).", "quantifier": "every edge list, every non-negative row of positive mass, every pair of points", "why_tests_cant": "Monotonicity is a statement about all pairs of points.", "anchors": ["src/qp/hist_pdf.py:hist_gen._cdf", "src/qp/hist_pdf.py:hist_gen._compute_cdfs", "src/qp/utils.py:interpolate_x_multi_y"]}
{"id": "C09", "title": "Histogram PPF inverts the CDF", "statement": "For every q in [0,1], cdf(ppf(q)) = q, even when some bins are empty; ppf is non-decreasing and stays inside the histogram range; where all contents are positive ppf(cdf(x)) = x for x in range.", "quantifier": "every edge list, every non-negative row of positive mass, every q and x", "why_tests_cant": "Empty bins make the CDF flat, where interpolation is ill-conditioned; the tie-breaking rule matters for every pattern of empty bins.", "anchors": ["src/qp/hist_pdf.py:hist_gen._ppf", "src/qp/hist_pdf.py:hist_gen._cdf", "src/qp/utils.py:interpolate_multi_x_y"]}
{"id": "C10", "title": "PPF at probability 0 and 1 gives the ends of the range", "statement": "ens.ppf(0) is the first bin edge and ens.ppf(1) is the last bin edge of a histogram ensemble, as its documentation promises.", "quantifier": "every histogram ensemble", "why_tests_cant": "Interaction between a library front-end and the class; boundary probabilities are masked out before the class is called.", "anchors": ["src/qp/hist_pdf.py:hist_gen", "src/qp/pdf_gen.py:rv_frozen_rows"]}
{"id": "C11", "title": "Histogram moments are moments of the PDF", "statement": "The class's own moment of order 0 (custom_generic_moment; ens.moment(0) is answered by scipy) of a histogram PDF is 1 and moment(1) is its mean, i.e. the sum over bins of mass times bin centre; moment(2) is the integral of t squared times the density.", "quantifier": "every edge list (uniform or not), every row", "why_tests_cant": "The code uses one width for all bins, which is invisible on uniform test grids.", "anchors": ["src/qp/hist_pdf.py:hist_gen.custom_generic_moment", "src/qp/hist_pdf.py:hist_gen._munp", "src/qp/utils.py:edge_to_center"]}
{"id": "C12", "title": "Interpolated construction normalises every PDF", "statement": "Constructing an interpolated ensemble scales each row so that the integral of its piecewise-linear PDF over the grid is exactly one; constructing again from the stored values changes nothing; rescaling the input does not matter.", "quantifier": "every strictly increasing grid, every row of non-zero integral", "why_tests_cant": "Algebraic law over grids of any size.", "anchors": ["src/qp/interp_pdf.py:interp_gen.__init__", "src/qp/interp_pdf.py:interp_gen._compute_ycumul"]}
{"id": "C13", "title": "Interpolated CDF is a CDF and integrates the PDF", "statement": "The CDF of an interpolated PDF is non-decreasing, within [0,1], 0 below and 1 from the end of the grid on, and at every grid point equals the integral of the PDF up to that point.", "quantifier": "every grid, every non-negative row of positive integral, every pair of points", "why_tests_cant": "A statement about every grid index of every grid; the first index is special.", "anchors": ["src/qp/interp_pdf.py:interp_gen._cdf", "src/qp/interp_pdf.py:interp_gen._compute_ycumul"]}
{"id": "C14", "title": "Interpolated PPF and CDF are mutually inverse", "statement": "For every probability q in [0,1], cdf(ppf(q)) = q for an interpolated PDF; ppf is non-decreasing and stays in the grid.", "quantifier": "every grid, every non-negative row of positive integral, every q", "why_tests_cant": "All probabilities, including those below the first cumulative value.", "anchors": ["src/qp/interp_pdf.py:interp_gen._ppf", "src/qp/interp_pdf.py:interp_gen._cdf", "src/qp/utils.py:interpolate_multi_x_y"]}
{"id": "C15", "title": "Interpolated PDF passes through its points", "statement": "An interpolated PDF returns exactly the stored value at every grid point, lies between the two neighbouring stored values in between, is zero outside the grid and never negative when the stored values are not.", "quantifier": "every grid, every row, every point", "why_tests_cant": "Continuum of evaluation points.", "anchors": ["src/qp/interp_pdf.py:interp_gen._pdf", "src/qp/utils.py:interpolate_x_multi_y"]}
{"id": "C16", "title": "Interpolated moments", "statement": "moment(1) and moment(2) of an interpolated PDF are the integrals of t and t squared times the density; the class's own moment of order 0 (custom_generic_moment; ens.moment(0) is answered by scipy) is 1.", "quantifier": "every grid and row", "why_tests_cant": "The code uses a rectangle rule; agreement in tests is up to tolerance on PDFs vanishing at the ends.", "anchors": ["src/qp/interp_pdf.py:interp_gen.custom_generic_moment", "src/qp/interp_pdf.py:interp_gen._munp"]}
{"id": "C17", "title": "Irregular-grid PDFs are normalised with a proper CDF", "statement": "For PDFs with per-row grids, the stored PDF integrates to one over its grid, and the CDF is non-decreasing from 0 at the first to 1 at the last grid point.", "quantifier": "every set of per-row grids and values", "why_tests_cant": "Rule-dependent quadrature: a tolerance test on smooth PDFs cannot separate the rules.", "anchors": ["src/qp/interp_pdf.py:interp_irregular_gen.__init__", "src/qp/interp_pdf.py:interp_irregular_gen._compute_ycumul", "src/qp/utils.py:normalize_interp1d"]}
{"id": "C18", "title": "Quantile padding", "statement": "Padding a quantile parametrisation makes the quantiles run from (numerically) 0 to 1, keeps all given (quantile, location) pairs in order, keeps the quantiles and each row of locations strictly increasing, and is idempotent (so slicing, appending or re-reading a quantile ensemble never pads twice).", "quantifier": "every increasing list of quantiles (length at least 2) in [0,1], every row of increasing locations", "why_tests_cant": "Four branches times unbounded lengths, and a fixpoint law.", "anchors": ["src/qp/quant_pdf.py:pad_quantiles", "src/qp/quant_pdf.py:quant_gen.__init__"]}
{"id": "C19", "title": "Quantile CDF is a CDF", "statement": "The CDF of a quantile PDF reproduces the given quantiles at the given locations, is non-decreasing and stays in [0,1].", "quantifier": "every quantile parametrisation, every point", "why_tests_cant": "Overshoot of the interpolant happens between the knots for particular spacings.", "anchors": ["src/qp/quant_pdf.py:quant_gen._cdf", "src/qp/quant_pdf.py:quant_gen._ppf"]}
{"id": "C20", "title": "Quantile PDFs are never negative", "statement": "Every PDF reconstruction offered for quantile ensembles (piecewise linear, piecewise constant, dual spline) gives non-negative densities.", "quantifier": "every quantile parametrisation with increasing quantiles and locations, every point", "why_tests_cant": "Sign depends on unbounded spacing ratios.", "anchors": ["src/qp/quantile_pdf_constructors/piecewise_linear.py:PiecewiseLinear", "src/qp/quantile_pdf_constructors/piecewise_constant.py:PiecewiseConstant", "src/qp/quantile_pdf_constructors/dual_spline_average.py:DualSplineAverage.prepare_constructor"]}
{"id": "C21", "title": "Quantile reconstructions evaluate each PDF on its own data", "statement": "With any reconstruction, ens.pdf(x)[i] is computed from the i-th row of locations.", "quantifier": "every ensemble size and grid", "why_tests_cant": "The defect appears only through the combination of the library front-end with more than one PDF.", "anchors": ["src/qp/quantile_pdf_constructors/cdf_spline_derivative.py:CdfSplineDerivative.construct_pdf", "src/qp/quantile_pdf_constructors/dual_spline_average.py:DualSplineAverage.construct_pdf", "src/qp/quant_pdf.py:quant_gen._pdf"]}
{"id": "C22", "title": "Choosing the quantile reconstruction by name", "statement": "Assigning an unknown reconstruction name raises ValueError and leaves the distribution as it was; after any sequence of assignments the name reported, the name stored in the metadata and the reconstruction in use agree and are one of the known names.", "quantifier": "every sequence of assignments of arbitrary strings", "why_tests_cant": "Histories of assignments are unbounded.", "anchors": ["src/qp/quant_pdf.py:quant_gen.pdf_constructor_name", "src/qp/quant_pdf.py:PDF_CONSTRUCTORS"]}
{"id": "C23", "title": "Mixture weights and validity", "statement": "Constructing a Gaussian mixture rejects any negative weight with ValueError and otherwise normalises each row's weights to sum to one (rescaling the weights does not matter, constructing twice changes nothing); the mixture PDF is non-negative and its CDF is non-decreasing and within [0,1].", "quantifier": "every number of components, every row of weights, every component family with valid PDFs and CDFs", "why_tests_cant": "Law over all weight vectors and component counts.", "anchors": ["src/qp/mixmod_pdf.py:mixmod_gen.__init__", "src/qp/mixmod_pdf.py:mixmod_gen._pdf", "src/qp/mixmod_pdf.py:mixmod_gen._cdf"]}
{"id": "C24", "title": "Mixture quantiles and sampling use the right row", "statement": "ens.ppf(q)[i][j] of a mixture ensemble is computed from mixture i for every list of probabilities, and ens.rvs works.", "quantifier": "every ensemble size, every list of probabilities with arbitrary repetitions", "why_tests_cant": "Depends on repetition pattern of the probabilities.", "anchors": ["src/qp/mixmod_pdf.py:mixmod_gen._ppf", "src/qp/utils.py:get_eval_case"]}
{"id": "C25", "title": "Linear 8-bit packing error bound", "statement": "Packing non-negative values linearly and unpacking them changes no value by more than row maximum / 510; the codes are integers in 0..255, the row maximum is reproduced exactly, order is preserved, and packing an unpacked array gives back the codes.", "quantifier": "every row of non-negative values with positive maximum", "why_tests_cant": "Worst-case error bound over the continuum.", "anchors": ["src/qp/packing_utils.py:linear_pack_from_rowmax", "src/qp/packing_utils.py:linear_unpack_from_rowmax"]}
{"id": "C26", "title": "Logarithmic 8-bit packing error bound", "statement": "Log packing gives integer codes in 0..255, preserves order, maps the row maximum to 255, unpacks code 0 to exactly 0, and any value above the floor is reproduced within the documented relative resolution.", "quantifier": "every row of non-negative values with positive maximum, every negative log floor", "why_tests_cant": "Worst-case relative error over the continuum.", "anchors": ["src/qp/packing_utils.py:log_pack_from_rowmax", "src/qp/packing_utils.py:log_unpack_from_rowmax"]}
{"id": "C27", "title": "Packing type dispatch", "statement": "Packing and unpacking with the same packing type uses matching codecs; an unknown packing type raises ValueError on both sides.", "quantifier": "every packing-type value", "why_tests_cant": "Decision logic over all values including invalid ones.", "anchors": ["src/qp/packing_utils.py:pack_array", "src/qp/packing_utils.py:unpack_array", "src/qp/packed_interp_pdf.py:packed_interp_gen.__init__"]}
{"id": "C28", "title": "Sparse integer codec", "statement": "Packing a (coefficient, basis index) pair into one integer and unpacking it returns the pair, for every signed coefficient and every basis index the library can generate.", "quantifier": "every integer coefficient, every basis index", "why_tests_cant": "2^32 pairs, and index range grows with the grid.", "anchors": ["src/qp/sparse_rep.py:combine_int", "src/qp/sparse_rep.py:get_N", "src/qp/sparse_rep.py:build_sparse_representation"]}
{"id": "C29", "title": "Sparse basis index addresses the right basis function", "statement": "The basis index assigned while enumerating the Voigt dictionary decodes to exactly the (mean, width, gamma) triple it was generated with.", "quantifier": "every dictionary size, every index", "why_tests_cant": "Nested-loop order versus div/mod decoding over all sizes.", "anchors": ["src/qp/sparse_rep.py:create_voigt_basis", "src/qp/sparse_rep.py:indices2shapes"]}
{"id": "C30", "title": "Sparse encoding of a PDF does not depend on its neighbours", "statement": "The sparse representation of row k built from a batch of PDFs equals the representation built from that row alone.", "quantifier": "every batch of PDFs, every dictionary", "why_tests_cant": "Hidden shared mutable state between rows; depends on the history of selected columns.", "anchors": ["src/qp/sparse_rep.py:sparse_basis", "src/qp/sparse_rep.py:build_sparse_representation"]}
{"id": "C31", "title": "Sparse weights decode to the encoded weights", "statement": "Decoding the sparse indices returns weights proportional to the encoded coefficients up to quantisation.", "quantifier": "every list of coefficients", "why_tests_cant": "Worst-case over all coefficient vectors, including when the first is not the largest.", "anchors": ["src/qp/sparse_rep.py:decode_sparse_indices", "src/qp/sparse_rep.py:build_sparse_representation"]}
{"id": "C32", "title": "Selecting rows of an ensemble", "statement": "ens[key] for an integer, slice, boolean mask or index list contains exactly the selected PDFs, in order, with the same parameters and metadata, and out-of-range integers raise IndexError; selecting twice is selecting with the composed selection.", "quantifier": "every ensemble, every key", "why_tests_cant": "All key kinds times all sizes, and composition law.", "anchors": ["src/qp/ensemble.py:Ensemble.__getitem__", "src/qp/dict_utils.py:slice_dict"]}
{"id": "C33", "title": "Selecting rows keeps ancillary data aligned", "statement": "Whenever an ensemble has ancillary data, ens[key] succeeds whenever selecting the rows succeeds, and its ancillary columns are the selected rows.", "quantifier": "every ensemble, every valid ancillary table (columns of any trailing shape), every key", "why_tests_cant": "Trailing shapes of ancillary columns are unbounded.", "anchors": ["src/qp/ensemble.py:Ensemble.__getitem__", "src/qp/dict_utils.py:check_array_shapes"]}
{"id": "C34", "title": "Appending and concatenating stack the PDFs", "statement": "Concatenating ensembles gives an ensemble whose rows are the rows of the inputs in order, whose length is the sum of lengths, with the common metadata; concatenation is associative; slicing out a part gives back that part.", "quantifier": "every list of compatible ensembles", "why_tests_cant": "Algebraic law over lists of ensembles of any length.", "anchors": ["src/qp/factory.py:Factory.concatenate", "src/qp/dict_utils.py:concatenate_dicts", "src/qp/ensemble.py:Ensemble.append"]}
{"id": "C35", "title": "append agrees with concatenate", "statement": "a.append(b) leaves a equal to concatenate([a, b]), including metadata and ancillary data, and fails exactly when concatenate fails.", "quantifier": "every pair of ensembles", "why_tests_cant": "Equivalence of two independently written code paths over all inputs.", "anchors": ["src/qp/ensemble.py:Ensemble.append", "src/qp/factory.py:Factory.concatenate"]}
{"id": "C36", "title": "Incompatible ensembles are never merged", "statement": "append/concatenate accept two ensembles only if their metadata (grids, bins, quantiles, names) are equal, and acceptance does not depend on the order of the operands.", "quantifier": "every pair of metadata dictionaries", "why_tests_cant": "Tolerance comparisons are neither symmetric nor transitive; the failing inputs are a thin set.", "anchors": ["src/qp/dict_utils.py:compare_two_dicts", "src/qp/dict_utils.py:compare_dicts", "src/qp/ensemble.py:Ensemble.append"]}
{"id": "C37", "title": "Ancillary data always matches the number of PDFs", "statement": "After any sequence of operations (construction, set_ancil, add_to_ancil, update, update_objdata, append, selection, whether they succeed or raise), every ancillary column has one entry per PDF.", "quantifier": "every finite history of operations with arbitrary arguments", "why_tests_cant": "Unbounded histories including failing calls.", "anchors": ["src/qp/ensemble.py:Ensemble.set_ancil", "src/qp/ensemble.py:Ensemble.add_to_ancil", "src/qp/ensemble.py:Ensemble.update", "src/qp/ensemble.py:Ensemble.append", "src/qp/dict_utils.py:check_array_shapes"]}
{"id": "C38", "title": "Cached gridded values are never stale", "statement": "ens.gridded(grid) always returns the current PDF evaluated on the grid, after any sequence of operations.", "quantifier": "every finite history of operations, failing or not, on every grid", "why_tests_cant": "Cache coherence is a history property.", "anchors": ["src/qp/ensemble.py:Ensemble.gridded", "src/qp/ensemble.py:Ensemble.update", "src/qp/ensemble.py:Ensemble.update_objdata"]}
{"id": "C39", "title": "A failing operation leaves the ensemble unchanged", "statement": "If set_ancil, add_to_ancil, append, update or update_objdata raises, the ensemble is exactly what it was before the call.", "quantifier": "every state and every argument that makes the call raise", "why_tests_cant": "Every exception point of every call.", "anchors": ["src/qp/ensemble.py:Ensemble.update", "src/qp/ensemble.py:Ensemble.update_objdata", "src/qp/ensemble.py:Ensemble.set_ancil", "src/qp/ensemble.py:Ensemble.add_to_ancil", "src/qp/ensemble.py:Ensemble.append"]}
{"id": "C40", "title": "update_objdata changes only what is given", "statement": "update_objdata(data) replaces the named per-PDF arrays and keeps all others and the metadata.", "quantifier": "every ensemble and every partial data dictionary", "why_tests_cant": "Frame condition over all keys.", "anchors": ["src/qp/ensemble.py:Ensemble.update_objdata"]}
{"id": "C41", "title": "Iterating over an ensemble visits every PDF once", "statement": "for pdf in ens yields exactly npdf single-PDF ensembles, the i-th being ens[i], and terminates.", "quantifier": "every ensemble", "why_tests_cant": "Termination relies on an IndexError raised by the parameter arrays.", "anchors": ["src/qp/ensemble.py:Ensemble.__getitem__", "src/qp/dict_utils.py:slice_dict"]}
{"id": "C42", "title": "Integration and binning are consistent with the CDF", "statement": "integrate over adjacent intervals adds up, integrate over an empty interval is 0 and reversing limits changes sign; histogramize returns non-negative masses that add up to the mass between the outer edges, and merging two adjacent bins adds their masses.", "quantifier": "every CDF, every list of edges", "why_tests_cant": "Additivity over all partitions.", "anchors": ["src/qp/ensemble.py:Ensemble.integrate", "src/qp/ensemble.py:Ensemble.histogramize", "src/qp/pdf_gen.py:rv_frozen_rows.histogramize"]}
{"id": "C43", "title": "mode is the first grid point of maximal density", "statement": "ens.mode(grid) returns, for each PDF, the first grid point at which the PDF takes its largest value on the grid.", "quantifier": "every grid and every PDF values", "why_tests_cant": "Extremality over all grids, with ties.", "anchors": ["src/qp/ensemble.py:Ensemble.mode"]}
{"id": "C44", "title": "Nested shapes are flattened and restored without reordering", "statement": "Flattening the leading axes of an array to one row per PDF and restoring the ensemble shape returns the original array, rows are numbered in row-major order, and the row index passed to the evaluation covers 0..npdf-1 exactly once.", "quantifier": "every array shape of any rank", "why_tests_cant": "All ranks and sizes.", "anchors": ["src/qp/utils.py:reshape_to_pdf_size", "src/qp/utils.py:reshape_to_pdf_shape", "src/qp/pdf_gen.py:rv_frozen_rows.__init__"]}
{"id": "C45", "title": "Slicing an ensemble commutes with evaluation", "statement": "ens[i].pdf(x) equals row i of ens.pdf(x) for every histogram, interpolated and mixture ensemble.", "quantifier": "every ensemble however constructed, every index, every point", "why_tests_cant": "Slicing rebuilds the object through its constructor, so it relies on a fixpoint law of construction.", "anchors": ["src/qp/ensemble.py:Ensemble.__getitem__", "src/qp/hist_pdf.py:hist_gen.__init__", "src/qp/interp_pdf.py:interp_gen.__init__", "src/qp/mixmod_pdf.py:mixmod_gen.__init__"]}
{"id": "C46", "title": "Writing and reading an ensemble is the identity", "statement": "from_tables(build_tables(ens)) (what write_to/read do) gives an ensemble with the same class, the same metadata, the same per-PDF data and the same ancillary data.", "quantifier": "every ensemble of the grid-like classes, with or without ancillary data", "why_tests_cant": "Round-trip law over all table contents, including degenerate shapes.", "anchors": ["src/qp/ensemble.py:Ensemble.build_tables", "src/qp/factory.py:Factory.from_tables", "src/qp/factory.py:Factory._build_data_dict"]}
{"id": "C47", "title": "A dictionary of ensembles survives a round trip", "statement": "read_dict(write_dict(d)) has the same keys and equal ensembles.", "quantifier": "every dictionary of ensembles", "why_tests_cant": "All key sets.", "anchors": ["src/qp/factory.py:Factory.write_dict", "src/qp/factory.py:Factory.read_dict"]}
{"id": "C48", "title": "Chunked reading covers the file exactly once", "statement": "Over all ranks, iterator yields disjoint chunks that together contain every row exactly once, and stacking the chunks in order gives the whole ensemble; each chunk at the time it is yielded equals the corresponding slice of the full read.", "quantifier": "every number of rows, chunk size, number of ranks", "why_tests_cant": "All combinations of three unbounded integers.", "anchors": ["src/qp/factory.py:Factory.iterator"]}
{"id": "C49", "title": "Chunks handed out earlier stay valid", "statement": "A chunk obtained from iterator keeps its own PDFs and ancillary data when the iteration advances (so list(iterator(f)) is usable).", "quantifier": "every file and every history of the iteration", "why_tests_cant": "Aliasing across loop iterations: a history property.", "anchors": ["src/qp/factory.py:Factory.iterator", "src/qp/ensemble.py:Ensemble.set_ancil"]}
{"id": "C50", "title": "Parallel chunked writing is order independent", "statement": "If every row range is written exactly once, by any ranks in any order, the finished file is the same and reads back as the whole ensemble.", "quantifier": "every partition of the rows into chunks, every schedule of the writes", "why_tests_cant": "All interleavings.", "anchors": ["src/qp/ensemble.py:Ensemble.initializeHdf5Write", "src/qp/ensemble.py:Ensemble.writeHdf5Chunk", "src/qp/ensemble.py:Ensemble.finalizeHdf5Write"]}
{"id": "C51", "title": "An unfinished chunked write is never mistaken for a qp file", "statement": "If the process stops at any point before finalizeHdf5Write, is_qp_file on what is on disk is False and read raises; after finalisation it is a qp file.", "quantifier": "every crash point of every write history", "why_tests_cant": "Every crash point.", "anchors": ["src/qp/ensemble.py:Ensemble.initializeHdf5Write", "src/qp/ensemble.py:Ensemble.finalizeHdf5Write", "src/qp/factory.py:Factory.is_qp_file"]}
{"id": "C52", "title": "is_qp_file never raises and agrees with the content", "statement": "is_qp_file returns a boolean for any path and any content: True exactly when a table named meta with a pdf_name entry can be read.", "quantifier": "every possible outcome of the reader", "why_tests_cant": "All failures of the reader.", "anchors": ["src/qp/factory.py:Factory.is_qp_file"]}
{"id": "C53", "title": "Space allocated for a chunked write fits the data", "statement": "get_allocation_kwds(npdf, ...) of every class describes arrays with npdf rows and with exactly the trailing shape of the data that a chunk of that class writes.", "quantifier": "every class, every npdf, every parameter set", "why_tests_cant": "All sizes, and the requested npdf differs from the template's.", "anchors": ["src/qp/hist_pdf.py:hist_gen.get_allocation_kwds", "src/qp/interp_pdf.py:interp_gen.get_allocation_kwds", "src/qp/quant_pdf.py:quant_gen.get_allocation_kwds", "src/qp/spline_pdf.py:spline_gen.get_allocation_kwds", "src/qp/mixmod_pdf.py:mixmod_gen.get_allocation_kwds", "src/qp/ensemble.py:Ensemble._get_allocation_kwds"]}
{"id": "C54", "title": "Class registry", "statement": "After any history of add_class calls the registry maps each registered name to the class registered first under it; adding a nameless class raises AttributeError, adding a duplicate raises KeyError, and neither changes the registry.", "quantifier": "every history of registrations", "why_tests_cant": "Unbounded histories with failures.", "anchors": ["src/qp/factory.py:Factory.add_class", "src/qp/factory.py:Factory._load_scipy_classes"]}
{"id": "C55", "title": "Method lookup", "statement": "Looking up a creation/extraction/reader method returns the one registered for that key if there is one, otherwise the default one if there is one, otherwise nothing; registering never replaces an existing registration.", "quantifier": "every history of registrations and lookups", "why_tests_cant": "Histories, and keys never seen before.", "anchors": ["src/qp/dict_utils.py:get_val_or_default", "src/qp/dict_utils.py:set_val_or_default", "src/qp/pdf_gen.py:Pdf_gen.creation_method"]}
{"id": "C56", "title": "Conversion entry points agree", "statement": "convert(ens, name, **kw) and ens.convert_to(class, **kw) give the same ensemble or raise the same error; an unknown class name or a class without the methods raises KeyError; the result has as many PDFs and no ancillary data.", "quantifier": "every ensemble, class and keyword set", "why_tests_cant": "Equivalence of two code paths over all inputs.", "anchors": ["src/qp/factory.py:Factory.convert", "src/qp/ensemble.py:Ensemble.convert_to"]}
{"id": "C57", "title": "Conversion to a histogram preserves the bin masses", "statement": "Converting any ensemble whose mass lies inside the bins to a histogram gives a PDF with the same probability in every bin.", "quantifier": "every CDF, every list of bin edges", "why_tests_cant": "Masses and densities coincide on uniform bins used by tests.", "anchors": ["src/qp/conversion_funcs.py:extract_hist_values", "src/qp/hist_pdf.py:hist_gen.__init__"]}
{"id": "C58", "title": "Conversion on the same grid is the identity", "statement": "Converting an interpolated ensemble to an interpolated ensemble on the same grid, or a histogram ensemble to a histogram on the same bins, gives back the same ensemble. Converting to an irregularly interpolated ensemble stores for every PDF the requested abscissae in their order and the densities there.", "quantifier": "every ensemble", "why_tests_cant": "Fixpoint law over all grids.", "anchors": ["src/qp/conversion_funcs.py:extract_vals_at_x", "src/qp/conversion_funcs.py:extract_hist_values", "src/qp/ensemble.py:Ensemble.convert_to"]}
{"id": "C59", "title": "Sample-based histogram conversion works for every ensemble size", "statement": "Converting through samples to a histogram succeeds for every number of PDFs, samples and bins, and every in-range sample is counted in exactly one bin.", "quantifier": "every npdf, sample count, bin count", "why_tests_cant": "Fails only at coincidences of sizes.", "anchors": ["src/qp/conversion_funcs.py:extract_hist_samples"]}
{"id": "C60", "title": "Metric evaluation grid", "statement": "The evaluation grid used by metrics starts and ends at the limits, is evenly spaced by the reported resolution, and each grid value is the centre of its histogram bin.", "quantifier": "every limits pair and spacing", "why_tests_cant": "Rounding of the number of grid points for all real limits.", "anchors": ["src/qp/metrics/metrics.py:_calculate_grid_parameters"]}
{"id": "C61", "title": "Brier truth encoding is one-hot", "statement": "Every in-range truth value falls in exactly one of the metric's histogram bins (the encoded row is one-hot at the nearest grid value); out-of-range truths and mismatched lengths raise ValueError.", "quantifier": "every truth value, every limits/spacing", "why_tests_cant": "All reals, including bin edges and the upper limit.", "anchors": ["src/qp/metrics/metrics.py:_prepare_for_brier"]}
{"id": "C62", "title": "Brier score laws", "statement": "The Brier score is zero exactly for perfect predictions, is between 0 and 2 for probability vectors against one-hot truth, and does not depend on the order of the objects.", "quantifier": "every prediction and truth matrix", "why_tests_cant": "Universally quantified inequality.", "anchors": ["src/qp/metrics/brier.py:Brier.evaluate", "src/qp/metrics/brier.py:Brier._calculate_metric"]}
{"id": "C63", "title": "Chunked Brier evaluation equals whole evaluation", "statement": "For every way of splitting the objects into chunks, finalize of the accumulated chunks equals the Brier score of the whole; a chunk (or ensemble) of a single PDF works like any other.", "quantifier": "every partition into chunks", "why_tests_cant": "All partitions, including chunks of size one.", "anchors": ["src/qp/metrics/concrete_metric_classes.py:BrierMetric", "src/qp/metrics/metrics.py:_prepare_for_brier", "src/qp/metrics/brier.py:Brier.accumulate"]}
{"id": "C64", "title": "Chunked CDE loss equals whole evaluation", "statement": "For every way of splitting the objects into chunks in any order, finalize of the accumulated chunks equals evaluate on the whole.", "quantifier": "every partition into chunks, every order of the chunks", "why_tests_cant": "All partitions and schedules.", "anchors": ["src/qp/metrics/concrete_metric_classes.py:CDELossMetric"]}
{"id": "C65", "title": "Iterator evaluation of point metrics uses all chunks", "statement": "eval_from_iterator over chunks gives the metric of all the data.", "quantifier": "every sequence of chunks", "why_tests_cant": "All chunk sequences.", "anchors": ["src/qp/metrics/base_metric_classes.py:PointToPointMetric.eval_from_iterator"]}
{"id": "C66", "title": "Kolmogorov-Smirnov statistic", "statement": "The KS statistic of n samples is between 1/(2n) and 1, is the largest distance between the empirical and the reference CDF, and does not depend on the order of samples.", "quantifier": "every sample set, every reference CDF", "why_tests_cant": "Supremum over the reals and permutation invariance.", "anchors": ["src/qp/metrics/goodness_of_fit.py:_kolmogorov_smirnov"]}
{"id": "C67", "title": "Cramer-von Mises statistic", "statement": "The CvM statistic of n samples is at least 1/(12n), with equality exactly when the CDF values are the midpoints, is bounded by 1/(12n)+n, and does not depend on the order of samples.", "quantifier": "every sample set, every reference CDF", "why_tests_cant": "Sharp bounds over a continuum.", "anchors": ["src/qp/metrics/goodness_of_fit.py:_cramer_von_mises"]}
{"id": "C68", "title": "KL divergence", "statement": "The KLD of an ensemble with itself is 0, the reported values are never negative, and the value for one PDF does not depend on the other PDFs in the ensemble.", "quantifier": "every pair of ensembles of any size", "why_tests_cant": "Cross-row contamination only appears when some row is negative.", "anchors": ["src/qp/metrics/metrics.py:calculate_kld", "src/qp/metrics/array_metrics.py:quick_kld", "src/qp/utils.py:safelog"]}
{"id": "C69", "title": "RMSE is a metric on gridded PDFs", "statement": "RMSE is non-negative, symmetric, zero exactly for equal gridded values and satisfies the triangle inequality.", "quantifier": "every triple of gridded PDFs", "why_tests_cant": "Metric axioms over a continuum.", "anchors": ["src/qp/metrics/array_metrics.py:quick_rmse", "src/qp/metrics/metrics.py:calculate_rmse"]}
{"id": "C70", "title": "Moments over limits agree between entry points", "statement": "ens.moment_partial(N, limits, dx) equals calculate_moment(ens, N, limits, dx); moments are linear in the PDF.", "quantifier": "every limits, dx, N, PDF", "why_tests_cant": "Two code paths over real parameters.", "anchors": ["src/qp/ensemble.py:Ensemble.moment_partial", "src/qp/metrics/metrics.py:calculate_moment", "src/qp/metrics/array_metrics.py:quick_moment"]}
{"id": "C71", "title": "Outlier rates are probabilities", "statement": "calculate_outlier_rate (for any CDF and ordered limits) and the point outlier rate are between 0 and 1; enlarging the accepted interval never increases the rate.", "quantifier": "every CDF, limits, data set", "why_tests_cant": "Monotonicity over all intervals.", "anchors": ["src/qp/metrics/metrics.py:calculate_outlier_rate", "src/qp/metrics/point_estimate_metric_classes.py:PointOutlierRate"]}
{"id": "C72", "title": "Point statistics", "statement": "Bias (median), sigma-IQR and sigma-MAD do not depend on the order of objects; sigma-IQR and sigma-MAD are non-negative and invariant under shifting all residuals; the bias shifts along.", "quantifier": "every list of residuals", "why_tests_cant": "Order statistics over all permutations.", "anchors": ["src/qp/metrics/point_estimate_metric_classes.py"]}
{"id": "C73", "title": "PIT samples and PIT distribution", "statement": "Every PIT sample is in [0,1] (non-finite CDF values count as 0), there is one per object computed from the object's own PDF; the PIT ensemble's quantiles and locations are strictly increasing and strictly inside (0,1).", "quantifier": "every ensemble, truth list and evaluation grid", "why_tests_cant": "Ties among samples drive the de-duplication; all tie patterns.", "anchors": ["src/qp/metrics/pit.py:PIT._gather_pit_samples", "src/qp/metrics/pit.py:PIT._produce_output_ensemble"]}
{"id": "C74", "title": "Goodness-of-fit dispatch and input checks", "statement": "An unknown fit metric raises KeyError; the ensembles are accepted exactly when the estimate has as many PDFs as the reference or the reference has one PDF; each PDF is compared with its own reference.", "quantifier": "every pair of sizes and every metric name", "why_tests_cant": "All size pairs.", "anchors": ["src/qp/metrics/metrics.py:calculate_goodness_of_fit", "src/qp/metrics/metrics.py:_check_ensembles_contain_correct_number_of_distributions"]}
{"id": "C75", "title": "Metric registry", "statement": "list_metrics names every concrete metric reachable in the subclass tree, create_metric returns the class of that name, unknown names raise KeyError, and refreshing the registry is idempotent.", "quantifier": "every finite class tree", "why_tests_cant": "All tree shapes.", "anchors": ["src/qp/metrics/factory.py:MetricFactory", "src/qp/metrics/base_metric_classes.py:MetricInputType"]}
{"id": "C76", "title": "Profile statistics", "statement": "profile assigns every in-range point to exactly one bin; the reported mean of a bin lies between the smallest and largest value in it, and its spread is non-negative and zero exactly when the values in it are equal; empty bins are NaN.", "quantifier": "every data set and binning", "why_tests_cant": "All data sets.", "anchors": ["src/qp/utils.py:profile", "src/qp/utils.py:get_bin_indices"]}
{"id": "C77", "title": "Quantile function of irregular-grid PDFs", "statement": "For PDFs with per-row grids and every probability, the quantile function returns a point of the row's own grid range that the CDF maps back to that probability; it is non-decreasing, and undoes the CDF where the stored values are positive, whatever the grids of the other rows.", "quantifier": "every set of per-row grids and non-negative values, every probability", "why_tests_cant": "Continuum of probabilities; the fill values are taken over all rows, so a test needs rows with different ranges and an exact inverse.", "anchors": ["src/qp/interp_pdf.py:interp_irregular_gen._ppf", "src/qp/interp_pdf.py:interp_irregular_gen._cdf"]}
{"id": "C78", "title": "Anderson-Darling statistic", "statement": "The Anderson-Darling fit value does not depend on the order of the samples; for a reference CDF strictly between 0 and 1 at the samples it is positive, and for n samples it is smallest exactly when the reference CDF at the i-th smallest sample is the middle (2i-1)/(2n) of its step.", "quantifier": "every reference CDF and every non-empty sample", "why_tests_cant": "Positivity is an inequality over all sample sizes (a sum of entropies against an integral).", "anchors": ["src/qp/metrics/goodness_of_fit.py:_anderson_darling", "src/qp/metrics/metrics.py:calculate_goodness_of_fit"]}
{"id": "C79", "title": "Conversion to the 8-bit packed class", "statement": "Packing the values of a PDF on a grid (linear packing) gives a PDF that is non-negative and integrates to one; compared with the interpolated PDF made from the same values, with peak density P on a grid of length L and P*L < 510, its density differs by at most P(1+PL)/(510-PL) and its CDF by at most L times that, at every point.", "quantifier": "every grid, every non-negative row, every point", "why_tests_cant": "A uniform error bound over a continuum of inputs that combines rounding, renormalisation and interpolation.", "anchors": ["src/qp/packed_interp_pdf.py:packed_interp_gen", "src/qp/packed_interp_pdf.py:extract_and_pack_vals_at_x", "src/qp/packing_utils.py:linear_pack_from_rowmax"]}
{"id": "C80", "title": "Quantiles, medians, intervals and survival functions of an ensemble", "statement": "For an ensemble of any size, ppf and isf give each PDF its own quantile in the position of the requested probability, also when some requests are 0, 1 or not probabilities (-inf, inf, nan); the median has CDF 1/2; interval(alpha) leaves probability (1-alpha)/2 on each side, contains the median and grows with alpha, alpha outside [0, 1] raises ValueError; sf is 1 - cdf and undoes isf.", "quantifier": "every ensemble size, every list of probabilities, every alpha", "why_tests_cant": "The order in which masked requests are gathered, sorted and put back depends on the ensemble size and on coincidences between probabilities; nesting is a statement about all alpha.", "anchors": ["src/qp/ensemble.py:Ensemble.ppf", "src/qp/ensemble.py:Ensemble.isf", "src/qp/ensemble.py:Ensemble.sf", "src/qp/ensemble.py:Ensemble.median", "src/qp/ensemble.py:Ensemble.interval", "src/qp/pdf_gen.py:Pdf_rows_gen._ppf"]}
{"id": "C81", "title": "Spline CDF integrates the spline PDF", "statement": "For a spline ensemble the CDF of each PDF is the integral of its PDF, also next to PDFs with other ranges; it never decreases when the coefficients are non-negative, and then the PDF is non-negative and never above the largest coefficient; the PDF is zero outside the range of the knots; every requested point is answered in its position.", "quantifier": "every degree, knots, coefficients, list of points", "why_tests_cant": "An identity between two algorithms (de Boor evaluation, Gaffney integration) over a continuum, for every degree and knot vector.", "anchors": ["src/qp/spline_pdf.py:spline_gen._pdf", "src/qp/spline_pdf.py:spline_gen._cdf"]}
{"id": "C82", "title": "Spline construction normalises every PDF", "statement": "Spline PDFs built from points have total probability one, whatever the ranges of the other PDFs.", "quantifier": "every set of rows of points", "why_tests_cant": "Needs exact integrals of the interpolating splines; tests use rows with one common range.", "anchors": ["src/qp/spline_pdf.py:normalize_spline", "src/qp/spline_pdf.py:spline_gen.build_normed_splines"]}
{"id": "C83", "title": "Densities of sparse PDFs", "statement": "The density of an encoded sparse PDF is the same whether it is computed from the dictionary, from the Voigt parameters its indices stand for, or by the class; it is normalised on the grid, non-negative, and does not depend on unused slots of the encoding; an index outside the dictionary is refused everywhere.", "quantifier": "every dictionary, encoded row, grid and cut", "why_tests_cant": "Agreement of three decoders for all encodings; tests use one data file.", "anchors": ["src/qp/sparse_pdf.py:sparse_gen.__init__", "src/qp/sparse_rep.py:pdf_from_sparse", "src/qp/sparse_rep.py:indices2shapes", "src/qp/sparse_rep.py:shapes2pdf", "src/qp/sparse_rep.py:decode_sparse_indices"]}
{"id": "C84", "title": "Conversion to quantiles keeps the quantiles", "statement": "Converting an ensemble of any class to quantiles at two or more increasing probabilities strictly between 0 and 1, where its quantiles are finite and distinct, succeeds: the new ensemble's ppf at these probabilities returns the same array as the original's, and its cdf at the p-quantiles returns p for every PDF.", "quantifier": "every class, every ensemble, every list of probabilities, every interpolant that passes through its knots", "why_tests_cant": "Tests compare a few converted normal distributions with a tolerance; padding and interpolation must agree with the original for every distribution.", "anchors": ["src/qp/conversion_funcs.py:extract_quantiles", "src/qp/quant_pdf.py:quant_gen.__init__", "src/qp/quant_pdf.py:quant_gen._ppf", "src/qp/quant_pdf.py:quant_gen._cdf", "src/qp/quant_pdf.py:pad_quantiles"]}
{"id": "C85", "title": "The error of a conversion to a histogram is at most the mass of a bin", "statement": "Converting an ensemble of any class to a histogram with bins of equal width that contain all its mass moves no value of the cdf, at any point, by more than the largest probability that the PDF has in one bin; edges and points outside the bins keep their cdf values exactly.", "quantifier": "every class, every ensemble, every list of equal-width bins, every point", "why_tests_cant": "A uniform bound over all distributions and all points.", "anchors": ["src/qp/conversion_funcs.py:extract_hist_values", "src/qp/hist_pdf.py:hist_gen._cdf", "src/qp/hist_pdf.py:hist_gen.__init__"]}
{"id": "C86", "title": "Statistics of the PIT", "statement": "The PIT distribution and its statistics do not depend on the order of the objects. The KS value is between 1/(2n) and 1 and is the largest distance between the empirical distribution of the PIT values and the uniform one; the CvM value is at least 1/(12n), with equality exactly for perfectly spread values; the Anderson-Darling comparison uses exactly the values within the limits against as many equally spaced ones; the outlier rate between two stored quantiles is one minus the difference of their levels. The constructor succeeds exactly when two distinct quantiles lie strictly inside (0,1), so constant PIT values raise IndexError.", "quantifier": "every ensemble, all true values, every grid, all limits", "why_tests_cant": "Order independence and extremal values quantify over all samples.", "anchors": ["src/qp/metrics/pit.py:PIT.__init__", "src/qp/metrics/pit.py:PIT.evaluate_PIT_KS", "src/qp/metrics/pit.py:PIT.evaluate_PIT_CvM", "src/qp/metrics/pit.py:PIT.evaluate_PIT_anderson_ksamp", "src/qp/metrics/pit.py:PIT.evaluate_PIT_outlier_rate", "src/qp/metrics/pit.py:PIT._trim_pit_values"]}
{"id": "C87", "title": "Conversion to the sparse class covers the support", "statement": "Converting gridded PDFs to the sparse class (and to Voigt mixtures by matching pursuit) encodes their densities on a new equally spaced grid that reaches from the first grid point to beyond the last point at which any PDF has a positive density; nothing of the PDFs lies outside the new grid; without any positive density it raises ValueError.", "quantifier": "every increasing grid, all ordinates, every number of new points >= 2", "why_tests_cant": "Which part of the last cell is cut depends on where the last positive ordinate of the whole ensemble lies.", "anchors": ["src/qp/conversion_funcs.py:extract_sparse_from_xy", "src/qp/conversion_funcs.py:extract_voigt_xy_sparse", "src/qp/conversion_funcs.py:extract_xy_sparse"]}
{"id": "C88", "title": "Risk based point estimates", "statement": "The loss is in [0,1), zero exactly for a perfect estimate, symmetric and increasing in the size of the error. The risk of an estimate is between 0 and the probability between the integration bounds, continuous, strictly falling below the bounds and strictly growing above them; so a best estimate exists and every local minimum lies between the 1% and the 99% quantile. There is one estimate per PDF, independent of the others and of the normalisation; with limits it lies within the limits.", "quantifier": "every non-negative integrable density with mass between its quantiles, every estimate, all limits, every optimiser returning a local minimum", "why_tests_cant": "Statements about the minimum of an integral over all real estimates.", "anchors": ["src/qp/metrics/array_metrics.py:quick_rbpe", "src/qp/metrics/metrics.py:calculate_rbpe", "src/qp/metrics/concrete_metric_classes.py:RBPEMetric"]}
{"id": "C89", "title": "Mean and variance of gridded PDFs are those of the density", "statement": "ens.mean() is the integral of t times the PDF that ens.pdf returns, and ens.var() the integral of (t - mean)^2 times it.", "quantifier": "every histogram and every interpolated PDF", "why_tests_cant": "Integrals over the real line of arbitrary piecewise functions; tests compare with analytic values up to a tolerance that hides the grid effect.", "anchors": ["src/qp/ensemble.py:Ensemble.mean", "src/qp/ensemble.py:Ensemble.var", "src/qp/hist_pdf.py:hist_gen._munp", "src/qp/interp_pdf.py:interp_gen._munp"]}
{"id": "C90", "title": "Gaussian mixtures: density, moments and quantiles", "statement": "The PDF of a Gaussian mixture is positive and integrates to one, its CDF is the integral of its PDF and strictly increasing; its mean is the weighted mean of the component means and its variance the weighted mean of sigma^2 + mu^2 minus the squared mean. ens.ppf(q) inverts the CDF up to the resolution of the tabulated CDF, whatever else the ensemble contains.", "quantifier": "every number of components, weights, means, positive widths, every probability inside (0, 1)", "why_tests_cant": "Integrals over the real line and all probabilities; tests compare a few values of one ensemble whose members have similar ranges.", "anchors": ["src/qp/mixmod_pdf.py:mixmod_gen._pdf", "src/qp/mixmod_pdf.py:mixmod_gen._cdf", "src/qp/mixmod_pdf.py:mixmod_gen._ppf", "src/qp/packed_interp_pdf.py:packed_interp_gen._ppf", "src/qp/quant_pdf.py:quant_gen._ppf"]}
{"id": "C91", "title": "Spline PDFs from samples", "statement": "Building spline PDFs from samples succeeds exactly if every row has two different samples. The density estimate of a row is positive, has integral one, the mean of the samples and their mean squared deviation plus the squared kernel width as variance; it does not depend on the order of the samples and follows shifts and changes of unit. Each PDF depends on its own samples only, its CDF goes from 0 to 1 over the abscissae, and at the abscissae its PDF is the estimate divided by one constant.", "quantifier": "every list of samples, every list of abscissae", "why_tests_cant": "Equivariance and order independence for all samples, integrals over the real line.", "anchors": ["src/qp/utils.py:build_kdes", "src/qp/utils.py:evaluate_kdes", "src/qp/spline_pdf.py:spline_gen.create_from_samples"]}
{"id": "C92", "title": "Point metrics evaluated chunk by chunk", "statement": "Accumulating point-to-point metrics over chunks and finalising gives the same bias, interquartile width and outlier rate as evaluating all objects at once, up to the compression of the digest, for every division into chunks; the chunk-wise median absolute deviation is defined whenever the direct one is and lies within half a histogram bin of the median absolute deviation of the digest's distribution, and does not depend on the order in which ties are sorted; the outlier rate is in [0,1].", "quantifier": "every division of every list of estimates and true values into chunks, every number of bins, every digest with a monotone distribution function", "why_tests_cant": "All divisions into chunks and all distributions; ties in the sort are implementation dependent.", "anchors": ["src/qp/metrics/point_estimate_metric_classes.py:PointToPointMetricDigester.accumulate", "src/qp/metrics/point_estimate_metric_classes.py:PointToPointMetricDigester.finalize", "src/qp/metrics/point_estimate_metric_classes.py:PointSigmaMAD.compute_from_digest", "src/qp/metrics/point_estimate_metric_classes.py:PointOutlierRate.compute_from_digest", "src/qp/metrics/point_estimate_metric_classes.py:PointBias.compute_from_digest", "src/qp/metrics/point_estimate_metric_classes.py:PointSigmaIQR.compute_from_digest"]}
{"id": "C93", "title": "PIT distribution evaluated chunk by chunk", "statement": "Accumulating the PIT metric over chunks and finalising gives the PIT distribution of all objects, up to the compression of the digest, for every division into chunks, also when a chunk has a single object or equal PIT values.", "quantifier": "every ensemble, every division into chunks, every evaluation grid inside [0,1]", "why_tests_cant": "All divisions into chunks, including chunk sizes that only occur for the remainder of a file.", "anchors": ["src/qp/metrics/concrete_metric_classes.py:PITMetric.accumulate", "src/qp/metrics/concrete_metric_classes.py:PITMetric.compute_from_digest", "src/qp/metrics/concrete_metric_classes.py:DistToPointMetricDigester.finalize"]}
{"id": "C94", "title": "Inspecting a file agrees with reading it", "statement": "For every file written from an ensemble, asking for its length gives the number of PDFs of the ensemble and of what reading the file gives, and asking for its metadata gives the metadata from which the ensemble is rebuilt; a file without data groups is reported by an exception.", "quantifier": "all classes, all ensembles reached by any history of operations, all auxiliary data", "why_tests_cant": "Tests inspect one file; the agreement has to hold for every class and every history of selections, updates and concatenations.", "anchors": ["src/qp/factory.py:Factory.data_length", "src/qp/factory.py:Factory.read_metadata", "src/qp/ensemble.py:Ensemble.build_tables"]}
{"id": "C95", "title": "Selecting sparse PDFs does not change their densities", "statement": "For an ensemble in the sparse representation, whatever keyword arguments it was made with, the densities of a selection are those of the selected PDFs in the whole ensemble, and so are those of any ensemble rebuilt from the stored data.", "quantifier": "all sparse ensembles, all cuts, all selections, all increasing points, all profiles", "why_tests_cant": "Tests never pass the cut keyword and then slice.", "anchors": ["src/qp/sparse_pdf.py:sparse_gen.__init__", "src/qp/sparse_rep.py:create_basis", "src/qp/ensemble.py:Ensemble.__getitem__"]}
{"id": "C96", "title": "Values given with check_input=False are used as given", "statement": "An ensemble made with check_input=False holds and evaluates exactly the values passed; with check_input=True they are normalised or padded.", "quantifier": "all row classes, all constructor arguments", "why_tests_cant": "The flag is part of the constructor of every class; whether it survives the creation of the distribution object depends on a second construction inside scipy.", "anchors": ["src/qp/hist_pdf.py:hist_gen.__init__", "src/qp/interp_pdf.py:interp_gen.__init__", "src/qp/quant_pdf.py:quant_gen.__init__", "src/qp/pdf_gen.py:Pdf_rows_gen.freeze", "src/qp/hist_pdf.py:hist_gen._updated_ctor_param", "src/qp/ensemble.py:Ensemble.__init__"]}
{"id": "C97", "title": "Random variates follow the stated distribution", "statement": "ens.rvs(size=m) returns m samples for every PDF; sample (i, j) is the quantile function of PDF i evaluated at the uniform draw (i, j), so samples of different PDFs are never mixed; if the draws are uniform on the unit interval, the samples of PDF i have the CDF that ens.cdf states and the density ens.pdf, stored quantiles are quantiles of the samples, and independent draws give independent samples.", "quantifier": "all shapes of ensembles, all numbers of samples, all draws; all histograms with non-negative heights, all irregular, regular and packed interpolated PDFs with non-negative heights, all quantile PDFs", "why_tests_cant": "Sampling tests compare a few moments within a tolerance; they cannot see which PDF a sample came from, nor atoms of small probability or a wrong law in empty bins.", "anchors": ["src/qp/ensemble.py:Ensemble.rvs", "src/qp/pdf_gen.py:Pdf_rows_gen._rvs", "src/qp/pdf_gen.py:rv_frozen_rows", "src/qp/hist_pdf.py:hist_gen._ppf", "src/qp/interp_pdf.py:interp_gen._ppf"]}
{"id": "C98", "title": "Conversions through random samples keep PDFs apart", "statement": "Converting an ensemble by drawing samples (to histograms, mixtures or splines) makes PDF i of the result from samples of PDF i only, for any number of samples (1000 unless given); the result has as many PDFs; for a histogram source the probability that a sample is counted in a bin is the probability of that bin.", "quantifier": "every ensemble shape, quantile function, number of samples and outcome of the random numbers", "why_tests_cant": "Tests convert one ensemble and compare within a wide tolerance; mixed rows, a wrong default or a bin convention that loses edge values are hidden by the statistical error.", "anchors": ["src/qp/conversion_funcs.py:extract_samples", "src/qp/conversion_funcs.py:extract_hist_samples", "src/qp/conversion_funcs.py:extract_mixmod_fit_samples", "src/qp/spline_pdf.py:spline_gen.create_from_samples", "src/qp/ensemble.py:Ensemble.convert_to"]}
{"id": "C99", "title": "Metric objects use the settings they are constructed with", "statement": "A metric object evaluates with the settings given to its constructor and with the documented defaults for the others; a keyword that is not a setting of the metric is refused with TypeError; evaluation gives the value of the corresponding function for these settings, with the reference in the role of the truth.", "quantifier": "all metric classes, all lists of keyword arguments and all ensembles", "why_tests_cant": "Tests construct metrics with a few correct keywords; that a misspelt or misplaced keyword leaves a default in force, for any class and any combination, shows no failure.", "anchors": ["src/qp/metrics/concrete_metric_classes.py", "src/qp/metrics/point_estimate_metric_classes.py", "src/qp/metrics/base_metric_classes.py:BaseMetric.__init__", "src/qp/metrics/metrics.py:calculate_kld"]}
{"id": "C100", "title": "Quantile PDFs have total probability one", "statement": "For quantiles that run from 0 to 1 the density returned by ens.pdf integrates to one, for every PDF and every reconstruction.", "quantifier": "all increasing quantiles from 0 to 1 and all increasing locations", "why_tests_cant": "Tests compare densities at chosen points with wide tolerances; the integral over the whole line for arbitrary locations is not a finite check, and the loss is hidden when many quantiles are used.", "anchors": ["src/qp/quantile_pdf_constructors/piecewise_linear.py", "src/qp/quantile_pdf_constructors/piecewise_constant.py", "src/qp/quant_pdf.py:quant_gen._pdf"]}
{"id": "C101", "title": "Logarithms of densities and probabilities", "statement": "ens.logpdf(x), ens.logcdf(x) and ens.logsf(x) are the logarithms of ens.pdf(x), ens.cdf(x) and ens.sf(x), -inf exactly where those are zero and never nan; exp(logpdf) gives pdf back, exp(logcdf) + exp(logsf) is one, and logcdf never decreases.", "quantifier": "all classes, all arrays of finite points, all densities and CDFs", "why_tests_cant": "Tests compare a few values on one grid where the density is positive; zeros, negative densities and the relation of the three functions at all points are not covered.", "anchors": ["src/qp/ensemble.py:Ensemble.logpdf", "src/qp/ensemble.py:Ensemble.logcdf", "src/qp/ensemble.py:Ensemble.logsf"]}
{"id": "C102", "title": "Spline reconstructions put the stated probability between the quantiles", "statement": "With the spline reconstructions of a quantile ensemble the density integrates to the difference of the quantiles between any two locations, to one in total, agrees with ens.cdf at the locations, and is never negative.", "quantifier": "all increasing quantiles from 0 to 1, all increasing locations, every interpolating spline", "why_tests_cant": "Tests look at a few densities on a grid; integrals between locations for arbitrary data and every interpolant cannot be enumerated.", "anchors": ["src/qp/quantile_pdf_constructors/cdf_spline_derivative.py", "src/qp/quantile_pdf_constructors/dual_spline_average.py", "src/qp/quant_pdf.py:quant_gen._cdf"]}
{"id": "C103", "title": "Analytic ensembles are the distributions of scipy", "statement": "For every continuous distribution of scipy.stats, qp.stats.<name> with given parameters has the density, distribution function and quantiles of scipy.stats.<name> with these parameters, for every PDF and at every point; parameters outside the domain give nan for that PDF only; the factory has a class for exactly the continuous distributions.", "quantifier": "all distributions (any formulas, shape checks and supports), all parameters of all PDFs, all points and probabilities", "why_tests_cant": "The tests use the normal distribution only; a distribution with bounded support behaves differently, and no finite set of points and distributions settles agreement.", "anchors": ["src/qp/factory.py:Factory._make_scipy_wrapped_class", "src/qp/factory.py:Factory._load_scipy_classes", "src/qp/pdf_gen.py:Pdf_gen.create_gen", "src/qp/pdf_gen.py:Pdf_gen_wrap"]}
{"id": "C104", "title": "What is put in is what comes out", "statement": "An ensemble created from explicit data (bin edges and contents, grid values on a common or on separate grids, mixture components, quantiles and locations, packed values, spline coefficients, sparse codes) has as many PDFs as rows were given, and evaluating it returns, for every PDF and every point, the value of the curve these data describe, divided by its mass: step functions, broken lines, weighted sums of components, the quantile relation, sums of B-splines, or weighted sums of the addressed basis functions.", "quantifier": "all grids (bins of equal or clearly unequal width), all data of non-vanishing mass, any number of PDFs, all lists of increasing points (for splines between their knots)", "why_tests_cant": "Creation, storage, row lookup and evaluation are separate steps that each can be right while their composition mixes up rows, arguments or normalisations; tests compare a few curves at a few points.", "anchors": ["src/qp/ensemble.py:Ensemble.__init__", "src/qp/ensemble.py:Ensemble.pdf", "src/qp/ensemble.py:Ensemble.cdf", "src/qp/ensemble.py:Ensemble.ppf", "src/qp/hist_pdf.py:hist_gen", "src/qp/interp_pdf.py:interp_gen", "src/qp/interp_pdf.py:interp_irregular_gen", "src/qp/mixmod_pdf.py:mixmod_gen", "src/qp/quant_pdf.py:quant_gen", "src/qp/sparse_pdf.py:sparse_gen"]}
{"id": "C105", "title": "Standard deviation, skewness and kurtosis", "statement": "`std()` is the square root of the variance of each PDF and `stats(moments=...)` returns, for the letters asked for and always in the order mean, variance, skewness, kurtosis, the mean, the variance, the third central moment over the cubed standard deviation and the fourth central moment over the squared variance minus three.", "quantifier": "for every PDF, every string of letters", "why_tests_cant": "Needs the exact central moments of the density for all contents and grids; tests compare shapes or single values.", "anchors": ["src/qp/ensemble.py: stats, std", "src/qp/hist_pdf.py: hist_gen._munp", "src/qp/interp_pdf.py: interp_gen._munp"]}
{"id": "C106", "title": "Entropy", "statement": "`entropy()` returns the differential entropy of each PDF: for a histogram the sum of -p log p times the bin width. It is never above the logarithm of the width of the support, reached only by the flat histogram, nor above the entropy of the normal distribution with the same variance, reached by a single normal component; a change of units by a factor s adds log s.", "quantifier": "for every normalised non-negative PDF of the histogram, interpolated and mixture classes, every bounded density, every factor and shift", "why_tests_cant": "Inequalities over all densities with equality cases; tests only call the method.", "anchors": ["src/qp/ensemble.py: entropy", "src/qp/hist_pdf.py: hist_gen._pdf", "src/qp/interp_pdf.py: interp_gen._pdf", "src/qp/mixmod_pdf.py: mixmod_gen._pdf"]}
{"id": "C107", "title": "The greedy search fits by least squares", "statement": "The functions and coefficients found for a PDF by the search behind the sparse class are distinct functions of the dictionary with the coefficients that minimise the sum of squared differences to the PDF; the search ends only when it has the number of functions asked for, the squared error is within the tolerance, or no function of the dictionary can reduce the error.", "quantifier": "every dictionary of functions of norm one, every PDF on the grid, every number of functions and tolerance", "why_tests_cant": "The Cholesky factor is updated in place and columns are swapped during the search; correctness for all dictionaries is an invariant of the loop, tests run one data set.", "anchors": ["src/qp/sparse_rep.py: sparse_basis"]}
{"id": "C108", "title": "A packed PDF is a probability distribution", "statement": "For every packed ensemble whose codes are not all zero in a row, the density of each PDF is non-negative, proportional to the unpacked values at the grid points and integrates to one; cdf is the integral of the density, rises from 0 to 1, ppf inverts it, and mean and variance are those of the density.", "quantifier": "every increasing grid, every row of codes not all zero, every positive row maximum, both packing types and every floor, all points and probabilities", "why_tests_cant": "The statement is about integrals over the real line and about all 256^n rows of codes.", "anchors": ["src/qp/packed_interp_pdf.py: packed_interp_gen._pdf, _cdf, _ppf, custom_generic_moment"]}
{"id": "C109", "title": "A plot shows the density of the chosen PDFs", "statement": "ens.plot(key) draws for each chosen PDF one curve, made of equally spaced points between the two ends of the range asked for, at the height of its density; plot_native draws the stored points of an interpolated PDF, the unpacked and normalised values of a packed one, the density on the grid of a sparse one and, for a histogram, bars as high as the stored densities and, for quantiles, marks at the stored locations with the curve of the density, each with its own label. Axis labels can be given for a new figure; giving neither or both of axes and xlim raises ValueError.", "quantifier": "every ensemble of a row class however obtained, every key, range, number of points and other keyword arguments", "why_tests_cant": "The tests only check that plotting one PDF does not raise; what is drawn for which selection is not looked at.", "anchors": ["src/qp/plotting.py: get_axes_and_xlims, plot_dist_pdf, plot_pdf_on_axes, plot_pdf_histogram_on_axes", "src/qp/ensemble.py: Ensemble.plot, Ensemble.plot_native", "src/qp/packed_interp_pdf.py: packed_interp_gen.plot_native"]}
{"id": "C110", "title": "Converting to a grid of values changes the density by no more than the grid allows", "statement": "When an ensemble of any kind is converted to an interpolated ensemble on a grid, and the original density has bounded slope on the range of the grid, the density of the result differs from the original at every point by no more than an explicit multiple of the largest spacing (plus what the mass outside the grid accounts for), its CDF at the grid points by no more than that times the distance from the start, and finer grids make the difference as small as one likes.", "quantifier": "all ensembles of all classes, all increasing grids however uneven, all densities with bounded slope on the grid, all points of the real line", "why_tests_cant": "The tests compare conversions on one grid with a tolerance; a bound for every grid and every density at every point is a theorem of analysis about the conversion and the normalisation together.", "anchors": ["src/qp/conversion_funcs.py: extract_vals_at_x", "src/qp/interp_pdf.py: interp_gen.__init__, interp_gen._pdf, interp_gen._cdf", "src/qp/ensemble.py: Ensemble.convert_to"]}
{"id": "C111", "title": "Scores prefer the true PDF", "statement": "Among all predictions for a group of objects, the Brier score and the CDE loss are best for the one whose density is that of the true values (the fraction of true values next to each grid point divided by the width of its cell), and for no other prediction on the grid.", "quantifier": "all lists of true values (two or more for the Brier score), all grids, all predictions", "why_tests_cant": "The claim compares the score of one prediction with that of every other prediction; tests compute a score for one.", "anchors": ["src/qp/metrics/metrics.py: calculate_brier, _prepare_for_brier", "src/qp/metrics/brier.py: Brier.evaluate", "src/qp/metrics/concrete_metric_classes.py: BrierMetric, CDELossMetric", "src/qp/metrics/array_metrics.py"]}
{"id": "C112", "title": "PIT values of correct PDFs are independent and uniform", "statement": "When the true value of each of two or more objects is drawn independently from the density the ensemble has for it, qp.metrics.PIT can be made for every draw and its samples are independent and uniformly distributed on the unit interval; if the distribution function of an object is off by at most eps from the integral of the density, the probability of a PIT value of at most u is off by at most eps from u.", "quantifier": "every number of objects from two on, all densities, all true values, all grids of levels; histograms, Gaussian mixtures and interpolated PDFs in particular", "why_tests_cant": "A statement about the distribution of the result over all draws; tests compute PIT values of fixed data.", "anchors": ["src/qp/metrics/pit.py: PIT.__init__, PIT._gather_pit_samples", "src/qp/hist_pdf.py: hist_gen._cdf", "src/qp/mixmod_pdf.py: mixmod_gen._cdf", "src/qp/interp_pdf.py: interp_gen._cdf"]}
{"id": "C113", "title": "Conversion to a histogram keeps expectations", "statement": "Converting an ensemble of any class to a histogram whose equal bins contain the PDFs changes the expectation of a quantity that varies by at most L per unit of x by no more than L times the bin width; in particular the mean of each PDF moves by no more than one bin width.", "quantifier": "all ensembles of all classes, all densities inside the bins, all numbers and widths of equal bins, all Lipschitz functions", "why_tests_cant": "Quantifies over all densities and all functions; tests compare a few values after one conversion.", "anchors": ["src/qp/conversion_funcs.py: extract_hist_values", "src/qp/hist_pdf.py: hist_gen.__init__, hist_gen._pdf", "src/qp/ensemble.py: Ensemble.convert_to"]}
{"id": "C114", "title": "Converting and selecting commute", "statement": "Converting an ensemble and then taking items by a key gives the same ensemble as taking the items first and converting them: the representation of a PDF does not depend on which other PDFs are in the ensemble.", "quantifier": "all ensembles of row classes however obtained, all keys (integers, slices, lists, masks), all grids, all target classes", "why_tests_cant": "Tests convert one whole ensemble; that no target class mixes information between PDFs is a statement about all ensembles and all selections.", "anchors": ["src/qp/conversion_funcs.py: extract_hist_values, extract_vals_at_x, extract_xy_vals, extract_quantiles, extract_sparse_from_xy", "src/qp/packed_interp_pdf.py: extract_and_pack_vals_at_x", "src/qp/factory.py: convert", "src/qp/ensemble.py: __getitem__"]}
{"id": "C115", "title": "Converting in parts", "statement": "Splitting the work does not change the result: if ensembles are concatenated and converted, each of them can be converted on its own and concatenating the converted parts gives the same ensemble.", "quantifier": "all numbers and sizes of compatible ensembles of row classes, all grids, all target classes", "why_tests_cant": "Parallel processing of large catalogues relies on it for every way of splitting; tests have none.", "anchors": ["src/qp/factory.py: convert, concatenate", "src/qp/conversion_funcs.py"]}
{"id": "C116", "title": "A change of units changes nothing but the units", "statement": "When the abscissas of the data of an ensemble (bin edges, grid points, locations of quantiles, means and widths of components) are given in other units, x being called s x + t, the density at the same point is divided by s, the distribution function is the same, and the quantiles and the mean are the old ones in the new units.", "quantifier": "all factors s > 0 and shifts t, all data of the histogram, interpolated, irregular, quantile and mixture classes, all points and probabilities", "why_tests_cant": "Needs all scales; fixed absolute tolerances only show for some of them, which tests with redshifts of order one never reach.", "anchors": ["src/qp/hist_pdf.py: hist_gen", "src/qp/interp_pdf.py: interp_gen, interp_irregular_gen", "src/qp/quant_pdf.py: quant_gen, pad_quantiles", "src/qp/mixmod_pdf.py: mixmod_gen", "src/qp/utils.py: get_bin_indices"]}
{"id": "C117", "title": "Metrics do not depend on the units of x", "statement": "When all densities, true values, limits and steps are given in other units, the KL divergence, the goodness-of-fit statistics, the PIT and the outlier rates are the same, root mean square differences and the CDE loss are divided by the factor of the units like the densities, and no metric changes which of two predictions is better.", "quantifier": "all factors and shifts, all ensembles, true values, limits and steps", "why_tests_cant": "Compares the results for all units; tests use one.", "anchors": ["src/qp/metrics/metrics.py: _calculate_grid_parameters, calculate_kld, calculate_rmse, calculate_brier, calculate_outlier_rate", "src/qp/metrics/array_metrics.py: quick_kld, quick_rmse", "src/qp/metrics/concrete_metric_classes.py: CDELossMetric", "src/qp/metrics/goodness_of_fit.py", "src/qp/metrics/pit.py: PIT", "src/qp/utils.py: safelog"]}
{"id": "C118", "title": "A file can be converted chunk by chunk by several processes", "statement": "Reading a file with iterator, converting every item with convert_to and writing the converted items at their row ranges into a new file gives, after finalisation, the file of the converted whole: it reads back as what converting the whole ensemble gives.", "quantifier": "all ensembles of row classes with and without ancillary data, all target classes and increasing grids, all chunk sizes, all numbers of processes, all orders in which the pieces are written", "why_tests_cant": "A test runs one schedule with one chunk size; the claim quantifies over all interleavings of all processes and all divisions into chunks.", "anchors": ["src/qp/factory.py:iterator", "src/qp/ensemble.py:Ensemble.convert_to", "src/qp/ensemble.py:Ensemble.initializeHdf5Write", "src/qp/ensemble.py:Ensemble.writeHdf5Chunk", "src/qp/ensemble.py:Ensemble.finalizeHdf5Write", "src/qp/conversion_funcs.py"]}
{"id": "C119", "title": "Results computed chunk by chunk from a file are those of the whole file", "statement": "Evaluating the items of iterator gives the values of their rows in the whole ensemble; CDE loss and Brier score accumulated over the items of all processes in any order and finalised are those of the whole ensemble; PIT values, root mean square differences and KL divergences of the items are those of their rows.", "quantifier": "all files of row classes, all chunk sizes, numbers of processes and orders of the items, all true values", "why_tests_cant": "A test fixes one chunk size and one order; errors appear only for special divisions, such as a last chunk of one PDF.", "anchors": ["src/qp/factory.py:iterator", "src/qp/metrics/concrete_metric_classes.py:CDELossMetric", "src/qp/metrics/concrete_metric_classes.py:BrierMetric", "src/qp/metrics/pit.py:PIT._gather_pit_samples", "src/qp/metrics/metrics.py:calculate_rmse"]}
{"id": "C120", "title": "Rounding errors of histograms stay small", "statement": "For any edges and contents, and in whatever order numpy adds, the stored heights, their integral, the cumulated values and the CDF at every point differ from the exact ones by a relative error of a few units in the last place per bin; heights are not negative, cumulated values never decrease, and the CDF never decreases, is exactly 0 before the first edge and exactly 1 after the last one.", "quantifier": "all roundings that are monotone with bounded relative error (IEEE doubles among them), all increasing edges, all contents that are not negative, all points, all orders of summation", "why_tests_cant": "A test compares a few values with a tolerance chosen by hand; a bound that holds for all inputs and all orders of summation needs a proof.", "anchors": ["src/qp/hist_pdf.py:hist_gen.__init__", "src/qp/hist_pdf.py:hist_gen._compute_cdfs", "src/qp/hist_pdf.py:hist_gen._cdf"]}
{"id": "C121", "title": "Rounding errors of interpolated PDFs stay small", "statement": "For any grid and ordinates the stored ordinates, the PDF and the CDF at every point differ from the exact ones by a few units in the last place per grid point; the PDF is not negative, the stored cumulated values lie between 0 and 1, never decrease and end at exactly 1. A row on an irregular grid with positive area is never divided by zero.", "quantifier": "all roundings as in C120, all increasing grids, all ordinates that are not negative, all points", "why_tests_cant": "A test compares a few values with a tolerance chosen by hand; negative densities and cancellation appear only for special values.", "anchors": ["src/qp/interp_pdf.py:interp_gen.__init__", "src/qp/interp_pdf.py:interp_gen._compute_ycumul", "src/qp/interp_pdf.py:interp_gen._pdf", "src/qp/interp_pdf.py:interp_gen._cdf", "src/qp/utils.py:normalize_interp1d"]}
{"id": "C122", "title": "Rounding errors of mixtures stay small", "statement": "The stored weights lie between 0 and 1 and add up to 1 up to a few units in the last place per component; PDF and CDF differ from the weighted mean of the component values by as little; the CDF is at most 1.", "quantifier": "all roundings as in C120, all weights that are not negative, all component values, all orders of summation", "why_tests_cant": "Whether a sum of rounded weights exceeds one depends on the weights in the last bit.", "anchors": ["src/qp/mixmod_pdf.py:mixmod_gen.__init__", "src/qp/mixmod_pdf.py:mixmod_gen._pdf", "src/qp/mixmod_pdf.py:mixmod_gen._cdf"]}
{"id": "C123", "title": "Points are found in their bin despite rounding", "statement": "The density of a histogram at a point is the height of the bin that contains it, 0 outside, also when the position is computed in floating-point numbers.", "quantifier": "all roundings as in C120, all edges, all points", "why_tests_cant": "Points at or next to an edge are looked up wrongly only for special combinations of edges.", "anchors": ["src/qp/utils.py:get_bin_indices", "src/qp/hist_pdf.py:hist_gen._pdf"]}
{"id": "C124", "title": "A file written in chunks holds what was written whatever the element types", "statement": "When an ensemble is written in chunks, the file reads back as the ensemble: numbers are not rounded, cut off or clipped and names are not shortened by the element types of the data sets, which are those of the ensemble that allocated the file.", "quantifier": "all element types (floats of any precision, integers, byte strings), all ensembles of row classes with ancillary data, all chunk sizes, processes and orders of writing", "why_tests_cant": "The types come from the first chunk; a loss appears only when a later chunk needs a wider type, without an error.", "anchors": ["src/qp/ensemble.py:Ensemble._get_allocation_kwds", "src/qp/ensemble.py:Ensemble.initializeHdf5Write", "src/qp/ensemble.py:Ensemble.writeHdf5Chunk"]}
{"id": "C125", "title": "Distributions survive single-precision files", "statement": "Files allocated with get_allocation_kwds of the classes hold single-precision numbers. A distribution read from such a file is normalised exactly and its densities, weights and CDF differ from the original by a few units of single precision at all points; packed PDFs do not change at all; locations and grids keep their order and remain distinct.", "quantifier": "all normalised histograms, interpolated PDFs, mixtures and packed PDFs, all quantile locations and per-PDF grids, all points, including numbers too small for full precision", "why_tests_cant": "A test with round numbers near one loses nothing; the bound must hold for all densities, including tails that underflow.", "anchors": ["src/qp/hist_pdf.py:hist_gen.get_allocation_kwds", "src/qp/interp_pdf.py:interp_gen.get_allocation_kwds", "src/qp/interp_pdf.py:interp_irregular_gen.get_allocation_kwds", "src/qp/mixmod_pdf.py:mixmod_gen.get_allocation_kwds", "src/qp/packed_interp_pdf.py:packed_interp_gen.get_allocation_kwds", "src/qp/quant_pdf.py:quant_gen.get_allocation_kwds"]}
{"id": "C126", "title": "Ensembles do not change behind the user's back", "statement": "Building, selecting from, appending to and updating an ensemble, setting its ancillary data and looking at its columns change no other ensemble, no array and no dictionary of the user. Writing into an array changes exactly the arrays that share the written place; the normalised values of an ensemble (histogram heights, ordinates, weights) share memory with nothing, so that no later write by the user, and no write into a selection of it or into the ensemble it was selected from, changes them. A selection by a list of indices owns its data and ancillary columns.", "quantifier": "all programs of array, dictionary and ensemble operations of any length, all classes that store arrays, all keys, all contents", "why_tests_cant": "A test writes into one array and looks at one other ensemble; the claim is about every pair of objects after every sequence of operations.", "anchors": ["src/qp/ensemble.py:Ensemble.__getitem__", "src/qp/ensemble.py:Ensemble.update", "src/qp/ensemble.py:Ensemble.update_objdata", "src/qp/ensemble.py:Ensemble.append", "src/qp/ensemble.py:Ensemble.set_ancil", "src/qp/ensemble.py:Ensemble.add_to_ancil", "src/qp/dict_utils.py:slice_dict", "src/qp/dict_utils.py:concatenate_dicts", "src/qp/hist_pdf.py:hist_gen.__init__", "src/qp/interp_pdf.py:interp_gen.__init__", "src/qp/mixmod_pdf.py:mixmod_gen.__init__", "src/qp/quant_pdf.py:quant_gen.__init__"]}
{"id": "C127", "title": "Data that do not fit are refused", "statement": "Building an ensemble of histograms, interpolated PDFs, mixtures, quantiles, packed PDFs or splines succeeds exactly when only known keywords are given, none is missing, each table has rows of the length that the grid asks for, no entry is text and no weight is negative; otherwise an exception says which: TypeError for keywords and text, ValueError for lengths and weights, IndexError for missing axes or grid points. What is accepted is a probability distribution.", "quantifier": "all keyword dictionaries, all grids, all arrays of any rank with numbers, nan and text", "why_tests_cant": "A test tries a handful of wrong arguments; the claim says that there are no others that slip through and no right ones that are refused.", "anchors": ["src/qp/hist_pdf.py:hist_gen.__init__", "src/qp/interp_pdf.py:interp_gen.__init__", "src/qp/interp_pdf.py:interp_irregular_gen.__init__", "src/qp/mixmod_pdf.py:mixmod_gen.__init__", "src/qp/quant_pdf.py:quant_gen.__init__", "src/qp/packed_interp_pdf.py:packed_interp_gen.__init__", "src/qp/spline_pdf.py:spline_gen.__init__", "src/qp/pdf_gen.py:Pdf_rows_gen.create_gen"]}
{"id": "C128", "title": "Evaluations do not depend on earlier evaluations", "statement": "What pdf, cdf and ppf return depends on the PDFs as they are and not on which evaluations were made before; if the arrays of the object data are written into, densities, CDFs and PPFs all follow.", "quantifier": "every sequence of density, CDF and PPF evaluations of any of the PDFs, with writes into the arrays in between", "why_tests_cant": "Tests evaluate each ensemble in one fixed order; tables that are computed on the first call and kept only show in other orders or after a write.", "anchors": ["src/qp/hist_pdf.py: hist_gen._compute_cdfs, _cdf, _ppf", "src/qp/interp_pdf.py: interp_gen.__init__, _compute_ycumul, interp_irregular_gen._compute_ycumul, _cdf, _ppf", "src/qp/packed_interp_pdf.py: packed_interp_gen.__init__, _unpack"]}
{"id": "C129", "title": "The order of the objects does not matter", "statement": "Bias, scatter and outlier rate of point estimates, Kolmogorov-Smirnov, Cramer-von Mises and Anderson-Darling statistics, the PIT distribution and its summary numbers, the Brier score and the CDE loss are the same when the objects, each with its truth, are taken in another order; metrics with one value per PDF return the same values in that order; an exception in one order is the same exception in the other.", "quantifier": "all finite lists of objects and all permutations of them, all grids and limits", "why_tests_cant": "A test compares one or two orders of one catalogue; the number of orders grows with the factorial of the catalogue.", "anchors": ["src/qp/metrics/point_estimate_metric_classes.py", "src/qp/metrics/pit.py", "src/qp/metrics/goodness_of_fit.py", "src/qp/metrics/brier.py", "src/qp/metrics/metrics.py:calculate_brier", "src/qp/metrics/metrics.py:calculate_kld", "src/qp/metrics/metrics.py:calculate_rmse", "src/qp/metrics/concrete_metric_classes.py:CDELossMetric"]}
{"id": "C130", "title": "A finer description of the same PDF gives the same answers", "statement": "Dividing a bin of a histogram into two of the same height, adding empty bins at its ends, adding a grid point whose value lies on the line between its neighbours or one of value zero beyond an end of value zero, putting the components of a mixture in another order, dividing a component into two or adding one of weight zero describe the same PDF: density, CDF, PPF and moments do not change.", "quantifier": "all histograms, grids and mixtures, any number of added edges, points and components, all points and probabilities", "why_tests_cant": "A test compares two descriptions at a few points; the claim is about all refinements.", "anchors": ["src/qp/hist_pdf.py: hist_gen._pdf, _cdf, _ppf, custom_generic_moment", "src/qp/interp_pdf.py: interp_gen._pdf, _cdf, interp_irregular_gen", "src/qp/utils.py: normalize_interp1d", "src/qp/mixmod_pdf.py: mixmod_gen._pdf, _cdf, _ppf", "src/qp/packed_interp_pdf.py: packed_interp_gen", "src/qp/packing_utils.py: linear_pack_from_rowmax"]}
{"id": "C131", "title": "A mirrored PDF gives mirrored answers", "statement": "If every position of a PDF is replaced by its negative, the density is mirrored, the CDF at -x is one minus the CDF at x, the quantile of 1-q is the negated quantile of q, the mean is negated, and goodness-of-fit statistics of negated data under the mirrored PDF do not change.", "quantifier": "all histograms, interpolated PDFs and Gaussian mixtures, all positions and probabilities, all data", "why_tests_cant": "A test has a few PDFs, mostly symmetric ones; a wrong convention at one side (left or right edge) only shows when both orientations are compared for all PDFs.", "anchors": ["src/qp/hist_pdf.py: hist_gen._pdf, _cdf, _ppf, custom_generic_moment", "src/qp/interp_pdf.py: interp_gen._pdf, _cdf, interp_irregular_gen", "src/qp/utils.py: normalize_interp1d", "src/qp/mixmod_pdf.py: mixmod_gen._pdf, _cdf, _ppf", "src/qp/metrics/goodness_of_fit.py: goodness_of_fit_metrics"]}
{"id": "C132", "title": "A few outliers do not move the statistics of point estimates", "statement": "As long as fewer than half of the objects are outliers, the bias stays in the range of the residuals of the others and sigma-MAD is at most 1.4826 times the length of that range; with at most a quarter of outliers sigma-IQR is at most the length divided by 1.349, and the outlier rate is exactly the fraction of outliers if these are clearly separated.", "quantifier": "all lists of estimates and true values, all positions and values of the outliers", "why_tests_cant": "A test has one list with a few outliers; the claim is about arbitrary values at arbitrary places, for all numbers of objects.", "anchors": ["src/qp/metrics/point_estimate_metric_classes.py: PointBias.evaluate, PointSigmaIQR.evaluate, PointSigmaMAD.evaluate, PointOutlierRate.evaluate"]}
{"id": "C133", "title": "Small changes of the data have small effects", "statement": "If every input value of a histogram or an interpolated PDF changes by at most a fraction e of itself, the density changes by at most 2e/(1-e) of itself and the CDF by at most e/(2(1-e)); the same for the weights of mixtures; moving the means of a Gaussian mixture by d changes its CDF by at most d/(sqrt(2 pi) s) with s the smallest width. If no residual moves by more than d, bias, sigma-IQR and sigma-MAD move by at most d, 2d/1.349 and 2*1.4826 d, and the KS statistic follows the CDF with constant 1, the CvM statistic with constant 2n. All metrics are continuous in this sense. The largest value stored with a packed row does not matter, and changing its codes by one step or moving the locations of quantiles changes densities, CDFs and quantiles by a stated amount.", "quantifier": "all grids, rows, weights, changes, evaluation points, samples", "why_tests_cant": "continuity with explicit constants is a statement on all perturbations of all data", "anchors": ["src/qp/hist_pdf.py:hist_gen", "src/qp/interp_pdf.py:interp_gen", "src/qp/mixmod_pdf.py:mixmod_gen", "src/qp/metrics/point_estimate_metric_classes.py", "src/qp/metrics/goodness_of_fit.py"]}
{"id": "C134", "title": "Ordered PDFs give ordered answers", "statement": "If the CDF of one PDF is nowhere below that of another, every quantile of the first is at most that of the second (and conversely for histograms and PDFs with their own grids), and so is the reported mean. The quantile of a histogram for q is the largest point of its range where the CDF does not exceed q, also with empty bins. Raising the means of a Gaussian mixture raises all its quantiles.", "quantifier": "all grids, contents, weights, probabilities and evaluation points", "why_tests_cant": "an order between functions cannot be checked on finitely many points, and the equivalence quantifies over all probabilities", "anchors": ["src/qp/hist_pdf.py:hist_gen._ppf", "src/qp/interp_pdf.py:interp_gen._ppf", "src/qp/interp_pdf.py:interp_irregular_gen._ppf", "src/qp/mixmod_pdf.py:mixmod_gen._ppf", "src/qp/packed_interp_pdf.py:packed_interp_gen._ppf", "src/qp/quant_pdf.py:quant_gen._ppf"]}
{"id": "C135", "title": "Drawing samples", "statement": "Drawing samples of a PDF on a set of axes adds one mark per sample and one curve of the PDF over the range of these axes, at the number of points asked for, changes no other axes, and accepts the properties of lines.", "quantifier": "all densities, samples, axes, numbers of points, property names and earlier contents of the figure", "why_tests_cant": "which axes are current, what they hold and which arguments are given are unbounded; a picture is not an assertion", "anchors": ["src/qp/plotting.py:plot_pdf_samples_on_axes"]}
{"id": "C136", "title": "Rebinning loses only what the bins cannot hold", "statement": "Converting to histograms on fine bins and then on wider bins made of them gives the histogram that the direct conversion gives; converting a histogram to finer edges that include its own leaves the PDF as it is; of two PDFs the one that lies to the left stays to the left, in its CDF and all its quantiles.", "quantifier": "ensembles of all classes, all edges, points and probabilities", "why_tests_cant": "A test converts one ensemble to one or two sets of edges; the claim compares all chains of conversions on all points.", "anchors": ["src/qp/conversion_funcs.py:extract_hist_values", "src/qp/hist_pdf.py:hist_gen", "src/qp/ensemble.py:Ensemble.convert_to", "src/qp/ensemble.py:Ensemble.histogramize"]}
{"id": "C137", "title": "More samples converge to the right answer", "statement": "As the number of random samples grows, the Kolmogorov-Smirnov value of the goodness of fit approaches the largest distance between the distribution functions of estimate and reference, the Cramer-von Mises value per sample approaches their mean square difference, and a histogram made from samples approaches the one made from the CDF. For a growing catalogue whose true values come from its PDFs the KS value of the PIT tends to zero and the stored PIT distribution tends to the uniform one.", "quantifier": "all ensembles with independent uniform random numbers, all references and bins, almost all sequences of random numbers", "why_tests_cant": "A test sees one seed and one number of samples and can only compare within a tolerance; the claim is the limit for almost every sequence.", "anchors": ["src/qp/metrics/metrics.py:calculate_goodness_of_fit", "src/qp/metrics/goodness_of_fit.py:_kolmogorov_smirnov", "src/qp/metrics/goodness_of_fit.py:_cramer_von_mises", "src/qp/metrics/pit.py:PIT", "src/qp/conversion_funcs.py:extract_hist_samples"]}
{"id": "C138", "title": "Quantiles are right despite rounding", "statement": "For any PDF given by a histogram or by values on a grid and any probability, the quantile computed in floating-point numbers lies in the range of that PDF, has the probability asked for to its left up to a few units in the last place per bin, and does not decrease when the probability increases.", "quantifier": "all roundings as in C120, all increasing grids, all contents that are not negative, all probabilities", "why_tests_cant": "Inverting an interpolated curve divides by small differences; the failing probabilities are single floating-point numbers next to a bin edge or to one.", "anchors": ["src/qp/hist_pdf.py:hist_gen._ppf", "src/qp/interp_pdf.py:interp_gen._ppf", "src/qp/interp_pdf.py:interp_irregular_gen._ppf"]}
{"id": "C139", "title": "The curve through the quantiles", "statement": "With three or more quantiles at increasing locations, the CDF and the quantile function are, between the stored points, the one continuously differentiable curve through all stored points that is a parabola between neighbouring break points (halfway between stored points, without the first and the last). So points on a straight line or parabola are reproduced exactly, other units or a mirror image change nothing else, the quantiles depend linearly on the locations with weights that sum to one, and the CDF of quantiles from 0 to 1 is continuous.", "quantifier": "all numbers of quantiles from three, all increasing probabilities and locations, all points between the first and the last", "why_tests_cant": "That a curve exists for every choice of locations and is unique, is a statement about all linear systems that can arise; tests compare a few curves by eye.", "anchors": ["src/qp/quant_pdf.py:quant_gen._cdf", "src/qp/quant_pdf.py:quant_gen._ppf", "src/qp/utils.py:interpolate_multi_x_y", "src/qp/utils.py:interpolate_x_multi_y"]}
{"id": "C140", "title": "The cubic curve through given points", "statement": "With four or more points at increasing abscissae, the cubic curve behind the spline-based densities is the one twice continuously differentiable curve through all points that is a cubic between neighbouring break points (all points except the second and the last but one). So ordinates on a polynomial of degree at most three are reproduced exactly, the curve is linear in the ordinates (dividing them by a number divides the curve), and other units or a mirror image change nothing else.", "quantifier": "all numbers of points from four, all increasing abscissae, all ordinates, all positions between the first and the last point", "why_tests_cant": "That a curve exists for every choice of abscissae and is unique, is a statement about all linear systems that can arise; tests compare a few curves by eye.", "anchors": ["src/qp/spline_pdf.py: normalize_spline, build_splines, spline_gen", "src/qp/quantile_pdf_constructors/cdf_spline_derivative.py: prepare_constructor", "src/qp/quantile_pdf_constructors/dual_spline_average.py: construct_pdf"]}
{"id": "C141", "title": "Spline PDFs from points", "statement": "A spline PDF created from at least four points with increasing abscissae is, everywhere, the cubic curve through these points divided by one number, the integral of the curve over the range of all abscissae. So its values at the given abscissae are proportional to the given ordinates, and if all PDFs of the ensemble span the same range its CDF rises from exactly 0 at the first abscissa to exactly 1 at the last one as the integral of the density. The stored coefficients are the only ones with this curve.", "quantifier": "all numbers of PDFs, all numbers of points from four, all increasing abscissae, all ordinates with an integral other than zero, all positions", "why_tests_cant": "The stored object consists of coefficients that are no values of the density; that they give the right curve between the points for every choice of points can not be seen from values at sample points.", "anchors": ["src/qp/spline_pdf.py: normalize_spline, build_splines, spline_gen.build_normed_splines, spline_gen.create_from_xy_vals, spline_gen._pdf, spline_gen._cdf"]}
{"id": "C142", "title": "Conversion to splines", "statement": "Converting an ensemble to the spline class on at least four increasing abscissae gives one spline PDF for every PDF: its density at the abscissae is the old density up to one factor per PDF, it is never negative, has total probability one, and its CDF is its integral. A density that already is a cubic spline with these abscissae is kept, and converting the result again on the same abscissae changes nothing.", "quantifier": "for all densities, all numbers of PDFs and all increasing abscissae", "why_tests_cant": "Tests convert a few smooth densities and compare within a tolerance at a few points; they do not reach densities whose spline overshoots, nor the whole class of densities that must be kept exactly.", "anchors": ["src/qp/spline_pdf.py: spline_gen.create_from_xy_vals, normalize_spline, build_splines", "src/qp/conversion_funcs.py: extract_xy_vals"]}
{"id": "C143", "title": "The Anderson-Darling comparison of the PIT with a uniform distribution", "statement": "With at least two PIT values within the limits (lower < upper), evaluate_PIT_anderson_ksamp returns a statistic, however the values are placed and however many of them are tied: the variance it divides by is never zero or negative. The statistic is (distance - 1)/sigma, where the distance is the squared difference of the two empirical distribution functions (halfway up their jumps), weighted by the inverse variance of the pooled one and averaged over the pooled values, and sigma only depends on the number of values. It is smallest exactly when the PIT values within the limits are the equally spaced values from the lower to the upper limit. The order of the objects does not matter, mirroring the PIT values within the limits does not matter, and for two samples in general only the ranks matter. No value within the limits or limits without room raise ValueError; a single value raises ValueError at the lower limit and IndexError elsewhere.", "quantifier": "all lists of PIT values, all limits, any number of ties; for quick_anderson_ksamp all pairs of samples", "why_tests_cant": "A test evaluates the statistic of a few samples; that the variance never vanishes for any number of values, and which samples minimise the statistic, quantify over all samples.", "anchors": ["src/qp/metrics/pit.py: PIT.evaluate_PIT_anderson_ksamp, PIT._trim_pit_values", "src/qp/metrics/array_metrics.py: quick_anderson_ksamp"]}
{"id": "C144", "title": "Which tables of sparse codes can be used", "statement": "An ensemble of sparse PDFs is created from a table of codes exactly if the table has a row and a column and each code names a column of the dictionary (n_mu * n_sig * n_v columns); one code outside is an IndexError of the whole call. Each PDF is the normalised mixture described by its own codes: the first column with weight one whatever its code says, the others with the weights in their codes, in any order, repeated columns adding up.", "quantifier": "all dictionaries, all grids, all tables of integer codes", "why_tests_cant": "a test creates ensembles from codes made by the encoder, never from arbitrary integers", "anchors": ["src/qp/sparse_pdf.py: sparse_gen.__init__", "src/qp/sparse_rep.py: decode_sparse_indices, get_N, create_voigt_basis"]}
{"id": "C145", "title": "The tables of an ensemble belong together", "statement": "A mixture is built from means, widths and weights, packed PDFs from values and maxima, splines from knots, coefficients and orders only if the tables have a row for each PDF and, for mixtures, an entry for each component; tables that do not belong together are refused when the ensemble is built, and what is accepted can be evaluated and integrates to one.", "quantifier": "all tables of all sizes, all PDFs, all points", "why_tests_cant": "a test uses tables of one size; that numpy stretches a single entry over all components is only seen with the wrong sizes", "anchors": ["src/qp/mixmod_pdf.py: mixmod_gen.__init__, _pdf, _cdf", "src/qp/packed_interp_pdf.py: packed_interp_gen.__init__, _unpack", "src/qp/spline_pdf.py: spline_gen.__init__, _pdf", "src/qp/utils.py: reshape_to_pdf_size"]}
{"id": "C146", "title": "Finer grids bring the metrics to the integrals they approximate", "statement": "For bounded densities that are continuous almost everywhere between the limits, a smaller grid step dx brings calculate_moment and moment_partial to the integral of x^N times the density, calculate_rmse to the root of the mean squared difference, calculate_kld to the divergence over the limits, the CDE loss on an evenly spaced evaluation grid to its definition (mean integral of the squared density less twice the mean density at the true values), the mode found on a grid to the place of the maximum, and the Brier score to a finite value.", "quantifier": "every ensemble of bounded, almost everywhere continuous densities, all limits l0 < l1, all orders of moments, the limit dx -> 0 from above; the error bound: every grid", "why_tests_cant": "A test compares a few grids with a tolerance; convergence is a statement about all small steps and all densities.", "anchors": ["src/qp/metrics/metrics.py: calculate_moment, calculate_kld, calculate_rmse, calculate_brier", "src/qp/metrics/array_metrics.py: quick_moment, quick_kld, quick_rmse", "src/qp/metrics/concrete_metric_classes.py: CDELossMetric.evaluate", "src/qp/metrics/brier.py: Brier.evaluate", "src/qp/ensemble.py: Ensemble.mode, Ensemble.moment_partial"]}
{"id": "C147", "title": "Finer grids bring a converted ensemble to the original", "statement": "Converting an ensemble of any class to histograms with more and more equal bins between a and b succeeds, and what the histograms answer approaches the original restricted to [a, b]: cdf wherever the original cdf is continuous (uniformly if it is continuous and all the mass is inside), pdf wherever the original cdf has a derivative, ppf at every probability that the original cdf passes at one point only. Converting to interpolated PDFs on finer and finer evenly spaced grids succeeds from some grid on, and the pdf approaches the original density divided by its integral over the grid at every point of continuity, uniformly for densities continuous on [a, b]; for continuous densities that are not negative the cdf approaches, uniformly, the integral of the density from a divided by the whole integral, and the ppf approaches the quantiles of that distribution.", "quantifier": "every ensemble of any class with known answers at increasing points, all a < b with some mass between them, the limit of infinitely many bins or grid points", "why_tests_cant": "A test converts on a few grids and compares with a tolerance.", "anchors": ["src/qp/conversion_funcs.py: extract_hist_values, extract_vals_at_x", "src/qp/hist_pdf.py: hist_gen", "src/qp/interp_pdf.py: interp_gen", "src/qp/ensemble.py: Ensemble.convert_to", "src/qp/utils.py: evaluate_hist_x_multi_y"]}
{"id": "C148", "title": "Putting PDFs into the same bins does not make them more different", "statement": "Two ensembles of any classes, with all the probability of every PDF inside the same equal bins, are converted to histograms. Between any two of the PDFs the greatest difference of the cdf, the integral of the absolute difference of the densities, the integral of their squared difference, and (for positive densities) the Kullback-Leibler divergence are at most what they are between the originals; calculate_rmse on fine grids does not grow.", "quantifier": "every pair of ensembles of any classes known through their cdf at the edges, every list of equal bins, all pairs of PDFs", "why_tests_cant": "A test compares a few pairs of PDFs.", "anchors": ["src/qp/conversion_funcs.py: extract_hist_values", "src/qp/hist_pdf.py: hist_gen", "src/qp/ensemble.py: Ensemble.convert_to", "src/qp/metrics/metrics.py: calculate_rmse"]}
{"id": "C149", "title": "More quantiles bring a converted ensemble to the original", "statement": "An ensemble of any class is converted to quantiles at m+1 evenly spaced probabilities from 0 to 1, with m growing. Every conversion succeeds. If the quantile functions are continuous, those of the converted ensembles tend to them uniformly, with an explicit bound for every m. If the PDFs have a continuous positive density on an interval, the CDFs tend to the original ones uniformly and faster than 1/m, from some m on they are CDFs (increasing, between 0 and 1), and the densities tend to the original ones away from the ends.", "quantifier": "every ensemble of every class known through its quantiles, every number of quantiles, all probabilities and points", "why_tests_cant": "A test uses one number of quantiles and a tolerance; that the quadratic spline stays near the lines between the quantiles for every list of points is a statement about a linear system of any size.", "anchors": ["src/qp/quant_pdf.py: quant_gen, pad_quantiles", "src/qp/conversion_funcs.py: extract_quantiles", "src/qp/quantile_pdf_constructors/piecewise_linear.py: PiecewiseLinear", "src/qp/utils.py: interpolate_x_multi_y, interpolate_multi_x_y", "src/qp/ensemble.py: Ensemble.convert_to"]}
{"id": "C150", "title": "Close PDFs have close metrics", "statement": "If the densities of two ensembles differ by at most d at the grid points, their moments, their RMSE to a third ensemble, their CDE losses and their Brier scores differ by at most an explicit multiple of d. If the distribution functions differ by at most d at the true values, the PIT values, every quantile of them and the Kolmogorov-Smirnov statistic differ by at most d, and the Cramer-von Mises statistic by at most 2 n d. So a conversion changes the metrics no more than its error allows: for histograms whose bins hold at most d of the mass, for interpolated PDFs by the error bound of C110; and with enough equal bins the PIT statistics of the histograms are those of the original up to any tolerance.", "quantifier": "every pair of ensembles, every grid, every set of true values, every ensemble of every class converted, every number of bins", "why_tests_cant": "A test compares one ensemble with one conversion; it gives no bound for the others.", "anchors": ["src/qp/metrics/metrics.py: calculate_moment, calculate_rmse, calculate_brier", "src/qp/metrics/concrete_metric_classes.py: CDELossMetric", "src/qp/metrics/pit.py: PIT, PIT.evaluate_PIT_CvM, PIT.evaluate_PIT_KS", "src/qp/hist_pdf.py: hist_gen", "src/qp/interp_pdf.py: interp_gen", "src/qp/ensemble.py: Ensemble.convert_to"]}
{"id": "C151", "title": "Errors of repeated conversions add up", "statement": "An ensemble of any class, with all its probability between a and z, is converted to histograms again and again, each time with other equal bins from a to z. All conversions succeed. The cdf of the last ensemble differs from that of the first, at every point, by at most the sum over the conversions of the largest original probability in one of its bins; errors are not amplified. At edges common to all conversions it is the same. The PIT values, their quantiles and their Kolmogorov-Smirnov statistic change by at most that sum, Cramer-von Mises by at most 2 n times it.", "quantifier": "every ensemble of every class, every number of conversions, every choice of equal bins, all points, all true values", "why_tests_cant": "The number of conversions is not bounded; a test runs one chain.", "anchors": ["src/qp/ensemble.py: Ensemble.convert_to", "src/qp/hist_pdf.py: hist_gen", "src/qp/conversion_funcs.py: extract_hist_values", "src/qp/metrics/pit.py: PIT"]}
{"id": "C152", "title": "The KS statistic of the PIT tells calibrated catalogues from the others", "statement": "For a growing catalogue with independent true values whose PIT values follow a common law, the KS statistic of the PIT approaches the largest distance of that law from the uniform law: it tends to zero exactly if the PIT values are uniform, so a miscalibrated catalogue is noticed. The CvM statistic per object approaches the mean square of that distance. If the true values are drawn from the exact PDFs but the catalogue holds distribution functions off by at most delta, the KS statistic is in the end at most delta (plus any positive number) and CvM per object at most 2 delta; for histograms whose contents were rounded by a relative epsilon delta is epsilon / (2 (1 - epsilon)).", "quantifier": "every sequence of distribution functions, every common law of the PIT values, every rounding, almost every sequence of true values", "why_tests_cant": "A limit over unboundedly many random objects; a test has one seed and one size.", "anchors": ["src/qp/metrics/pit.py: PIT, evaluate_PIT_KS, evaluate_PIT_CvM", "src/qp/hist_pdf.py: hist_gen"]}
{"id": "C153", "title": "Quantile locations keep their precision", "statement": "A quantile ensemble stores the locations it was given, in the precision in which they were given, whatever the element type of the probabilities. (The code does so only if the probabilities already run from 0 to 1 or input is not checked; if an end has to be added, every location is converted to the element type of the probabilities.)", "quantifier": "all probabilities, locations and element types", "why_tests_cant": "The conversion depends on the values and the element types together; tests use double precision throughout.", "anchors": ["src/qp/quant_pdf.py: pad_quantiles, quant_gen"]}
{"id": "C154", "title": "Goodness of fit measures what a conversion loses", "statement": "An ensemble is converted to histograms with equal bins. When samples of the histograms are compared with the original by calculate_goodness_of_fit, the Kolmogorov-Smirnov value of each PDF approaches, as the number of samples grows, the largest distance of the two distribution functions, and so does the value when samples of the original are compared with the histograms. This number is at most the largest probability in a bin, and below any tolerance with enough bins. For any finite number of samples, replacing the references by approximations with error d changes the Kolmogorov-Smirnov values by at most d and the Cramer-von Mises values by at most 2 m d.", "quantifier": "all ensembles with one index, all distribution functions without jumps and mass inside the bins, all numbers of samples, almost all sequences of random numbers", "why_tests_cant": "Statements about limits, almost sure convergence and all distribution functions; a test sees one sequence of random numbers.", "anchors": ["src/qp/metrics/metrics.py: calculate_goodness_of_fit", "src/qp/metrics/goodness_of_fit.py: _kolmogorov_smirnov, _cramer_von_mises", "src/qp/conversion_funcs.py: extract_hist_values"]}
{"id": "C155", "title": "A wrong number of true values is refused", "statement": "A metric that compares PDFs or point estimates with true values raises an exception when their numbers differ, instead of returning a number that belongs to other data.", "quantifier": "all ensembles with one index, all arrays of estimates and of true values, all evaluation grids", "why_tests_cant": "The tests call the metrics with matching arrays; which mismatches numpy broadcasts silently depends on the shapes inside each metric and has to be settled for all lengths.", "anchors": ["src/qp/metrics/pit.py: PIT, _gather_pit_samples", "src/qp/metrics/concrete_metric_classes.py: CDELossMetric, BrierMetric", "src/qp/metrics/metrics.py: calculate_brier", "src/qp/metrics/point_estimate_metric_classes.py: PointBias, PointSigmaIQR, PointSigmaMAD, PointOutlierRate"]}
{"id": "C156", "title": "Metrics of ensembles with several indices", "statement": "A metric that compares an ensemble with several indices with one true value per PDF gives the value for the same PDFs in a row, or raises an exception.", "quantifier": "all shapes, all ensembles of that shape, all lists of true values, all evaluation grids", "why_tests_cant": "The tests use ensembles with one index; with more, the result depends on how numpy broadcasts and indexes arrays of every shape.", "anchors": ["src/qp/metrics/pit.py: PIT, _gather_pit_samples", "src/qp/metrics/concrete_metric_classes.py: CDELossMetric, BrierMetric", "src/qp/metrics/metrics.py: calculate_brier", "src/qp/pdf_gen.py: rv_frozen_rows"]}
{"id": "C157", "title": "The generic tests find inconsistent distribution classes", "statement": "A distribution class that passes the tests the library provides for new classes has consistent pdf, cdf, ppf, sf and isf, keeps the arguments of its constructor and asks for the space it needs in a file; a conversion that passes keeps the PDFs.", "quantifier": "all distribution classes (any functions as methods), all test points, all tolerances, all conversions", "why_tests_cant": "The tests are programs about arbitrary classes; running them on correct classes says nothing about which wrong classes they accept.", "anchors": ["src/qp/test_funcs.py: assert_all_small, pdf_func_tests, run_pdf_func_tests, run_convert_tests", "src/qp/test_data.py: NPDF, TEST_XVALS", "docs/contributing.rst"]}
{"id": "C158", "title": "Random results can be repeated", "statement": "With an integer random_state, sampling, sample-based conversions and the goodness of fit give the same result every time, whatever random numbers were drawn before, and do not disturb the other generators. One generator object used for the parts of an ensemble in turn gives the samples of the whole ensemble.", "quantifier": "all gridded ensembles, all sizes, all seeds, all states of all generators, all ways to divide an ensemble into parts", "why_tests_cant": "A test repeats one call in one state of the generators; a dependence on the global generator shows only in a state that the test does not try.", "anchors": ["src/qp/ensemble.py: rvs", "src/qp/pdf_gen.py: _rvs", "src/qp/conversion_funcs.py: extract_samples, extract_hist_samples, extract_mixmod_fit_samples", "src/qp/metrics/metrics.py: calculate_goodness_of_fit"]}
{"id": "C159", "title": "Metrics take and give what they declare", "statement": "The declared input type of a metric says whether evaluate takes distributions or points for the estimate and the reference, and the declared output type says whether it gives a single value, one value per distribution or a single distribution: a program that calls the metrics by these declarations can call all of them and can use the results.", "quantifier": "all metric classes, all settings, any number of PDFs, any references", "why_tests_cant": "A test looks at one call of one metric; the declarations are promises about the length of the result for every number of PDFs, references and samples.", "anchors": ["src/qp/metrics/base_metric_classes.py: MetricInputType, MetricOutputType, BaseMetric", "src/qp/metrics/concrete_metric_classes.py: MomentMetric, KLDMetric, ADMetric, PITMetric, CDELossMetric", "src/qp/metrics/point_estimate_metric_classes.py: PointStatsEz, PointSigmaIQR"]}
