# A Lean 4 model of TurbuStat: design

## 1. What is modelled, and how

The model is a shallow, function-by-function transcription of the Python code in
`/repo/turbustat` into Lean 4 (with Mathlib).  Every definition carries a comment with
the file and lines it transcribes and a "Simplified:" remark when it is not literal.

Conventions

* **Numbers.**  Floating-point numbers are modelled by exact real (or complex) numbers,
  or by an arbitrary ordered field / commutative ring when nothing analytic is used.
  Rounding, overflow, signed zeros and infinities are *not* modelled.  Where the code
  distinguishes NaN, the model uses `Option` with `none` = NaN.
* **Arrays.**  A numpy array is its shape plus a total index function (`Arr1`, `Arr2`,
  `Arr3` in `Verif/Np/`); only in-range entries are meaningful and all theorems speak
  about in-range entries only.  Arrays that are filtered, sorted or concatenated are `List`s.
  Basic slicing `a:b:c` is the real Python algorithm (`slice.indices`), so `-2:0:-1` and
  `-1:0:-1` are different terms in the model.
* **Exceptions** are values of `Except PyErr`.
* **State** (attributes of a statistic object, dictionaries of the caller) is an explicit
  structure passed through functions; a failing setter returns the error and the state it left.
* **External code** is either modelled by its mathematical contract (FFT = discrete Fourier
  transform sum; `np.linalg.eigh`, `scipy.stats.binned_statistic`, `statsmodels` fits,
  convolutions, `astrodendro`) or taken as a parameter of the function, so that the theorem
  holds for whatever that code returns.

Layout of `/verif/lean/Verif`

* `Np/…`    : Python/numpy primitives (slices, roll, arange, linspace, DFT, NaN-aware sums, errors).
* `Model/…` : the transcription of TurbuStat, one file per Python module.
* `Spec/…`  : small independent specifications (what a DFT, a metric, a window … is).
* `Lemmas/…`: helper lemmas (when they are long).
* `Props/…` : the property theorems, `Cxx_…`, with a non-vacuity `example` beside each.

When the code violates a property, the negation is proved with a concrete witness
(`…_violated`/`not_…`) and the part that does hold is a theorem with suffix `_partial`.

## 2. Trusted base

* Lean 4.33.0's kernel (and the Lean/Mathlib definitions the statements use).
* Axioms: only `propext`, `Classical.choice`, `Quot.sound` (checked by `#print axioms`).
* The reading of the Python source: nothing here runs the Python code.
* The contracts of external libraries named in section 1 and in the comment of each definition.

Not modelled: plotting and `verbose` branches (except the handling of `plot_kwargs1`/`plot_kwargs2`, C95), file I/O formats (FITS/pickle bytes), progress bars,
astropy WCS/unit machinery beyond multiplication by a conversion factor, `radio_beam`,
`spectral_cube` internals, floating point.

## 3. Plan per property

| id | model | proof method |
|----|-------|--------------|
| C01 | `rfft_to_fft` with Python slices over a DFT sum, 2D and 3D | conjugate symmetry of the DFT of real data, index arithmetic per parity |
| C02 | `compute_pspec` pipeline (amplitude, square, fftshift) | DFT shift theorem, Parseval from orthogonality of characters |
| C03 | `VCA.compute_pspec` | Parseval along the spectral axis |
| C04 | `VCS.compute_pspec` | Parseval per pixel, sums over permutations |
| C05 | `pspec` binning, counting and NaN flag; `binned_statistic` contract (half-open bins, last closed) | unique bin for increasing edges; mean bounds |
| C06 | wedge mask code incl. wrap and `[::-1, ::-1]` | case analysis on the wrapped limits |
| C07 | `make_radial_arrays`, `make_radial_freq_arrays` | integer arithmetic |
| C08 | windows over ℝ | cosine bounds/monotonicity, symmetry of distances |
| C09 | `clip_func`, `check_fit_limits` | decision logic |
| C10 | `residual_bootstrap`'s index draw as a parameter with `np.random.choice(n)` contract | negation with witness; `_partial` for all residuals but the last |
| C11 | `fit_model` loop as a state machine, solver as parameter | measure/induction |
| C12 | `model()` | algebra; negation/partial if the joint is off-grid |
| C13 | interval transforms over ℝ | log/exp algebra |
| C14 | `evaluate` over ℝ | trigonometric identities |
| C15 | each distance formula | algebra over ℝ |
| C16 | `hellinger` over lists | Minkowski/Cauchy–Schwarz |
| C17 | `kl_divergence` over optional reals | Gibbs; negation for misaligned NaNs |
| C18 | normalisations over optional reals | algebra |
| C19 | `common_histogram_bins` | linspace lemmas |
| C20 | `common_scale` | case analysis |
| C21 | `np.roll` | modular arithmetic |
| C22 | `fourier_shift` | DFT algebra |
| C23 | pad callbacks with Python slices | index arithmetic, negation for pad 0 |
| C24 | `mecdf` | induction on rows |
| C25–C27 | `SCF.compute_surface`, distance | (a-b)² ≤ 2(a²+b²); Minkowski; negation for `cut` |
| C28 | constructors of Distance classes as decision functions over flags/options | case analysis, negations |
| C29 | `cramer_statistic` | energy-distance inequality through positive definiteness |
| C30, C31 | `threeD_to_twoD` | list invariants; negation for non-square |
| C32–C36 | `pca` | quadratic forms; list induction; algebra |
| C37 | walk-down search | induction on the list |
| C38 | `compute_deltavar` with a convolution sum | linearity; the value as a weighted moment over the supported pixels; `preserve_nan=True` as negation |
| C39 | setters as state machines | decision logic |
| C40–C41 | wavelet and Tsallis arithmetic | sums and rolls |
| C42–C43 | `compute_moments`, `compute_spatial_distrib` | weighted sums, Cauchy–Schwarz |
| C44 | `PDF` as a state machine | histogram sums |
| C45 | MVC | algebra, negation for masks |
| C46 | bispectrum accumulation as a fold over draws | triangle inequality by induction |
| C47 | genus helpers | list/finset invariants |
| C48 | dendrogram helpers | list invariants, negation for windows |
| C49, C50 | moment errors | sums; state machine |
| C51, C52 | `make_ppv`, `generate_spectrum` | permutation invariance of writes; sums |
| C53, C54 | `make_extended`, `make_3dfield` as slice assignments | index arithmetic per parity |
| C55 | `threeD_pspec` | digitize lemmas |
| C56 | headers | equality; negation for non-square |
| C57–C59 | base statistic, input | state machine, algebra over ordered fields |
| C60 | regridding arithmetic | floor/ceil lemmas |
| C61 | aliasing of caller-owned state | state machine with negations |
| C62 | PCA autocorrelation surfaces as DFT pipelines | Wiener–Khinchin, Cauchy–Schwarz; negation for the mean subtraction |
| C63 | `DeltaVariance_Distance.curve_distance` | weighted norms over common lags |
| C64 | moment-map histograms | histogram sums |
| C65 | bispectrum under circular shifts | DFT shift theorem; negation for separately truncated k3 |
| C66 | bispectrum slices | bin arithmetic, negation for the bin width |
| C67 | bispectrum distances | Frobenius norm as a metric |
| C68 | dendrogram counts and histograms | list induction over thresholds |
| C69 | the straight-line fits of power spectra, SCF, Delta-variance, wavelets; the regression is any minimiser of the weighted residual sum | uniqueness of the weighted least-squares line, log-log algebra, DFT scaling/shift |
| C70 | selection of points by limits in those fits | list filters, monotonicity of log10; negation for unconverted lags |
| C71 | attributes left by fits with an optional break, as a state machine | case analysis over outcomes, negations for stale state |
| C72 | `VCS.fit_pspec`: chosen frequencies, candidate list, search loop | induction over the candidate list |
| C73 | `brk_errs`, `get_slopes` errors | delta method as a quadratic form; negations |
| C74 | `PCA.eigimages` | projection on the eigenvectors of C33; orthogonality from C32 and C33; completeness from `V Vᵀ = 1`; transposed stack as negation |
| C75 | `PCA.fit_plaw` | limits in any unit reduced to pixels; the ODR solver (scipy) is a parameter with the contract of `Spec/Odr.lean` (minimises the weighted orthogonal cost); exact data have one minimiser; grid change is a shift of the log points |
| C76 | `PCA.sonic_length` | closed form of the crossing size; scaling laws by real powers; error compared with the first-order error (derivatives); negations |
| C77 | beam correction in `WidthEstimate2D` | closed form, monotone above the beam term, derivative for the error; reversed order below it as negation |
| C78 | `fit_pdf`: likelihood, parameter vector, optimiser as parameter | any maximiser of the lognormal likelihood equals the closed form; both parameters fixed as negation |
| C79 | `PDF_Distance`: construction, three metrics, dispatch | bins from C19, shares from the histogram lemmas, KS as a maximum over all reals; degenerate bins as negations |
| C80 | `fit_elliptical_powerlaw`, `fit_2Dpspec`, `SCF.fit_2Dplaw`; Levenberg-Marquardt and permutations as parameters | identifiability of the elliptical power law from four points (trace and determinant of the quadratic form), then any converging fitter recovers the parameters; errors, amplitude bound, fixed ellipse and stale wedge as negations |
| C81 | `Moments.to_fits`, `from_fits`, `to_dict` over a disk that maps names to FITS files; names as character lists | round trips by following the names; injectivity of the file names; induction over the list of saves; failures as negations |
| C82 | `fit_tsallis`, `tsallis_table`, `run`; `curve_fit` as a parameter that finds the minimum when it returns | identifiability by Rolle's theorem twice; recovery from zero residuals; Gaussian limit by explicit bounds on the logarithm; amplitude, clipping and chi-squared as negations |
| C83 | objects as attribute lists over an array heap, `deepcopy`, the disk with torn files, histories as lists of operations | soundness invariant by induction over histories; frame lemmas for files and arrays; violations as theorems about every name, object and map |
| C84 | `run` methods as data (signature, preparatory statements, calls with explicit and expanded keywords, guards) under Python's keyword rules | generic forwarding lemmas over all option values; the finite table of methods is checked in the kernel; violations as theorems over all options |
| C85 | `Genus.__init__`, the radii setter and `Genus_Distance` on arrays of Option ℝ with units as (kind, factor); spline routine as a parameter with an interpolation contract | order statistics of the sorted list; linspace lemmas; affine invariance of mean and variance; norm scaling; violations as theorems |
| C86 | kernels as arrays of offsets with astropy's odd sizes, convolve_fft as cyclic or zero-continued convolution (grid as large as the larger of image and kernel), on top of the per-lag model of C38/C40 | pixel rearrangements as bijections; coefficients follow the rearrangement; sums, counts, maxima and means are invariant; coverage of the constant map for the violation |
| C87 | the object as a record of lags, unit, size, surface and spectrum with one function per method, on top of the surface model (C25) and the radial profile model (C05) | bins scaled by the lag step; bin membership by lag length from the grid of lags; shape invariant of the loop |
| C88 | `histogram_stat` row by row (z-scores, common edges with Python's min/max on NaN, densities, NaN padding, normalisation), then `hellinger_stat` | shares from C64's histogram facts, C18/C19 style z-scores; uniqueness of the edges gives symmetry and invariance |
| C89 | the two constructors' histogram state, `create_common_histograms` and `distance_metric` on top of the map model (C43), the common bins (C19) and `hellinger` (C16) | density times width is the share, so the sum is the Hellinger sum over the width; invariance of the moments by factoring out scale and offset from the weighted sums; uniqueness of the edges for symmetry |
| C90 | design matrices, scatter matrices, reduced matrix, the eigensolver as a parameter with its contract, the conversion from conic coefficients to parameters line by line, predict_xy, contours as closed lists of points | Lagrange condition plus the eigenvalue equation gives the stationary value; a kernel argument for exact data (five points determine a conic); rotation algebra for axes and angle |
| C91 | autocorrelation spectra (C62), the three methods of `WidthEstimate1D` with argrelmin and interp1d written out and the Gaussian fitter as a parameter, `_spectral_size`, `_to_spectral`, the reciprocal conversion and the cuts of VCS | first crossing by least element; sorted list of a falling curve is its reverse, bracket by induction; zero residual forces the standard deviation; unit factors |
| C92 | `find_spatial_widths`, `WidthEstimate2D` with its four methods, lag grids, header beam; contour finder, eig, bootstrap, surface fitter and spline are parameters | composition of C34, C62, C77 and C90; two Gaussian surfaces equal on a 2x2 grid have equal trace; convexity of the fourth power for pedestals; linearity of the DFT for brightness |
| C93 | `bayes_linear` with `_logprob`, start, median, percentiles, and the bayes branch of `fit_plaw`; the emcee sampler is a parameter | completing the square and the Gaussian integral; trigonometric identities for exchange and shift; percentiles from C85; injectivity of tan for uniqueness |
| C94 | `residuals`, `estimate_stderrs` with its resampling and percentiles, `fit_2D_ellipse` with errors; `leastsq`, `eig` and the random numbers are parameters | parametrisation of the ellipse; law of cosines for circles; C85 for percentiles; C90 for exact data; algebra of the conic for the sign |
| C95 | the `plot_kwargs` blocks of the eleven classes on a heap of dictionaries, with the objects of the signatures | invariant over every sequence of calls: the signature objects hold nothing but defaults |
| C96 | the numbers the five plotting methods hand to matplotlib | the unit conversions are multiplications by the pixel size; the curve is compared with a power law stated without logarithms |
| C97 | the choice of axes of the four kinds of plotting methods on a figure modelled as a list of axes, and the plotting parts of the distance metrics | induction over the calls with the list of axes as invariant |
| C98 | objects with a setting, the result computed from it, and the points of the last fit; the operations of DeltaVariance, Wavelet, Tsallis, StatMoments, Genus and the n_eigs setter of PCA | induction over the operations; the stored values as a function of the setting at the time of the computation |
| C99 | `fit_model` with the design matrix, the loop of C11 and the comparison of models; the regressions are any minimisers (`Spec/Lsq.lean`, `Spec/Lsq4.lean`) | uniqueness of the four-column fit, the loop followed for exact data; invariance by an induction over the visited states |
| C100 | `gauss_kern`, `moment_masking`, `convolution_wrapper` and `GaussianAnnulus2D.evaluate`; astropy's `convolve` and scipy's `binary_dilation` as defined operations, the noise estimator a parameter | products of one-dimensional sums; weighted means; induction over the passes of the dilation; induction over decimal digits |
| C101 | the numbers handed to matplotlib, as lists of points, bars and panels; `fit_pdf` as a step of the object that keeps what was assigned before an exception; scipy's distribution, the optimiser and `curve_fit` parameters | case analysis of the options; linear maps commute with minima, logarithms turn units into shifts; induction over histograms |
| C102 | the coordinate matrix and kinds of axes of the header; astropy's orthogonality test and pixel scales written out | algebra of 2 by 2 Gram matrices: rows nearly orthonormal iff columns nearly so; case analysis |
| C103 | constructors as functions to an object or an exception, on top of `input_data_header` and the setters | case analysis of the ways to supply data; squares and floors for the number of bins |
| C104 | `MVC_Distance.__init__`'s treatment of the dictionaries on top of the spectrum of C45 | linearity and shift theorem of the DFT; a two-pixel map evaluated exactly for the violations |
| C105 | the constructor of VCA with regridding and the squeeze of the data setter, then the spectra of C03, C04, C25 | list lemmas for block averages, Cauchy-Schwarz on the DFT for the bound |
| C106 | compute_beam_pspec and the division in the three compute_pspec methods, over the spectra of C02, C03 and C45 | the convolution theorem for the two-dimensional DFT from the shift lemmas |
| C107 | the complete distance_metric over format_data (C30) and the statistic (C29), figures as lists of panels | a relation between matrices (rows permuted) that the statistic respects; sorted lists agree where counts of values agree |
| C108 | the chain make_extended (C53), compute_pspec (C02, C03), radial profile (C05), 1D fit (C69), 2D fit (C80) as one function | the power of a generated field is one amplitude times the elliptical law below the Nyquist frequency, every fitted pixel is below it, and the fitted pixels determine the parameters |
| C109 | every method of 14 classes as a statement tree over attribute reads, stores, None tests, hasattr tests, calls, loops, try and data-dependent branches; histories as lists of calls with any arguments and endings | an abstract interpretation (what is present, None, a value) proved sound by induction over executions; its outcome for each class is checked by the kernel |
| C110 | residual_bootstrap over any design matrix, weights and draws, and what the callers index in its result; regression external, contract: a least-squares solution (shown to exist) | normal equations and uniqueness, linearity of the regression, affine behaviour of the standard deviation |
| C111 | for each distance class the attribute looked for, the methods run, and what is read, in order; the statistics as in C109 | what each completed method leaves (C109), an analysis of which attribute is only stored when another is there, shown sound for every execution |
| C112 | compute_deltavar with nan_treatment='interpolate', over the kernels of C86; astropy's interpolation as division by the share of the kernel on pixels with a value | linearity and rearrangement of the convolution; explicit kernel values for the violation |
| C113 | Model/RandomState.lean: an abstract generator, the models of C46, C53, C80, C94, C107 and C110 fed from it, programs as lists of calls | induction on programs; a least-squares fit of three points for the violation |
| C114 | Model/PsdsStd.lean: nanstd with ddof=1, bootstrap with any draws, t-correction, weights | pixel sets of C05, variance of affine images, Popoviciu's inequality for any resample, uniqueness of least squares |
| C115 | pixel bijections that keep power and radius (rows and columns that hold opposite frequencies, for even and odd sizes) | bins, means and deviations of permuted samples, symmetry of the windows (C08), uniqueness of least squares; directions as polar coordinates for the limits |
| C116 | marks, panels and styles as data; each figure transcribed from the calls | inversion of the distance's computation, then the values C25, C27, C35, C46, C67, C79, C85, C88 prove are those drawn |
| C117 | calls of the libraries as a log beside the result; pyfftw as a parameter, absent when not installed; Python's keyword rules of C84 | case analysis on the options, induction on the lags |
| C118 | moves of C86 (mirror, exchange of axes, periodic shift) as lists, applied to images and channel by channel to cubes | induction on the moves; bijection of pixels for each move; permutation-invariance of histograms, moments and radial sums |
| C119 | no new model: a cube with rearranged channels beside the models of SCF, VCA, VCS, PCA, spectral units and regridding | reindexing of the sums over channels; phase of the transform of a reversed spectrum; uniqueness of eigenvalues; counterexamples |
| C120 | no new model: the fractional shifts of `fourier_shift` and the whole ones of `pixel_shift` in the SCF model of C25 | the shifted line as a sum with a cosine kernel; C22 to treat whole lags as Fourier shifts; reindexing of the pixels; counterexamples with three rows |
| C121 | no new model | the Fourier transform of a constant vanishes off the zero frequency; the zero frequency has a radius below every bin edge, so every bin holds the same values; counterexamples with at most nine pixels |
| C122 | no new model | lists and sums over a frame reduce to those over the map where missing pixels give nothing; connected regions are moved by the frame one to one; counterexamples with at most four pixels |
| C123 | no new model | sums over channels reduce to those of the cube where blank channels give nothing; an all missing line stays missing under a fractional shift; eigenvectors of the widened covariance are those of the cube and unit vectors; counterexamples with at most two voxels |
| C124 | no new model | sums over repeated indices are multiples of the sums over one period; a cyclic shift, a shift in Fourier space or a wrapped convolution of a repeated map is the repeated result; orthogonality of characters for the spectra; a list with every entry repeated equally often has the same mean, variance and histogram shares; counterexamples with two pixels |

## 4. What is modelled, file by file

| Python file | modelled | not modelled |
|---|---|---|
| `statistics/rfft_to_fft.py` | all of it, both dimensions | the pyfftw backend (same DFT contract) |
| `statistics/psds.py` | `pspec`, `make_radial_arrays`, `make_radial_freq_arrays`, azimuthal limits, standard deviations with t-distribution correction and bootstrap (`Model/PsdsStd.lean`) | quantiles of Student's t and the indices drawn are parameters |
| `statistics/base_pspec2.py` | `compute_radial_pspec` values, apodizing choice, `fit_pspec` (line, unbinned, break bookkeeping), elliptical transforms, `fit_2Dpspec` | plots |
| `statistics/apodizing_kernels.py` | all windows | – |
| `statistics/elliptical_powerlaw.py` | interval transforms, model, `fit_elliptical_powerlaw` around the solver | Levenberg-Marquardt (a parameter) |
| `statistics/fitting_utils.py` | `clip_func`, `check_fit_limits`, `residual_bootstrap` resampling, `bayes_linear`, `leastsq_linear` | the sampler of emcee and `scipy.odr` (contracts), plots |
| `statistics/lm_seg.py` | constructor, `fit_model` loop, `model`, `get_slopes`, `brk_errs`, `deriv_max` through the columns | regression solver |
| `statistics/base_statistic.py` | setters, header/data state machine, spatial and spectral unit conversions, `save_results`, `load_results` | WCS parsing, the pickle byte format |
| `statistics/stats_utils.py` | histograms, KL/Hellinger, standardize, `common_scale`, `fourier_shift`, pads, data loaders, `EllipseModel.estimate`, `predict_xy`, `residuals` and `estimate_stderrs` (eigensolver, minimiser and random numbers are parameters) | plotting |
| `statistics/threeD_to_twoD.py` | `intensity_data`, `spectra_data`, helpers | – |
| `statistics/cramer/cramer.py` | `cramer_statistic`, data matrices, distance object | joblib backend |
| `statistics/pca/pca.py`, `width_estimate.py` | covariance, eigen-selection, eigenimages, noise ACF, width searches, autocorrelations, beam correction, `fit_plaw` around the solver, sonic length, contour widths round a contour finder, `find_spatial_widths` by all four methods, spectral widths by all three methods | 2D Gaussian-fit widths (optimisers), the contour finder itself |
| `statistics/scf/scf.py` | lags, surface, spectrum, distance, object history (assigning lags), `fitted_model`, `fit_plaw`, `fit_2Dplaw` | plots |
| `statistics/delta_variance/*` | kernels, `compute_deltavar`, lag setters, distance, `fit_plaw` | FFT convolution backend (same contract) |
| `statistics/wavelets/*` | transform, normalisation, `fit_transform`, distance | – |
| `statistics/tsallis/tsallis.py` | differences, clipping, distributions, fits and table | optimiser |
| `statistics/stat_moments/*` | circular regions, weighted moments, histograms, distance object (construction, common bins, `distance_metric`) | plots |
| `statistics/pdf/compare_pdf.py` | PDF/ECDF state machine, normalisations, `fit_pdf` (likelihood and bookkeeping), `PDF_Distance` | MCMC fit, plots, scipy start values and optimiser (parameters) |
| `statistics/mvc/mvc.py` | `compute_pspec` | – |
| `statistics/pspec_bispec/*` | `compute_pspec`, `run` (line fit), bispectrum accumulation, slices, distances | random generator |
| `statistics/vca_vcs/*` | `compute_pspec`, slices, `VCS.fit_pspec`, distances, regridding | spectral-cube internals |
| `statistics/genus/genus.py` | construction (thresholds, limits, units, radii), object counting around a labelling function, distance around a spline routine | `scipy.ndimage.label` |
| `statistics/dendrograms/*` | thresholds, pruning loop around the external dendrogram, fit window, histograms, `mecdf`, distances and their history | astrodendro |
| `moments/*` | linewidth and moment errors, `Moments` state, names and contents of saved files | the FITS byte format |
| `simulator/*` | field generators, synthetic cubes, spectra, 3D power spectrum | random generator, interpolation |
| `io/*` | `input_data`, header construction, `sim_tools`, beam keywords | FITS reading |

`Model/Aliasing.lean`, `Model/DistanceInit.lean` collect the constructors of the statistic and
distance classes: which arrays are copied, which options reach which dataset.
`Model/RunCalls.lean` collects the `run` methods: which options reach which step (plotting is left out).
`Model/PlotOptions.lean` collects the `plot_kwargs` blocks of the distance classes (which options reach the plot, and what happens to the
dictionaries; the drawing is left out).
`Model/FitPlots.lean` collects the `plot_fit` methods: the numbers they hand to matplotlib.
`Model/Figures.lean` collects their choice of axes on the current figure, a list of axes.

`Model/Results.lean` collects the settings and stored results of an object over its history, with the computation at one lag or radius
as a parameter, and arrays of `np.empty` as entries that are unset until written.

`Model/LmSegFit.lean` completes `Model/LmSeg.lean`: the design matrix of the segmented regression, the regressions in and after the loop,
parameters and slopes.  `Model/BrokenFit.lean` connects it with the points of the power-spectrum, delta-variance and wavelet fits.  The
solver of the four-column regression is a parameter with the contract `Spec.LeastSquares4` (minimises the weighted residual sum).

`Model/Smoothing.lean` is the helpers that smooth: `gauss_kern` and `moment_masking`, `convolution_wrapper`, and the annulus profile with all
its parameters.  astropy's `convolve` is the weighted mean of the values that are not NaN, with zeros outside the cube; scipy's dilation is
defined by its structuring element; the global names of the module are a parameter, so that the missing ones can be supplied.

`Model/DistribPlots.lean` is what the plots of distributions, genus curves, dendrograms and the size-linewidth relation are given: points,
curves, bars and panels, not colours or axis ranges.  `PDF.fit_pdf` is a step of the object, with the attributes that survive a failure.
matplotlib's `subplots` (one `Axes` or an array) and the broadcasting of `bar` are defined operations.

`Model/Wcs.lean` goes from the coordinate matrix of the header to the size of a pixel and the width of a channel, which the other files take
as parameters.  What `base_statistic.py` calls of astropy.wcs is written out: the orthogonality test of `is_proj_plane_distorted`, `celestial`,
`proj_plane_pixel_scales`.  Parsing the header, and the conversion of sky axes to degrees on reading, are not modelled.

`Model/Constructors.lean` is what four constructors make of their arguments, and `load_dendrogram`: an object or an exception.  astrodendro's
file is its data (a bare array) and parameters.  NaNs and beams are in the files named above.

`Model/MvcWeights.lean` models how `MVC_Distance.__init__` turns a dictionary of moment maps into the maps of an
`MVC` (mvc.py 345-440), on top of `Model/Mvc.lean`.  A dictionary is a function from keys to an optional map and
header.  Simplifications: an error of zero makes the pixel missing (numpy gives `inf`), and error maps must have
the shape of their map (numpy would broadcast).  C104 states units and weights against it.

`Model/CubeAxes.lean` models `VCA.__init__` with a channel width (vca.py 46-64) and the squeeze in the `data` setter
(base_statistic.py 93-102): a cube with an axis of length one is held as an image, and the FFT, the sum over the first
axis and the indices of VCA, VCS and SCF act on that.  spectral-cube's smoothing for `method='regrid'` is a parameter;
its exceptions for arrays that are not cubes are written as ValueError.  C105 is stated against it; C03 refers to it for
one-channel cubes.

`Model/BeamPspec.lean` holds the option `beam_correct` of the three spectra.  The image of the beam is a function of the number of
rows and columns (radio_beam's `as_kernel` is external and its pixel size fixed); nothing is assumed about its values.  C106 is stated
for data that are a periodic convolution with that image and without an apodizing window.

**C107.** `cramerMetric` is the complete `distance_metric` (cramer.py:188-247): format both cubes, bring them to the same number of
columns, compute the statistic, and draw two panels. The figure is a list of panels; colours, fonts and the colour bar are not
modelled. The random columns are an arbitrary `Choice` (for each row, distinct columns), so a theorem about every `Choice` holds for
every seed. The specification speaks of the cube only: how many pixels of a channel have a value (`Shuffled`), and which pixels lie
above a level (`SameAbove`).

**C108 (fits of generated fields).** `Model/FieldAnalysis.lean` joins the models of `make_extended`, `PowerSpectrum.run` and
`VCA.run`. `C108_spectrum` gives the power of a generated image at every frequency below the Nyquist frequency;
`C108_image`, `C108_limits`, `C108_cube` and `C108_isotropic_fixed` give the 2D fits, `C108_returns` shows that the run
returns, `C108_unbinned_partial` and `C108_profile_partial` concern the 1D fit. Assumed: the fitter reproduces exact data
(`Converges`, as in C80) and `lsq` is a least-squares solution (as in C69). Not modelled: apodization, beam correction, odd sizes.

**C109 (which step makes which result).** `Model/Lifecycle.lean` is a small language of statements about the attributes of
`self` with a big-step semantics in which every statement that is not about attributes may raise; `Model/LifecycleSpectra.lean`,
`LifecycleScales.lean` and `LifecycleCounts.lean` are the methods of the 14 classes in it, statement by statement with line
numbers. `Hist` is any sequence of calls with any arguments and endings. `Lemmas/Lifecycle.lean` proves an abstract
interpretation sound for all executions (`run_sound`, by induction) and lifts it to histories; what is left for each class is
a finite check of its program text, done by the kernel (`decide +kernel`), against the outcome written in
`Lemmas/LifecycleCerts.lean`. The tables of results are in `Spec/LifecycleTables.lean`. Simplified: values are opaque; a
branch on data goes either way; two options of one call are independent; conversions of the base class and `save_results` are
statements that may raise; attributes set from outside the class are not considered.
Flags (`_do_fit`, `_fit2D_flag`, `_decomp_only`, ...) are attributes of which one value is encoded as `None` (the comment beside each
says which), and `slope_is_array` stands for the test on the type of the slope; `Lemmas/LifecycleFlags.lean` follows, for a flag and
what it stands for, that the second is there whenever the first is set (`settle_sound`, by induction over executions).

**C110 (bootstrapped errors).** `Model/ResidBoot.lean` is `residual_bootstrap` on a fitted linear model with any design, data
and weights, and what the callers take from its result. statsmodels is a parameter; its contract (`Spec.Regression` in
`Spec/Boot.lean`) is that it returns a least-squares solution, and `exists_regression` shows that there is one. The draws are
any index maps; the concrete cases use maps that never give the last index, as the code's do. Whitening follows statsmodels:
`wendog` and `wresid` are multiplied by the square root of the weight, `exog` is not. Proofs go through the normal equations.
Simplified: exact reals; at least two parameters; points with missing values already dropped; `debug` and `fit_kwargs` left out.

**C111 (objects given to distance classes).** `Model/DistanceAccept.lean` lists for each distance class the attribute it looks
for with `hasattr`, the setters and methods it uses on the object, and what it reads, in order, for the distance and for the
plot. `Spec/Accept.lean` says what it means that the constructor completed (`Taken`) and that nothing is missing (`Serves`,
`ServesAll`). The objects are those of C109, so the same simplifications hold: values are opaque, data-dependent branches are
open. Two analyses are proved sound in `Lemmas/Accept.lean`: what the completed methods leave, and which attributes are only
stored when another one is there (this one also holds for calls that fail). Not modelled: the attribute `nbins` set on a
`StatMoments`, the unit conversions of the base class in the SCF plot.

**C112 (interpolation over missing pixels).** `Model/DvInterp.lean` is `compute_deltavar` with
`nan_treatment='interpolate'`: astropy's convolution divides by the share of the (normalised) kernel on pixels with a value
(`validShare`); the margin of a larger grid counts as valid with 'wrap' (astropy fills it with zeros) and as missing with
'fill' (the code passes `fill_value=np.nan`). The weights go through the same convolution. Trusted: this reading of astropy.

**C113 (random draws).** `Model/RandomState.lean` has numpy's global generator as a record of abstract states and draws
(`Rng`; trusted: the draws of `choice`, `permutation` are in range and without repetition where numpy says so),
`NumpyRNGContext` as seed, run, put back (also after an exception), and each routine that draws as a function of the state,
built on the models whose draws were parameters before. A program is a list of calls, the user's own `np.random.seed` and
draws among them; the theorems are about all programs.

**C114 (standard deviations and weights).** `Model/PsdsStd.lean` adds to the model of `pspec` what `return_stddev=True` returns: the
sample deviation of a bin or the mean over bootstrap resamples of the population deviation, corrected by the quantile of
Student's t (a parameter `tppf`; no property of it is used). The indices drawn by the bootstrap are arbitrary numbers reduced
to the range. `radialBinsStd` and `weightedRun` pass them to the fit of C69.

**C115 (orientation).** No new model: the theorems are about the models of C02, C03, C05, C06, C08, C69, C80 and C114. Each move of an
image (`mirror0`, `mirror1`, `transposed` of C86) moves the power of mode `(K, L)` to another mode of the same radius; in terms of
pixels this is a bijection whose form depends on whether the sizes are even. The samples of every bin are then permuted.
For azimuthal limits `Spec.Along` states in polar coordinates when a mode lies along `theta_0`; the theorem compares the
limits of the moved image with the moved limits.

**C116 (figures of distances).** `Model/DistanceFigures.lean` transcribes the drawing calls of seven `distance_metric` methods as
lists of panels with images, lines, bars and points; `os.path.splitext` and the choice of the format by `savefig` are modelled for the names.
The specification reads panels by place and marks by kind (`panelAt`, `imagesIn`, `curvesIn`, `barsIn`, `errorsIn`); each theorem
recomputes the distance from what was read.

**C117 (library of the transforms).** `Model/FftOptions.lean` adds to the computations of C01, C03, C45 and C46 the options of the
transform: a run returns its result with the list of library calls (library and keywords) and the number of warnings. pyfftw is a parameter.
The theorems assume of it only that, with the keywords it is given, it returns the transform (`SameRfftn`, `SameFft2`).

**C118 (position and orientation).** No new model: the theorems compare two runs of the models of C25/C26/C87 (SCF), C41 (Tsallis),
C43/C89 (moments), C35/C47 (genus) and C33/C74 (PCA) on an image or cube and on the same one after a list of moves (`Spec.moved`: mirror, exchange
of the axes, periodic shift). Genus smoothing is any function that follows the moves (`Spec.FollowsMoves`); convolution with an isotropic kernel is one
(`C118_smoothing`).

**C119 (direction of the spectral axis).** No new model: `Spec.reordered` and `Spec.reversed` give the cube with its channels in another order, and
the theorems compare two runs of the models of SCF (C25/C87), VCA (C03/C105), VCS (C04), PCA (C32/C33), spectral widths and units (C37/C62/C91) and
`spectral_regrid_cube` (C105). The reversed axis (`Spec.SpecAxis.rev`) starts at the last channel with the opposite step.

**C120 (SCF at fractional lags).** No new model. Two surfaces are compared, of a cube and of the same cube mirrored (`Spec.flippedRows`,
`Spec.flippedCols`), with its sky axes exchanged (`Spec.exchanged`) or rolled, for two lists of real lags; entries are matched by their lags.

**C121 (zero level).** No new model. Two runs are compared, of the data and of the data with a level added: `Spec.raised` (image),
`Spec.channelLevels` (one level per channel), `Spec.withContinuum` (one level per spectrum). `Spec.BinsAboveZero` says that the bin limits a user
gives, if any, are above the radius that stands for the zero frequency; the defaults are.

**C122 (blank frame).** No new model. Two runs are compared, of the data and of the data within rows and columns of missing pixels: `Spec.framed`
(maps) and `Spec.framedCube` (cubes). The widths of the four sides are arbitrary. For the delta-variance the frame gets the weight 0
(`Spec.framedWeights`), as the default weights do; the kernels are the finite arrays of `Model/DvKernels.lean`.

**C123 (blank channels).** No new model. Two runs are compared, of a cube and of the cube with missing channels before and after its own:
`Spec.widened`. Frequencies of the two VCS spectra are compared in cycles per channel.

**C124 (repeated maps).** No new model. Two runs are compared, of a map or cube and of the same repeated along the sky axes: `Spec.tiled` and
`Spec.tiledCube`. Frequencies of the two spectra are compared in cycles per pixel (`Spec.SameFreq`).

## 5. Results: where the code does not have the property

Each item is a theorem whose name ends in `_violated`, `_raises`, `_wrong` or similar.

* C04 the VCS spectrum is a sum over sky pixels, not the documented average.
* C04 with missing voxels, a sky pixel whose remaining values are all negative is not counted among the good pixels (`C04_noise_not_counted_violated`).
* C06 the middle block of an odd map is not symmetric; the direction π is lost with lower limit −π.
* C07 for an even number of rows the centre of the pixel grid is not the zero-frequency row.
* C10 the bootstrap adds residuals to the data, not to the model, and never draws the last residual.
* C11 `epsil_0 < tol` raises AttributeError, `epsil_0 = tol` UnboundLocalError.
* C12 the broken line is joined at the nearest grid point; a failed fit extrapolates wrongly.
* C16 the bin width is outside the square root of the Hellinger distance.
* C17 bins with Q = 0 are dropped; NaNs misalign the two arguments.
* C19 `nbins` gives `nbins - 1` bins.
* C22 for even lengths shifting loses composition and power.
* C23 a zero trailing pad wipes the vector. C24 NaN-padded rows are lost.
* C26 `cut` compares pixels at twice the lag, wrapped.
* C28 VCA ignores the second dataset's options; PSpec rejects fit options; dendrogram options are
  taken from the wrong dictionary; SCF, Delta-variance mixed inputs raise.
* C30 empty channels are kept as zeros. C31 non-square maps raise or miss rows.
* C32 with missing voxels the covariance is not positive semidefinite.
* C34 the noise ACF has the wrong sign; one eigenimage raises.
* C37 non-symmetric curves can give negative widths. C38 with `preserve_nan=True` missing pixels keep
  their weight in the denominator. C39 lags up to side//2+1 are accepted.
* C41 `clip_to_sigma` clips on the wrong array. C42 weights of missing pixels are counted.
* C43 the fraction is of the square, not the circle. C44 repeated `make_pdf` uses centres as edges.
* C45 moduli are subtracted; masked pixels dilute the mean square velocity.
* C46 the tracker undercounts; non-square maps raise. C47 beam area factor.
* C48 even window sizes raise; size 1 always gives 0. C49, C50 error maps, ignored arguments.
* C51 negative line-of-sight axes. C52 edge cells dropped. C53, C54 odd sizes, size 1.
* C55 last ring open-ended. C56 CRPIX swapped. C57 bad header leaves new data. C58 ignored CUNIT.
* C59 unchecked pair. C60 unit ratio dropped. C61 caller's dictionaries and weights modified.
* C62 pixel (0,0) is dropped instead of the mean. C63 unequal lags raise.
* C65 the third wave vector is truncated separately. C66 bins wider than requested.
* C68 the bins option is lost after the first histogram; the last valid threshold is excluded.
* C69 SCF lags with zero spread make the slope NaN.
* C70 Delta-variance limits in pixels are compared with unconverted lags.
* C71 the break error of an earlier fit survives; wavelet breaks carry the unit 1/pix; angular
  Delta-variance lags with a break raise a unit error.
* C72 odd channel numbers lose the highest frequency; several failing candidates raise.
* C73 the break error lacks the division by the slope change; slope errors ignore covariance.
* C74 `eigimages(n)` with n ≥ 2 returns the images transposed, shape `(n, columns, rows)`.
* C76 with `use_gamma=True` the sonic length depends on the pixel size; its error is off by ln 10 and
  0.434/intercept; the MCMC range ignores the sampled indices.
* C77 structures below the beam term get larger widths the smaller they are.
* C78 fixing both location and scale raises UnboundLocalError. C79 with one bin edge, or limits excluding one image, the Hellinger distance is 0. With `floc=False` the likelihood of the lognormal is unbounded (location just below the smallest value), so the parameters returned are where the optimiser stopped, not a maximum.
* C80 without bootstrap the 2D fit errors come from the fit that was not returned, or are NaN; with a fixed ellipse and no bootstrap every fit ends in an IndexError; amplitudes below 1e-10 cannot be represented; bootstrap replicates are data plus residuals, not model plus residuals; an earlier azimuthal wedge is still applied after a spectrum without limits.
* C81 loading moments by the name of a cube in another directory silently gives `None` for every map; a cube file without the suffix `.fits` is saved under one name and looked up under another; a save that fails half-way leaves new and old maps mixed; the integrated intensity is saved with the unit of the cube; loading with a mask always raises AttributeError.
* C82 the reported Tsallis `logA` is (1 - q) times the log amplitude of the documented distribution; `sigma_clip` limits log-probabilities instead of increments; `redchisq` is not a reduced chi-squared.
* C83 `load_results(name)` after `save_results(name)` fails unless the name ends in `.pkl`; an interrupted `save_results` destroys the earlier file; `MVC` and `PDF` results saved without data contain the centroid map and the whole image.
* C84 `StatMoments.run(min_frac=...)` is ignored; `run` and `compute_pspec` have different defaults for `alpha`; `fit_kwargs={'fit_unbinned': True}` is silently dropped (and removed from the caller's dictionary) by `PowerSpectrum` and `VCA`, and raises TypeError in `MVC` only after both spectra are computed; `VCS.run` accepts misspelt options silently; `Dendrogram_Stats.run` returns None and with `save_results=True` but no `output_name` raises AttributeError after all the work.
* C85 `lowdens_percent`/`highdens_percent` are ignored when `min_value`/`max_value` are given (documented to override them); the default is a single smoothing radius of one pixel (documented: five); a list of radii raises TypeError although documented for `Genus_Distance`; `max_value=0` without unit is accepted; `Genus_Distance` ignores `numpts` and all smoothing radii but the first, is not symmetric when the pixel scales differ (d(2,1) = d(1,2)/scale), divides by the scale instead of its square, so that the same sky on finer pixels is at non-zero distance, and compares non-overlapping threshold ranges by extrapolation; the triangle inequality fails for curves measured over different ranges: two different curves can both have distance zero from a third that starts where they end.
* C86 with the default `boundary='wrap'` the convolution is not periodic for lags above about 0.35 of the smaller side (kernel larger than the map): the map is surrounded by zeros, so the default lags (up to half the side) are not treated periodically.
* C87 lags that are symmetric but unevenly spaced (accepted and documented as sufficient), or not centred on 0, are reported at wrong values; after assigning `roll_lags`, `compute_spectrum` reports the old surface at the new lags; `theta_0=None` written explicitly raises ValueError; `SCF.fitted_model` returns the spectrum, not its logarithm as documented.
* C88 when all peaks of one dataset are equal the histogram distance is 0 whatever the other dataset is; `Dendrogram_Distance.distance_metric` can be called only once per object.
* C89 `StatMoments_Distance` uses `nbins - 1` bins; with `nbins=2` it raises IndexError; its distances are Hellinger distances times the square root of the bin width; with missing pixels and default weights an offset of the image changes the kurtosis map; a `StatMoments` given first whose radius must change loses its `nbins`, and `distance_metric()` raises TypeError.
* C90 `EllipseModel.estimate` on an ellipse with equal x and y coefficients (tilted by exactly 45 degrees) divides by zero and gets the direction of the other axis (45 instead of -45 degrees or the reverse), so `predict_xy` traces a different curve.
* C91 `WidthEstimate1D(method='interpolate')` interpolates at the absolute value 1/e, not 1/e of the maximum; uses the negative Nyquist lag; leaves width 0 when the first minimum is at lag 1; 'interpolate' and 'fit' raise IndexError for falling autocorrelations of odd length; `find_spectral_widths` raises when `n_eigs=1`.
* C92 `PCA.find_spatial_widths` adds the noise ACF (sign of `noise_ACF(-10)`), may use measured components as noise, fails for cubes whose eigenvalues are below `np.finfo(dtype).eps` whatever their unit, ignores `distance`; `WidthEstimate2D(method='xinterpolate')` multiplies by aspect² where it has to divide; interpolating fails under 100 pixels; `fit_2D_gaussian` pins the amplitude at the maximum, so a pedestal cannot be fitted.
* C93 `bayes_linear` restricts the angle to [0, pi/2], so a falling relation is reported with slope >= 0; `np.nansum` drops the residual of a point with missing x but keeps its normalisation; a point with both errors 0 gives NaN; with unequal errors the mode is not the exact line.
* C94 `estimate_stderrs` adds the residuals to the data and splits them with weights that sum to 1, so the distance is not preserved as its comment says; a failed refit stores NaN and makes all five errors NaN; `fit_2D_ellipse` swallows the ValueError of an invalid `alpha` and returns NaN widths; `residuals` starts at the end of the long axis for points on it, where the derivative vanishes; the semi-axes `a` and `b` exchange with the sign of the eigenvector.
* C95 the `distance_metric` methods write into the caller's `plot_kwargs1`/`plot_kwargs2` and delete `xunit` from them; `SCF_Distance` and `PDF_Distance` add `marker`, so the same dictionary then raises TypeError in `MVC_Distance` and others; the same dictionary for both datasets gives both the label 1; `SCF_Distance` and `PDF_Distance` ignore every option but color, marker and label although documented as passed to `pyplot.plot`; `PCA_Distance` ignores the documented symbol.
* C96 `base_pspec2.py:717-719` evaluates the fit at the frequency in the unit of the axis, so the line misses the data unless the axis is in 1/pixel; the same lines raise ValueError after a fit with a break; `delta_variance.py:573` computes residuals at the lag in the unit of the axis; `wavelet_transform.py:517` gives all residuals the errors of the finite ones; `vcs.py:326` uses the model of a failed break beyond the fitted range.
* C97 the plotting methods choose axes by counting those of the current figure: a call with residuals on a figure with one axis raises UnboundLocalError, `SCF.plot_fit` on its own single axis too, and the axis of the colour bar is counted, so calls with the image stop sharing axes or draw residuals in the colour bar; the distance metrics raise IndexError when `plot_kwargs2` has `save_name` or the backend closes shown figures.
* C98 assigning other lags after a computation and fitting pairs the new lags with the old values; with more lags `fit_tsallis` reports uninitialised rows; `compute_deltavar` with a bad `boundary` and `compute_spatial_distrib` with a bad radius replace earlier results by uninitialised memory; `DeltaVariance.convolve_arrays` and `convolve_weights` always raise AttributeError; `Genus.smoothed_images` can belong to earlier radii; `PCA.var_proportion` does not follow `n_eigs`.
* C99 with the default `h_step = 2` the reported break is as far from the true one as the guess, even for exact data; residual sums that decide between line and broken line ignore the weights, so a point of weight 0 can remove the break; a bin with standard deviation 0 makes the weighted fit with a break raise ValueError.
* C100 `gauss_kern` with a size below 1 is NaN; `moment_masking` always raises NameError (lines 23-28 of make_moments.py, which would define `signal_id_flag` and `Noise`, are comments); `convolution_wrapper` compares the first character of astropy's version, so 10.x to 19.x are refused; `GaussianAnnulus2D` ignores `x_mean` and `y_mean`.
* C101 `plot_distrib` draws the model CDF with `loc=0` when the data are not normalised; `fit_pdf` stores `_fit_fixes` and `_do_fit` before it fits, so after a failure the plot raises or mixes two fits; `trace_plot` (one parameter) and `Tsallis.plot_fit` (one lag) treat a single `Axes` as an array; the vertical lines of `Tsallis.plot_fit` are limits on the wrong axis; `Dendrogram_Stats.plot_fit` needs two bins; `PCA.plot_fit(n_eigs=k)` uses `self.n_eigs` for the places; `PCA.model` takes the logarithm of a method.
* C102 `_ang_size` takes the scale of the first pixel axis and the unit of the second world axis, whatever they are: a cube with the spectral axis first has the channel width as pixel size in degrees, one with the spectral axis second cannot convert physical lengths; quantities in pixels skip the test for square pixels.
* C103 `load_dendrogram` can never succeed: it passes `dendro.data`, a bare array, without a header; `PCA` reads the number of channels after `squeeze()`; `StatMoments(nbins=array)` raises TypeError although documented; `StatMoments` does not compare the shape of the weights.
* C104 The spectrum of MVC changes shape with the velocity unit (`V·I - <v²>·I` mixes dimensions), and `weight_by_error` rescales the maps instead of weighting pixels: equal errors change the spectrum's shape.
* C105 A thickest-slice VCA (channel width of the whole cube) and any one-channel cube lose their spectral axis in the `data` setter: VCA's spectrum is one-dimensional and `run` raises IndexError; VCS and SCF raise. With missing values a wider channel can have more power than the cube, because each pixel is averaged over its own number of valid channels.
* C106 MVC's beam correction divides the whole spectrum by the beam power, but the mean square velocity in it is measured on the observed maps: the result is not the spectrum of the maps without the beam.
* C106 The apodizing window is applied after the telescope's convolution and is not undone by the division: the corrected spectrum of a windowed image is not the spectrum of the windowed image without the beam.
* C107 With normalize=False the Cramer distance still divides each cube by its own maximum (`_format_data` does not pass its option on to `intensity_data`): a cube and any positive multiple of it are at distance 0. For maps of different size the distance depends on the order of the channels.
* C108 With the default limits the unbinned 1D fit of a generated isotropic field includes the Nyquist mode of both axes, of which the generator keeps only the real part: for one draw of a 4 × 4 field the fitted slope is too steep by `2 log 2 / log(8/5)` whatever the index.
* C109 `DeltaVariance.convolve_arrays` and `convolve_weights` can be read after no history. `brk_err` raises `AttributeError` after a completed fit without a break (wavelet, delta-variance) or with a break that was not found (power spectra), and survives from an earlier fit when the break is gone. `ps1D_stddev`, `scf_surface`, `pdf`, `ecdf` are `None` before they are computed. The arrays of the wavelet transform and the delta-variance can be read after their computation failed, and `SCF.compute_spectrum` uses a surface whose computation failed half-way. Plots and the sonic length possible before a call fail with `AttributeError` after it failed: a broken-line fit whose bootstrap raised, `SCF.compute_spectrum(theta_0=None)`, a PCA fit asked for before the widths, a PCA fit with `bayes` that raised.
* C110 A weighted fit is bootstrapped without its weights, with the data multiplied by their square roots but not the design: multiplying all weights by k multiplies the errors by sqrt(k), so the error of the delta-variance slope depends on the brightness unit; with a common weight k, the resampled parameters of exact data are sqrt(k) times the fitted ones. The error reported for the second slope of a fit with a break is that of the change of slope. `nboot` below 2 raises `IndexError`.
* C111 The distance classes decide by one attribute whether a given statistic has been computed. For the spectra, the wavelets and the delta-variance it is `_slope`, stored before `_slope_err`: a fit that failed in the bootstrap is accepted, and distance_metric raises `AttributeError`. The bicoherence and the maps of the moments are stored before they are filled: an interrupted computation is accepted and compared as it is. A spectrum fitted unbinned, without the one-dimensional spectrum, is accepted and cannot be plotted.
* C112 With nan_treatment='interpolate' missing pixels are corrected for twice: astropy divides by the share of the kernel on pixels with a value, and `compute_deltavar` divides again by the smoothed weights, which by default are 0 at the missing pixels. A map of ones with a hole has a positive delta-variance, and adding a constant to a map with missing pixels changes the result.
* C113 `Cramer_Distance.format_data` calls `np.random.seed(13024)` on the global generator when the cubes have different numbers of pixels, and does not restore it: the user's seed is forgotten and everything drawn afterwards is the same whatever was seeded before. `fit_elliptical_powerlaw(bootstrap=True)` and the errors of PCA spatial widths draw from the global generator without a seed: the same fit repeated returns other errors.
* C114 Opposite modes of a real image have equal power, so a bin holding just one pair (the lowest bins of a row, or a narrow wedge) has standard deviation zero; `fit_pspec(weighted_fit=True)` sets it to NaN and drops the bin. With `boot_iter` the mean of population deviations of resamples is returned, which for a bin of two powers is below the sample deviation by at least the square root of two whatever is drawn.
* C115 `pspec` measures directions from pixel `(ny//2, nx//2)` of the row-reversed spectrum, but for even sizes the zero frequency is at row `ny//2 - 1`, and the mask is made symmetric about the middle of the array. With even sizes and `theta_0 = 0` every mode `(0, L)` is left out when `delta_theta < 2 arctan(1/L)`, while `(-1, L)`, which is outside the limits, is used. With bins in pixels (`return_freqs=False`) two equal pixels above each other have power 4 in the first bin, next to each other none.
* C116 `Dendrogram_Distance.histogram_stat(verbose=True)` draws `mecdf` of histograms padded with NaN: every threshold with fewer bins than the widest is NaN and is not drawn. `Dendrogram_Distance.distance_metric(verbose=True, save_name='cloud')` saves to `cloud.hist_distance`, whose extension is no format: ValueError, and `num_distance` is never set. `PCA_Distance.distance_metric` labels shares of the compared eigenvalues "Proportion of Variance" and ignores `cmap` for the second matrix.
* C117 `threads` is a parameter of `rfft_to_fft` that is never used (line 55 passes only `pyfftw_kwargs`, from which callers remove `threads`): `PowerSpectrum`, `VCA`, `VCS` and `MVC` never run with more than pyfftw's default number of threads. `convolution_wrapper` and `Wavelet.compute_transform` ignore `threads` and `pyfftw_kwargs`. `Bispectrum_Distance` itself uses the deprecated name `BiSpectrum` (bispec.py:549,563).
* C119 `var_cov_cube` fills the missing pixels of the later channel of a pair with eps and leaves those of the earlier channel out, so PCA eigenvalues of a cube with missing voxels depend on the direction of the spectral axis. `autocorr_spec` subtracts the mean of the transform, which leaves out the first channel of an eigenvector: its spectral width depends on which end comes first. The downsampling of VCA starts from channel 0: when the factor does not divide the number of channels, the short run is at the other end of the spectrum in the reversed cube and the power spectrum differs.
* C120 At lags of a fraction of a pixel the SCF surface is not symmetric about its centre, even for continuous boundaries: for rows 1, 2, 0 the value is 1 - sqrt(2/3) at lag 1/2 and 1 - sqrt(1/5) at lag -1/2. With cut boundaries lags are rounded up, not away from zero: a lag of 1/2 cuts a row off and a lag of -1/2 none, so mirroring the cube changes the values. With missing voxels and lags that are fractions along both axes, exchanging the axes of the sky changes the values, because the mask is rounded after each of the two shifts.
* C118 The autocorrelation images of PCA, from which the spatial widths are fitted, depend on the position and orientation of the map, because the value of the first pixel is dropped (see C62): an eigenimage (1, 0) has a peak of 0, the mirrored or shifted one a peak of 1.
* C121 The zero level of the data matters wherever zeros are filled in or a window is applied. A background changes the power spectrum at every frequency when a pixel is missing or the map is apodized. With bins in pixels (`return_freqs=False`) the zero frequency falls in a bin for maps with an even number of rows. Where a part of a spectrum is missing a continuum changes the VCS spectrum at every frequency. With missing spectra a continuum can leave VCS without a counted pixel, all values NaN. The MVC spectrum depends on the velocity frame: gas at rest has no power, and power 4 at every frequency in a frame moving at speed 2.
* C122 Blank pixels are counted. The genus distance divides by the number of all pixels, missing ones included. PCA replaces missing pixels by eps and counts them in the variances: next to one missing pixel the variance 1 of a single voxel becomes (1 + eps²)/2. In the SCF surface with continuous boundaries a pair with a missing member counts as a pair without difference, so two rows of values 1 and 2 give 1 - √(1/5), and 1 - √(1/15) with a blank row below. The Cramer data take a fraction of all pixels, missing ones included. The Tsallis increments at the edges are taken against zeros, unless the edge is blank. The wavelet value is the mean of all positive coefficients, those of blank pixels within reach of the kernel included. The VCS spectrum grows with the number of blank pixels.
* C123 Blank channels are counted. VCS with missing voxels counts only the spectra whose maximum is not 0: one channel with the values 1 and -1 has the power 2 at frequency 0, and 4 with a blank channel added. PCA without mean subtraction fills a blank channel after the cube with eps, which gives it a covariance with the other channels; a blank channel before the cube gets none. In the Cramer statistic the blank channels are rows of zeros: a cube of one voxel is at the distance 1/6 from itself with a blank channel added.
* C124 PCA with mean subtraction divides the covariances by the number of pixels less one: a channel with the pixels 1 and 3 has the variance 2, and 4/3 when shown twice. The default number of bins of a Tsallis distribution grows with the number of pixels: the row 0, 2 gets two bins, and three when shown three times (`C124_tsallis_violated`). The PDF value at a percentile is interpolated between neighbouring data: the lower quartile of the row 0, 2 is 1/2, and 0 when shown twice (`C124_percentile_violated`).

## 6. Testing the theorems

`seeded/LOG.jsonl` lists the wrong programs tried: the model edited as a realistic bug would, the
theorems that stopped proving and, for edits that survived, the theorems that were tightened.
