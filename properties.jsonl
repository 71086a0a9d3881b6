{"id": "C01", "title": "rfft_to_fft returns the full FFT amplitude", "statement": "For every real 2D or 3D array, rfft_to_fft(image) has the same shape as image and every entry equals |fftn(image)| at the same frequency, whatever the parity of each axis; any other dimensionality raises TypeError.", "quantifier": "all real arrays with 2 or 3 axes of any positive lengths (odd and even), and all other numbers of axes", "why_tests_cant": "The mirrored half is built with parity-dependent slices; a test covers a handful of shapes, the claim is about every shape and every image.", "anchors": ["turbustat/statistics/rfft_to_fft.py:rfft_to_fft"]}
{"id": "C02", "title": "2D power spectrum laws", "statement": "The 2D power spectrum computed for an image (PowerSpectrum.compute_pspec: square of rfft_to_fft, shifted) is non-negative, scales by c^2 when the image is multiplied by c, is unchanged when the image is circularly shifted by any amount, is point-symmetric about zero frequency, and its total is (number of pixels) x (sum of squared pixels).", "quantifier": "all real images of any shape, all scale factors and all integer shifts", "why_tests_cant": "They are algebraic identities over all images and shapes; tests compare stored numbers for one dataset and fitted slopes of generated fields.", "anchors": ["turbustat/statistics/pspec_bispec/pspec.py:PowerSpectrum.compute_pspec", "turbustat/statistics/rfft_to_fft.py:rfft_to_fft"]}
{"id": "C03", "title": "VCA power spectrum is the per-channel power summed", "statement": "VCA's ps2D equals (number of channels) x (sum over channels of the channel's 2D power spectrum) at every spatial frequency; in particular it does not depend on the order of channels, and a one-channel cube gives exactly the PowerSpectrum result.", "quantifier": "all real cubes of any shape and all permutations of channels", "why_tests_cant": "Parseval along one axis for every cube and shape; tests check stored values of one cube and slopes of generated cubes.", "anchors": ["turbustat/statistics/vca_vcs/vca.py:VCA.compute_pspec"]}
{"id": "C04", "title": "VCS spectrum: Parseval, normalisation and invariances", "statement": "VCS's 1D spectrum is non-negative, scales as c^2, is invariant under any permutation of the sky pixels (no missing data), and its sum is (number of channels) x (mean over sky pixels of the summed squared intensities).", "quantifier": "all real cubes, scale factors and sky-pixel permutations", "why_tests_cant": "Universal identities over every cube; tests compare one stored spectrum.", "anchors": ["turbustat/statistics/vca_vcs/vcs.py:VCS.compute_pspec"]}
{"id": "C05", "title": "Radial profile: every pixel falls in one bin, means and flags are right", "statement": "In the azimuthally averaged spectrum, bins are half-open except the last, every pixel whose radius lies in [min_bin, max_bin] is counted in exactly one bin, the reported value is the mean of the selected pixels of that bin (constant spectra give the constant; the value lies between the bin's min and max), and bins holding at most one pixel are NaN.", "quantifier": "all 2D power spectra, all radius arrays and all increasing bin edges", "why_tests_cant": "The claim ranges over every array, bin layout and mask; tests look at one profile.", "anchors": ["turbustat/statistics/psds.py:pspec"]}
{"id": "C06", "title": "Azimuthal wedge selection is point-symmetric and handles the wrap at +-pi", "statement": "For every wedge (theta_0, delta_theta) the pixels pspec keeps form a set that is symmetric under reversing both axes, always contains the central pixels, and, for pixels away from the centre, keeps a pixel exactly when its angle or its mirror's angle lies within delta_theta/2 of theta_0 modulo the wrap; giving theta_0 without delta_theta raises ValueError.", "quantifier": "all theta_0, delta_theta and all array shapes", "why_tests_cant": "The wrap-around branch makes the answer depend on theta_0 continuously; tests look at fitted slopes for a few angles.", "anchors": ["turbustat/statistics/psds.py:pspec"]}
{"id": "C07", "title": "Radial coordinate grids are centred", "statement": "make_radial_arrays returns grids in which exactly the pixel floor(n/2) of each axis has coordinate 0, coordinates step by 1, and the shape equals the requested one; make_radial_freq_arrays gives frequencies in [-1/2,1/2) with zero at floor(n/2).", "quantifier": "all shapes with positive axes and all given centres", "why_tests_cant": "Even/odd shapes change where the centre falls; holds for every shape.", "anchors": ["turbustat/statistics/psds.py:make_radial_arrays", "turbustat/statistics/psds.py:make_radial_freq_arrays"]}
{"id": "C08", "title": "Apodizing windows are bounded tapers", "statement": "Every window (SplitCosineBell, Hanning, Tukey, CosineBell) has the requested shape, values in [0,1], is exactly 1 for pixels closer than the inner radius and exactly 0 beyond the taper, never increases with radius, and is symmetric under flipping either axis.", "quantifier": "all alpha, beta >= 0 and all 2D shapes; shapes without two entries raise ValueError", "why_tests_cant": "Quantifies over real parameters and all shapes, including the r_taper = 0 corner.", "anchors": ["turbustat/statistics/apodizing_kernels.py:SplitCosineBellWindow", "turbustat/statistics/apodizing_kernels.py:_radial_distance"]}
{"id": "C09", "title": "Frequency clipping selects a half-open range", "statement": "clip_func(arr, low, high) keeps exactly the points with low < x <= high, so consecutive ranges (a,b], (b,c] partition (a,c]; check_fit_limits converts the given limits and rejects limits that carry no unit.", "quantifier": "all arrays and all limits", "why_tests_cant": "Boundary behaviour at every limit value; tests never hit the boundary exactly.", "anchors": ["turbustat/statistics/fitting_utils.py:clip_func", "turbustat/statistics/fitting_utils.py:check_fit_limits"]}
{"id": "C10", "title": "Residual bootstrap resamples every residual", "statement": "Each bootstrap replicate used for parameter errors is the fitted values plus residuals drawn from all residuals of the fit.", "quantifier": "all fits and all random draws", "why_tests_cant": "It is a statement about the support of a random choice; a sampled run cannot show that an index is never drawn.", "anchors": ["turbustat/statistics/fitting_utils.py:residual_bootstrap"]}
{"id": "C11", "title": "Segmented linear fit terminates with a break inside the data", "statement": "Lm_Seg.fit_model performs at most iter_max (+1) outer iterations with at most 5 step halvings each whatever the regression returns, and the break point it reports lies within the range of x (or the fit reports failure); Lm_Seg refuses inputs with no more than 3 usable points.", "quantifier": "all x, y, initial breaks, tolerances and all results of the inner least-squares solver", "why_tests_cant": "Termination for every solver behaviour is not testable.", "anchors": ["turbustat/statistics/lm_seg.py:Lm_Seg.fit_model", "turbustat/statistics/lm_seg.py:Lm_Seg.__init__"]}
{"id": "C12", "title": "Segmented model is two joined lines", "statement": "The model returned by Lm_Seg.model is linear with slopes[0] below the break and slopes[1] above it, and the two pieces agree at the break.", "quantifier": "all parameters, breaks and evaluation grids", "why_tests_cant": "Continuity at the joint must hold for all parameters.", "anchors": ["turbustat/statistics/lm_seg.py:Lm_Seg.model"]}
{"id": "C13", "title": "Interval transform is a bijection onto the open interval", "statement": "inverse_interval_transform(interval_transform(x,a,b),a,b) = x for every a < x < b, the inverse always lands strictly inside (a,b), both maps are strictly increasing, and the standard-error maps are mutual inverses.", "quantifier": "all reals a < b and all x", "why_tests_cant": "Real-analytic round trip over a continuum.", "anchors": ["turbustat/statistics/elliptical_powerlaw.py:interval_transform", "turbustat/statistics/elliptical_powerlaw.py:inverse_interval_transform", "turbustat/statistics/elliptical_powerlaw.py:interval_transform_stderr", "turbustat/statistics/elliptical_powerlaw.py:inverse_interval_transform_stderr"]}
{"id": "C14", "title": "Elliptical power-law model symmetries", "statement": "LogEllipticalPowerLaw2D depends on the position angle only modulo pi, does not depend on the angle when the ellipticity is 1, is symmetric about the origin, and falls off with slope gamma along every ray; fit_2Dpspec reports theta in [0, pi).", "quantifier": "all parameters and all evaluation points away from the origin", "why_tests_cant": "Identities over real parameters.", "anchors": ["turbustat/statistics/elliptical_powerlaw.py:LogEllipticalPowerLaw2D.evaluate", "turbustat/statistics/base_pspec2.py:StatisticBase_PSpec2D.fit_2Dpspec"]}
{"id": "C15", "title": "Slope distances are symmetric t-statistics", "statement": "The slope distance of the PSpec, VCA, VCS, MVC, Wavelet, DeltaVariance, PDF-lognormal and Dendrogram metrics is |s1-s2|/sqrt(e1^2+e2^2): non-negative, symmetric in its two datasets, zero exactly when the slopes agree, and unchanged when both slopes and errors are rescaled together.", "quantifier": "all slopes and all non-negative errors not both zero", "why_tests_cant": "Metric-like laws over all reals; tests compare stored numbers.", "anchors": ["turbustat/statistics/pspec_bispec/pspec.py:PSpec_Distance", "turbustat/statistics/vca_vcs/vca.py:VCA_Distance", "turbustat/statistics/mvc/mvc.py:MVC_Distance", "turbustat/statistics/wavelets/wavelet_transform.py:Wavelet_Distance", "turbustat/statistics/pdf/compare_pdf.py:PDF_Distance.compute_lognormal_distance", "turbustat/statistics/dendrograms/dendro_stats.py:Dendrogram_Distance.numfeature_stat"]}
{"id": "C16", "title": "Hellinger distance is a bounded metric", "statement": "hellinger(p,q) on equal-length non-negative vectors is symmetric, non-negative, zero iff p = q, satisfies the triangle inequality, and is at most 1 when both sum (with the bin width) to 1; PDF_Distance's Hellinger distance therefore lies in [0,1].", "quantifier": "all non-negative vectors of any common length and any positive bin width", "why_tests_cant": "Metric axioms over all inputs.", "anchors": ["turbustat/statistics/stats_utils.py:hellinger", "turbustat/statistics/pdf/compare_pdf.py:PDF_Distance.compute_hellinger_distance"]}
{"id": "C17", "title": "Kullback-Leibler divergence is non-negative on distributions", "statement": "kl_divergence(P,Q) of two positive distributions of equal length is >= 0 and 0 when they coincide; a missing value in one input must not pair other bins of P and Q with each other.", "quantifier": "all pairs of distributions, with any pattern of missing values", "why_tests_cant": "Gibbs' inequality over all distributions; misalignment depends on missing-value patterns.", "anchors": ["turbustat/statistics/stats_utils.py:kl_divergence"]}
{"id": "C18", "title": "Data normalisations do what they say", "statement": "standardize gives mean 0 and standard deviation 1, center gives mean 0, normalize maps onto [0,1] attaining both ends, normalize_by_mean gives mean 1; missing values stay missing and do not influence the result; standardize, normalize and center are unaffected by adding a constant, and unknown norm types raise ValueError.", "quantifier": "all arrays with at least two different finite values and any missing-value pattern", "why_tests_cant": "Algebraic facts over all arrays.", "anchors": ["turbustat/statistics/stats_utils.py:standardize", "turbustat/statistics/stats_utils.py:center", "turbustat/statistics/stats_utils.py:normalize", "turbustat/statistics/stats_utils.py:normalize_by_mean", "turbustat/statistics/stats_utils.py:data_normalization"]}
{"id": "C19", "title": "Common histogram bins cover both datasets", "statement": "common_histogram_bins returns increasing, equally spaced edges whose first and last are the joint minimum and maximum of both datasets, so each value of either dataset falls in exactly one bin, and the centres are the midpoints.", "quantifier": "all pairs of datasets and all requested bin numbers", "why_tests_cant": "Coverage for every pair of datasets.", "anchors": ["turbustat/statistics/stats_utils.py:common_histogram_bins"]}
{"id": "C20", "title": "Common scale puts two datasets on one physical scale", "statement": "For two undistorted grids with square pixels, common_scale returns the factor that turns the first pixel size into the second: it is 1 exactly when they agree, swapping the datasets inverts it, and factors of three grids chain; distorted grids raise WcsError and non-square pixels ValueError.", "quantifier": "all pairs of headers", "why_tests_cant": "Holds for all real scales and the case analysis on presence of headers.", "anchors": ["turbustat/statistics/stats_utils.py:common_scale"]}
{"id": "C21", "title": "Integer pixel shifts form a group of rolls", "statement": "pixel_shift(a, k) moves every element k places cyclically: shifting by j then k equals shifting by j+k, shifting by the axis length (or 0) changes nothing, shifting back restores the array, and no value is created or lost.", "quantifier": "all arrays and all integer shifts (positive, negative, larger than the axis)", "why_tests_cant": "Group laws over all integers and lengths.", "anchors": ["turbustat/statistics/stats_utils.py:pixel_shift"]}
{"id": "C22", "title": "Fourier shift agrees with rolling and composes", "statement": "fourier_shift by a whole number of pixels equals the cyclic roll, shifts compose additively, and shift by 0 is the identity; the shift conserves total power.", "quantifier": "all real arrays, all real shifts (all integers for the roll claim)", "why_tests_cant": "Fourier identities for all lengths and shifts.", "anchors": ["turbustat/statistics/stats_utils.py:fourier_shift", "turbustat/statistics/stats_utils.py:_shifter"]}
{"id": "C23", "title": "Padding callbacks only touch the padding", "statement": "padwithzeros and padwithnans used as np.pad callbacks fill exactly the padded margins with the fill value and leave the data untouched, whatever the pad widths.", "quantifier": "all vectors and all pad widths, including 0", "why_tests_cant": "Edge case pad width 0 changes the meaning of the slice.", "anchors": ["turbustat/statistics/stats_utils.py:padwithzeros", "turbustat/statistics/stats_utils.py:padwithnans"]}
{"id": "C24", "title": "mECDF rows are cumulative distributions", "statement": "mecdf(arr) maps each row of non-negative numbers with positive sum to a non-decreasing sequence in [0,1] ending at 1, unaffected by rescaling a row; a constant row gives equal steps.", "quantifier": "all 2D non-negative arrays with positive row sums", "why_tests_cant": "Holds for all arrays.", "anchors": ["turbustat/statistics/dendrograms/mecdf.py:mecdf"]}
{"id": "C25", "title": "SCF surface is bounded, 1 at zero lag, symmetric and scale free", "statement": "Every value of the SCF surface is at most 1 and at least 1-sqrt(2), zero lag gives exactly 1, multiplying the cube by c != 0 changes nothing, and for continuous (periodic) boundaries the value at (dy,dx) equals the value at (-dy,-dx); hence the 'exceeds 1' error is unreachable.", "quantifier": "all cubes without axes of length one (for those see C105; with or without missing values, no all-zero line of sight) and all integer lags", "why_tests_cant": "Inequality over all cubes.", "anchors": ["turbustat/statistics/scf/scf.py:SCF.compute_surface"]}
{"id": "C26", "title": "SCF with cut boundaries compares voxels separated by the lag", "statement": "With boundary='cut', the SCF at lag (dy,dx) is computed from pairs of sky pixels separated by exactly (dy,dx) and lying inside the map; no wrapped-around pixel takes part.", "quantifier": "all cubes and lags", "why_tests_cant": "It is a statement about which index pairs enter for every lag and shape.", "anchors": ["turbustat/statistics/scf/scf.py:SCF.compute_surface"]}
{"id": "C27", "title": "SCF distance is a metric on surfaces", "statement": "SCF_Distance (weighted or not) is non-negative, symmetric, zero on identical surfaces and satisfies the triangle inequality for fixed weights.", "quantifier": "all pairs/triples of equally sized surfaces", "why_tests_cant": "Metric axioms over all surfaces.", "anchors": ["turbustat/statistics/scf/scf.py:SCF_Distance.distance_metric"]}
{"id": "C28", "title": "Distance classes validate each dataset's own precomputed statistic", "statement": "When a precomputed statistic is passed to a Distance class, the decision whether to recompute it, and the options it is recomputed with, depend on that dataset alone (dataset 2's check uses dataset 2, dataset 2's keyword arguments are applied to dataset 2).", "quantifier": "all combinations of precomputed / raw inputs and option sets", "why_tests_cant": "A cross-product of flags and option sets; tests use three combinations for one pair of datasets.", "anchors": ["turbustat/statistics/scf/scf.py:SCF_Distance.__init__", "turbustat/statistics/delta_variance/delta_variance.py:DeltaVariance_Distance.__init__", "turbustat/statistics/vca_vcs/vca.py:VCA_Distance.__init__"]}
{"id": "C29", "title": "Cramer statistic laws", "statement": "Cramer_Distance's statistic is symmetric in the two datasets (with common normalisation), zero when both are the same sample, invariant under reordering the rows of either sample and under a common translation, and never negative.", "quantifier": "all pairs of finite point samples of equal dimension", "why_tests_cant": "Non-negativity is an inequality over all samples (energy distance).", "anchors": ["turbustat/statistics/cramer/cramer.py:Cramer_Distance.cramer_statistic"]}
{"id": "C30", "title": "Intensity data: top values per channel, sorted and padded", "statement": "intensity_data returns for each kept channel the largest values (percentile or noise threshold) sorted in non-increasing order, all channels padded with zeros to one common length, dropping channels with no retained value.", "quantifier": "all cubes and thresholds", "why_tests_cant": "Sorting/padding invariants for every cube.", "anchors": ["turbustat/statistics/threeD_to_twoD.py:intensity_data"]}
{"id": "C31", "title": "Spectra formatting pairs every sky pixel with its own spectrum", "statement": "_format_data in spectra mode returns, for each sky pixel (y,x), exactly the spectrum at that pixel, each pixel once, for every (also non-square) map.", "quantifier": "all cube shapes", "why_tests_cant": "Fails only for non-square maps: depends on shape.", "anchors": ["turbustat/statistics/threeD_to_twoD.py:_format_data"]}
{"id": "C32", "title": "PCA covariance is symmetric positive semi-definite", "statement": "var_cov_cube returns a symmetric matrix, positive semi-definite when no voxel is missing (so all eigenvalues are >= 0), scaling as c^2; with mean subtraction it is invariant to adding a constant per channel.", "quantifier": "all cubes without missing voxels, all channel offsets", "why_tests_cant": "Quadratic-form inequality for all vectors and cubes.", "anchors": ["turbustat/statistics/threeD_to_twoD.py:var_cov_cube"]}
{"id": "C33", "title": "PCA keeps the requested eigenvalues and a variance fraction in [0,1]", "statement": "After compute_pca the eigenvalues are non-increasing, n_eigs follows the request (all for -1, error for out-of-range), var_proportion lies in [0,1] and grows with n_eigs; the automatic cut by value keeps exactly the eigenvalues at or above the threshold, and by proportion the largest number whose cumulative fraction stays within the threshold (at least one).", "quantifier": "all non-negative eigenvalue lists, all n_eigs and thresholds, both mean_sub modes", "why_tests_cant": "Holds for all spectra; tests use one cube.", "anchors": ["turbustat/statistics/pca/pca.py:PCA.compute_pca", "turbustat/statistics/pca/pca.py:set_n_eigs"]}
{"id": "C34", "title": "PCA noise ACF is the average of the noise eigenimages", "statement": "The noise autocorrelation returned for a negative n_eigs (default the last 10) is the mean of the autocorrelation images of those eigenimages, so subtracting it removes the noise contribution.", "quantifier": "all decompositions", "why_tests_cant": "A sign error is invisible unless the sign is compared for all inputs.", "anchors": ["turbustat/statistics/pca/pca.py:PCA.noise_ACF"]}
{"id": "C35", "title": "PCA distance laws", "statement": "PCA_Distance is symmetric, non-negative, zero for equal eigenvalue spectra and for cubes differing by a scale factor, and satisfies the triangle inequality; 'auto' and too many eigenvalues are rejected.", "quantifier": "all eigenvalue spectra and n_eigs", "why_tests_cant": "Metric laws over all spectra.", "anchors": ["turbustat/statistics/pca/pca.py:PCA_Distance.distance_metric"]}
{"id": "C36", "title": "PCA index correction brackets", "statement": "The Brunt-corrected index always lies between the ends of the reported correction range when applied to the uncorrected index and a non-negative range containing it.", "quantifier": "all indices >= 0 and all error ranges", "why_tests_cant": "Inequality over all reals.", "anchors": ["turbustat/statistics/pca/pca.py:brunt_index_correct", "turbustat/statistics/pca/pca.py:brunt_index_correct_range"]}
{"id": "C37", "title": "Walk-down width is the first 1/e crossing", "statement": "WidthEstimate1D's walk-down method returns, for an autocorrelation whose maximum is at lag 0 and that drops below 1/e, a width lying between the last lag at or above 1/e and the first lag below it, by linear interpolation; it is NaN when the curve never crosses.", "quantifier": "all 1D autocorrelations", "why_tests_cant": "Interpolation bracket for every curve.", "anchors": ["turbustat/statistics/pca/width_estimate.py:WidthEstimate1D"]}
{"id": "C38", "title": "Delta-variance invariances", "statement": "The delta-variance is unchanged by adding a constant to the map (uniform weights), scales as c^2, is non-negative, and its lags are validated: every accepted lag is at least one pixel and below half the smallest map side. Its value is the weighted mean square of the core-minus-annulus filtered map over the pixels that are not missing.", "quantifier": "all maps, offsets, scale factors and lag arrays", "why_tests_cant": "Identities over all maps.", "anchors": ["turbustat/statistics/delta_variance/delta_variance.py:DeltaVariance.compute_deltavar", "turbustat/statistics/delta_variance/delta_variance.py:DeltaVariance.lags", "turbustat/statistics/delta_variance/delta_variance.py:_delvar"]}
{"id": "C39", "title": "Lag and scale validation accepts exactly the resolvable range", "statement": "Wavelet.scales, Tsallis.lags and DeltaVariance.lags reject (without changing the object) values without units, below one pixel, or above half the smallest map dimension, and accept all others; the default lags/scales the classes generate are always accepted.", "quantifier": "all maps and all lag arrays", "why_tests_cant": "Boundary behaviour for every map size.", "anchors": ["turbustat/statistics/wavelets/wavelet_transform.py:Wavelet.scales", "turbustat/statistics/tsallis/tsallis.py:Tsallis.lags", "turbustat/statistics/delta_variance/delta_variance.py:DeltaVariance.lags"]}
{"id": "C40", "title": "Wavelet transform values are positive averages", "statement": "Each value of the wavelet transform is the mean of the strictly positive convolved pixels (hence > 0 or NaN) and scales linearly with the image.", "quantifier": "all images, scales and positive factors", "why_tests_cant": "Universal over images.", "anchors": ["turbustat/statistics/wavelets/wavelet_transform.py:Wavelet.compute_transform"]}
{"id": "C41", "title": "Tsallis increments and distributions", "statement": "The Tsallis lag map is the four-neighbour average at the lag minus the image, continued periodically or by zeros as requested: in the periodic case it is zero for constant images, sums to zero and is unaffected by an offset; for non-constant maps the histogram's probabilities sum to 1; the fitted function is even in x and clipping keeps exactly the finite points whose log-probability is smaller in magnitude than the limit.", "quantifier": "all images and lags", "why_tests_cant": "Holds for all images and lags.", "anchors": ["turbustat/statistics/tsallis/tsallis.py:Tsallis.make_tsallis", "turbustat/statistics/tsallis/tsallis.py:tsallis_function"]}
{"id": "C42", "title": "Local moments are the weighted moments of the valid pixels", "statement": "compute_moments returns the weighted mean, variance, skewness and excess kurtosis of the valid pixels: mean within the range of valid values, variance >= 0, mean/variance/skewness/kurtosis transform correctly under x -> a x + b, kurtosis >= skewness^2 - 2; missing pixels must not influence the result.", "quantifier": "all images, weights and missing-value patterns", "why_tests_cant": "Inequalities and equivariance over all images.", "anchors": ["turbustat/statistics/stat_moments/highstatmoments.py:compute_moments"]}
{"id": "C43", "title": "Moment maps honour min_frac and the circular region", "statement": "A pixel of the moment maps is set exactly when at least min_frac of the circle's pixels are valid, with min_frac outside (0,1] rejected, and StatMoments.run(min_frac=f) uses f; circular_region is symmetric and contains exactly the pixels strictly inside the radius.", "quantifier": "all images, radii and fractions", "why_tests_cant": "Depends on option plumbing for every value.", "anchors": ["turbustat/statistics/stat_moments/highstatmoments.py:StatMoments.compute_spatial_distrib", "turbustat/statistics/stat_moments/highstatmoments.py:StatMoments.run", "turbustat/statistics/stat_moments/highstatmoments.py:circular_region"]}
{"id": "C44", "title": "PDF is a normalised density over the kept data", "statement": "PDF keeps exactly the finite values above min_val; make_pdf's density is non-negative and integrates to 1 over its bins, whatever the binning, each time it is called; the ECDF is non-decreasing in [0,1]; percentile look-ups reject values outside [0,100] and find_percentile/find_at_percentile are monotone.", "quantifier": "all datasets, bin choices and call histories", "why_tests_cant": "The second call's result depends on history; universal over datasets.", "anchors": ["turbustat/statistics/pdf/compare_pdf.py:PDF.make_pdf", "turbustat/statistics/pdf/compare_pdf.py:PDF.make_ecdf", "turbustat/statistics/pdf/compare_pdf.py:PDF.find_percentile", "turbustat/statistics/pdf/compare_pdf.py:PDF.find_at_percentile"]}
{"id": "C45", "title": "MVC spectrum corrects for density and masks consistently", "statement": "MVC's ps2D is the power spectrum of the intensity-weighted centroid minus <v^2> times the intensity; it is non-negative, vanishes for a zero centroid-and-linewidth map, scales as the square of the intensity, and a pixel missing in any of the three input maps is treated as missing in all.", "quantifier": "all triples of equally shaped maps", "why_tests_cant": "Depends on missing-data patterns.", "anchors": ["turbustat/statistics/mvc/mvc.py:MVC.__init__", "turbustat/statistics/mvc/mvc.py:MVC.compute_pspec"]}
{"id": "C46", "title": "Bicoherence lies in [0,1]", "statement": "The bicoherence of compute_bispectrum lies in [0,1] wherever samples were accumulated, is unchanged when the image is multiplied by c != 0, and the number of samples recorded per bin equals the number accumulated.", "quantifier": "all images and all random draws of wavevectors", "why_tests_cant": "Triangle inequality over all accumulations; duplicates depend on random draws.", "anchors": ["turbustat/statistics/pspec_bispec/bispec.py:Bispectrum.compute_bispectrum"]}
{"id": "C47", "title": "Genus curve object counting", "statement": "remove_small_objects-style filtering keeps exactly the connected regions at or above the minimum size and is idempotent; genus value = (#islands above) - (#islands below the threshold); the Gaussian model is odd about the mean; the genus statistics table has one row per smoothing/threshold.", "quantifier": "all label maps, sizes and thresholds", "why_tests_cant": "Invariant over all label maps.", "anchors": ["turbustat/statistics/genus/genus.py:remove_small_objects", "turbustat/statistics/genus/genus.py:Genus.make_genus_curve", "turbustat/statistics/genus/genus.py:Genus.make_genus_stats_table"]}
{"id": "C48", "title": "Dendrogram thresholds and windows", "statement": "min_deltas must be strictly increasing (otherwise ValueError, object unchanged), autoset_min_deltas yields increasing values starting at the dendrogram's own min_delta, and std_window uses windows of the requested size centred on each point.", "quantifier": "all arrays and window sizes", "why_tests_cant": "Window off-by-one shows only for specific sizes/data.", "anchors": ["turbustat/statistics/dendrograms/dendro_stats.py:Dendrogram_Stats.min_deltas", "turbustat/statistics/dendrograms/dendro_stats.py:Dendrogram_Stats.autoset_min_deltas", "turbustat/statistics/dendrograms/dendro_stats.py:std_window"]}
{"id": "C49", "title": "Moment errors: slice-wise equals cube-wise", "statement": "moment0/1/2_error computed with how='slice' and how='cube' agree at every sky pixel (so 'auto' does not change results with the memory size), errors are non-negative, and unknown 'how' raises ValueError.", "quantifier": "all cubes, masks, noise values and axes", "why_tests_cant": "Equality for every mask, including fully masked pixels.", "anchors": ["turbustat/moments/_moment_errs.py:moment0_error", "turbustat/moments/_moment_errs.py:moment1_error", "turbustat/moments/_moment_errs.py:moment2_error"]}
{"id": "C50", "title": "Moments honours the noise scale given to make_moment_errors", "statement": "make_moment_errors(scale=s) computes all moment errors with noise s, whether or not a scale was set on the object earlier; later properties always exist after a successful call.", "quantifier": "all histories of setting scale and calling make_moment_errors", "why_tests_cant": "History-dependent.", "anchors": ["turbustat/moments/make_moments.py:Moments.make_moment_errors", "turbustat/moments/make_moments.py:Moments.scale"]}
{"id": "C51", "title": "Synthetic cubes do not depend on the schedule", "statement": "make_ppv returns the same cube for any number of threads and any completion order, writes every sky pixel exactly once with the spectrum of its own line of sight, and rejects negative densities, v_min > v_max and too many channels.", "quantifier": "all fields, thread counts, schedules and options", "why_tests_cant": "All schedules.", "anchors": ["turbustat/simulator/make_cube.py:make_ppv", "turbustat/simulator/make_cube.py:field_slice"]}
{"id": "C52", "title": "Synthetic spectra are non-negative and linear in density", "statement": "generate_spectrum is non-negative for non-negative densities, additive and homogeneous in density, and zero density gives a zero spectrum; velocity channels are equally spaced, tile [v_min,v_max], and their number is the ceiling of range/width.", "quantifier": "all velocity/density fields", "why_tests_cant": "Universal over fields.", "anchors": ["turbustat/simulator/spectrum.pyx:generate_spectrum", "turbustat/simulator/make_cube.py:_spectrum_maker", "turbustat/simulator/make_cube.py:make_ppv"]}
{"id": "C53", "title": "Generated 2D fields are Hermitian", "statement": "The Fourier map make_extended builds satisfies F(-k) = conj F(k) for every frequency and image size, so the inverse transform is real and its spectrum has the requested amplitude rr^(-powerlaw/2); ellip outside (0,1] raises ValueError.", "quantifier": "all sizes (odd and even), all random phases, all power laws, ellipticities and angles", "why_tests_cant": "Symmetry for every size and phase draw.", "anchors": ["turbustat/simulator/gen_field.py:make_extended"]}
{"id": "C54", "title": "Generated 3D fields are Hermitian", "statement": "The Fourier map make_3dfield builds satisfies the Hermitian symmetry on its self-conjugate planes for every size, and the returned field has rms equal to amp.", "quantifier": "all sizes and random phases", "why_tests_cant": "Same as above in 3D; many slice assignments.", "anchors": ["turbustat/simulator/gen_field.py:make_3dfield"]}
{"id": "C55", "title": "3D power spectrum bins", "statement": "threeD_pspec rejects non-3D arrays, each Fourier mode enters at most one bin, each reported value is the mean power of its bin, and the number of values equals the number of frequency bins returned.", "quantifier": "all 3D arrays of any shape", "why_tests_cant": "Universal over shapes.", "anchors": ["turbustat/simulator/threeD_pspec.py:threeD_pspec"]}
{"id": "C56", "title": "Mock headers describe the data's axes", "statement": "create_image_header/create_cube_header put the reference pixel at the centre of the matching FITS axis (axis 1 = last numpy axis) for every image shape, and create_fits_hdu rejects data that is not 2D or 3D.", "quantifier": "all shapes including non-square", "why_tests_cant": "Only visible for non-square shapes.", "anchors": ["turbustat/io/sim_tools.py:create_image_header", "turbustat/io/sim_tools.py:create_cube_header", "turbustat/io/sim_tools.py:create_fits_hdu"]}
{"id": "C57", "title": "Statistic headers and data are type-checked", "statement": "Assigning a header or data to a statistic only succeeds for the accepted types/shapes, leaves the object unchanged when it fails, and a statistic built without a header never reports one.", "quantifier": "all assignment histories", "why_tests_cant": "Invariant over all histories.", "anchors": ["turbustat/statistics/base_statistic.py:BaseStatisticMixIn"]}
{"id": "C58", "title": "Unit conversions are mutually inverse", "statement": "Converting a length pixel -> angular -> physical -> pixel returns the original value, _to_pixel_area is the square of _to_pixel, spatial frequency conversion is the inverse of length conversion, and physical conversion without a distance is refused.", "quantifier": "all positive pixel scales and distances and all values", "why_tests_cant": "Round-trips over all reals.", "anchors": ["turbustat/statistics/base_statistic.py:BaseStatisticMixIn._to_pixel", "turbustat/statistics/base_statistic.py:BaseStatisticMixIn._spatial_unit_conversion", "turbustat/statistics/base_statistic.py:BaseStatisticMixIn.distance"]}
{"id": "C59", "title": "input_data accepts the documented types", "statement": "input_data returns the array (and header) unchanged for each supported input type, honours no_header, and raises TypeError for every other type.", "quantifier": "all input kinds", "why_tests_cant": "Exhaustive case analysis.", "anchors": ["turbustat/io/input_base.py:input_data"]}
{"id": "C60", "title": "Spectral regridding factor", "statement": "spectral_regrid_cube returns the cube unchanged for the same channel width, refuses finer channels, and otherwise yields floor(n/factor)-style channels of the requested width covering the original range.", "quantifier": "all cubes and channel widths", "why_tests_cant": "Boundary arithmetic for all widths.", "anchors": ["turbustat/statistics/vca_vcs/slice_thickness.py:spectral_regrid_cube"]}
{"id": "C61", "title": "Caller-owned inputs are not modified", "statement": "Running a statistic does not modify the arrays, weights or keyword dictionaries the caller passed in.", "quantifier": "all call histories", "why_tests_cant": "Aliasing across calls/histories.", "anchors": ["turbustat/statistics/pspec_bispec/pspec.py:PowerSpectrum.__init__", "turbustat/statistics/pspec_bispec/pspec.py:PowerSpectrum.run", "turbustat/statistics/pca/width_estimate.py:WidthEstimate1D", "turbustat/statistics/dendrograms/dendro_stats.py:Dendrogram_Distance.__init__"]}
{"id": "C62", "title": "PCA autocorrelation surfaces", "statement": "PCA.autocorr_images and autocorr_spec return, for each requested component, the circular autocorrelation of the mean-subtracted eigenimage / eigenvector: lag zero sits at the central pixel (first entry for spectra), opposite lags are equal and lag zero is the maximum.", "quantifier": "all decompositions, numbers of components and lags", "why_tests_cant": "Identity over all images; tests compare fitted widths on one cube and on one Gaussian.", "anchors": ["turbustat/statistics/pca/pca.py:PCA.autocorr_images", "turbustat/statistics/pca/pca.py:PCA.autocorr_spec"]}
{"id": "C63", "title": "Delta-variance curve distance laws", "statement": "DeltaVariance_Distance.curve_distance is symmetric, non-negative, zero for proportional curves, unchanged by multiplying either curve by a positive factor, compares only lags usable in both curves, and is NaN unless both curves share lags and fitted range.", "quantifier": "all pairs of curves, NaN patterns and fitted ranges", "why_tests_cant": "Laws over all pairs of curves.", "anchors": ["turbustat/statistics/delta_variance/delta_variance.py:DeltaVariance_Distance.distance_metric"]}
{"id": "C64", "title": "Histograms of moment maps are densities", "statement": "make_spatial_histograms returns, for each moment map, bin centres of increasing edges together with non-negative densities that integrate to 1, with the object's own number of bins or with common bins supplied by a comparison.", "quantifier": "all moment maps with at least one valid value, all bin numbers and edges", "why_tests_cant": "Normalisation over all maps and binnings.", "anchors": ["turbustat/statistics/stat_moments/highstatmoments.py:StatMoments.make_spatial_histograms"]}
{"id": "C65", "title": "Bispectrum does not depend on position", "statement": "Circularly shifting a map leaves its bispectrum and bicoherence unchanged for the same random draws, because the three sampled wave vectors of each draw close (k3 = k1 + k2).", "quantifier": "all square maps, shifts and random draws", "why_tests_cant": "Universal over maps, shifts and draws.", "anchors": ["turbustat/statistics/pspec_bispec/bispec.py:Bispectrum.compute_bispectrum"]}
{"id": "C66", "title": "Bispectrum slices", "statement": "azimuthal_slice and radial_slice return, for consecutive bins of the requested width covering the whole range, the mean of the finite surface values inside the requested annulus (wedge) and bin; bins without a value are NaN.", "quantifier": "all surfaces, radii, angles and bin widths", "why_tests_cant": "Bin arithmetic over all surfaces and widths.", "anchors": ["turbustat/statistics/pspec_bispec/bispec.py:Bispectrum.azimuthal_slice", "turbustat/statistics/pspec_bispec/bispec.py:Bispectrum.radial_slice"]}
{"id": "C67", "title": "Bispectrum distance laws", "statement": "The bicoherence surface distance is the Frobenius distance of equally shaped surfaces (a metric), undefined for different shapes; the mean distance is the absolute difference of the means; both are symmetric.", "quantifier": "all pairs/triples of bicoherence surfaces", "why_tests_cant": "Metric laws over all surfaces.", "anchors": ["turbustat/statistics/pspec_bispec/bispec.py:Bispectrum_Distance.distance_metric"]}
{"id": "C68", "title": "Dendrogram feature counts and histograms", "statement": "numfeatures/values have one entry per min_delta, entry i belonging to the dendrogram pruned with the first i thresholds; a user-given number of histogram bins applies to every threshold; the distance uses every threshold at which both datasets have more than min_features structures; mecdf rows are non-decreasing and end at 1.", "quantifier": "all thresholds, dendrogram contents and bin settings", "why_tests_cant": "Holds for every number of thresholds and every pruning result.", "anchors": ["turbustat/statistics/dendrograms/dendro_stats.py:Dendrogram_Stats.compute_dendro", "turbustat/statistics/dendrograms/dendro_stats.py:Dendrogram_Stats.make_hists", "turbustat/statistics/dendrograms/dendro_stats.py:Dendrogram_Distance.__init__", "turbustat/statistics/dendrograms/mecdf.py:mecdf"]}
{"id": "C69", "title": "Power-law fits recover an exact power law", "statement": "A power spectrum, SCF, Delta-variance or wavelet curve that is exactly A x^b over the fitted range yields slope b, independently of bins excluded or missing; multiplying the image by a constant or shifting it circularly leaves the power-spectrum slope unchanged.", "quantifier": "all images and curves, amplitudes, exponents, limits and lag units", "why_tests_cant": "Tests check one synthetic field within a tolerance; the claim is for every curve and every missing pattern.", "anchors": ["turbustat/statistics/base_pspec2.py:StatisticBase_PSpec2D.fit_pspec", "turbustat/statistics/scf/scf.py:SCF.fit_plaw", "turbustat/statistics/delta_variance/delta_variance.py:DeltaVariance.fit_plaw", "turbustat/statistics/wavelets/wavelet_transform.py:Wavelet.fit_transform", "turbustat/statistics/pspec_bispec/pspec.py:PowerSpectrum.run"]}
{"id": "C70", "title": "Fit limits select exactly the points inside them", "statement": "Fitting with limits gives the same result as fitting, without limits, the curve cut to the points inside the limits, whatever the unit of the limits and lags; limits that leave no point are refused.", "quantifier": "all curves, limits and units", "why_tests_cant": "Boundary semantics for all limits.", "anchors": ["turbustat/statistics/base_pspec2.py:StatisticBase_PSpec2D.fit_pspec", "turbustat/statistics/scf/scf.py:SCF.fit_plaw", "turbustat/statistics/delta_variance/delta_variance.py:DeltaVariance.fit_plaw", "turbustat/statistics/wavelets/wavelet_transform.py:Wavelet.fit_transform", "turbustat/statistics/fitting_utils.py:clip_func"]}
{"id": "C71", "title": "Fit attributes describe the last fit", "statement": "After a fit with an optional break, brk, brk_err, slope and slope_err describe that fit only: a break is reported exactly when the segmented fit found one with enough points below it, in the right unit and with its own error, and nothing remains from earlier fits.", "quantifier": "all histories of fits with and without breaks, all outcomes of the segmented regression", "why_tests_cant": "Stale state needs particular histories.", "anchors": ["turbustat/statistics/base_pspec2.py:StatisticBase_PSpec2D.fit_pspec", "turbustat/statistics/delta_variance/delta_variance.py:DeltaVariance.fit_plaw", "turbustat/statistics/wavelets/wavelet_transform.py:Wavelet.fit_transform"]}
{"id": "C72", "title": "VCS fit points and break search", "statement": "VCS.fit_pspec fits every positive spectral frequency inside the cuts, tries the estimated breaks from the largest down until one gives a fit with a break, uses that one, falls back to a line without a break when none does, and reports one error per slope.", "quantifier": "all channel numbers, cuts, spline knots and outcomes of the segmented regression", "why_tests_cant": "Search order and termination over all outcomes.", "anchors": ["turbustat/statistics/vca_vcs/vcs.py:VCS.fit_pspec"]}
{"id": "C73", "title": "Segmented fit errors are standard errors", "statement": "The break error and slope errors of a segmented fit are the (first-order) standard errors of the reported break and slopes, in particular unaffected by the scale of the ordinates for the break.", "quantifier": "all coefficients and covariance matrices", "why_tests_cant": "Identity over all covariance matrices.", "anchors": ["turbustat/statistics/lm_seg.py:brk_errs", "turbustat/statistics/lm_seg.py:Lm_Seg.get_slopes"]}
{"id": "C74", "title": "Eigenimages", "statement": "The eigenimage of a principal component is the (mean-subtracted, if asked) cube projected on that component: images of different components are orthogonal, the power of an image is its eigenvalue times the degrees of freedom, all images with their eigenvectors rebuild the cube, and asking for k images returns k maps with the rows and columns of the cube.", "quantifier": "all cubes without missing voxels, eigen-decompositions and numbers of images", "why_tests_cant": "Exact identities for every cube; map orientation is invisible on square symmetric tests.", "anchors": ["turbustat/statistics/pca/pca.py:PCA.eigimages", "turbustat/statistics/pca/pca.py:PCA.compute_pca"]}
{"id": "C75", "title": "Size-linewidth fit of PCA", "statement": "PCA.fit_plaw fits exactly the eigenimages whose spatial width lies within the limits and whose widths and errors are finite, recovers index and intercept of an exact relation v = v0 l^a, gives limits the same effect in every unit, and the index does not depend on the pixel or channel size.", "quantifier": "all width tables, limits, units, indices and grid spacings", "why_tests_cant": "Selection and recovery hold for every table of widths.", "anchors": ["turbustat/statistics/pca/pca.py:PCA.fit_plaw", "turbustat/statistics/pca/pca.py:PCA.index", "turbustat/statistics/pca/pca.py:PCA.intercept"]}
{"id": "C76", "title": "Sonic length", "statement": "PCA.sonic_length is the size at which the fitted size-linewidth relation reaches the sound speed; it is a physical length, independent of channel width and pixel size, and the reported uncertainty is its propagated standard error.", "quantifier": "all fits, sound speeds, grids and posterior samples", "why_tests_cant": "Invariance and error propagation are identities over all fits.", "anchors": ["turbustat/statistics/pca/pca.py:PCA.sonic_length", "turbustat/statistics/pca/pca.py:PCA.gamma"]}
{"id": "C77", "title": "Beam-corrected spatial widths", "statement": "With beam correction the spatial width of each eigenimage has the beam contribution removed from each axis, depends only on the beam-to-pixel ratio, is never larger than the uncorrected width, is monotone in the axis widths, carries the first-order error, and unresolved images get no (or zero) width; beam and pixel size are required and must be angles.", "quantifier": "all axis widths, beams, pixel sizes and units", "why_tests_cant": "Monotonicity and the unresolved case range over all widths.", "anchors": ["turbustat/statistics/pca/width_estimate.py:WidthEstimate2D", "turbustat/statistics/pca/pca.py:PCA.find_spatial_widths"]}
{"id": "C78", "title": "Lognormal fit of the PDF", "statement": "PDF.fit_pdf by maximum likelihood (default: location fixed at 0) returns the parameters under which the kept data are most likely: shape is the standard deviation and scale the exponential of the mean of the log data; rescaling the data leaves the shape and rescales the scale parameter; any combination of fixed location and scale may be requested; other fit types are refused.", "quantifier": "all data sets with at least two distinct values above the location, all optimisers that find the maximum", "why_tests_cant": "Optimality of the estimate ranges over all parameters and all data.", "anchors": ["turbustat/statistics/pdf/compare_pdf.py:PDF.fit_pdf"]}
{"id": "C79", "title": "PDF distance from images to numbers", "statement": "PDF_Distance compares both images on common equally wide bins: the Hellinger distance is that of the shares of values per bin and lies in [0,1], the KS distance is the largest vertical distance of the two cumulative distributions, both vanish for equal images and do not depend on the order; standardised comparisons ignore scale and offset of an image; the lognormal distance is the difference of fitted widths in units of the combined error.", "quantifier": "all pairs of images, thresholds, weights, normalisations, bin numbers and bin limits", "why_tests_cant": "Symmetry, bounds and invariance quantify over all pairs of images; degenerate binnings are not tested.", "anchors": ["turbustat/statistics/pdf/compare_pdf.py:PDF_Distance", "turbustat/statistics/stats_utils.py:hellinger", "turbustat/statistics/stats_utils.py:common_histogram_bins"]}
{"id": "C80", "title": "The 2D fit recovers an elliptical power law", "statement": "When the fitted part of a 2D power spectrum (or SCF surface) is exactly an elliptical power law, the 2D fit reports its index (slope2D), axis ratio (ellip2D) and, unless it is circular, its orientation (theta2D, modulo pi, in [0, pi)); only pixels between low_cut and high_cut (and in the azimuthal wedge in force) influence the result, a selection without pixels or with a non-positive or missing value raises ValueError, and the reported errors belong to the reported parameters.", "quantifier": "every map size, elliptical power law, cut range and azimuthal mask, start values, and fitter that converges from one of the two starting angles", "why_tests_cant": "Recovery must hold for every orientation, axis ratio, index and size; tests compare simulated fields for a few angles, ratios and indices within a tolerance. Whether four parameters are determined by the surface at all is a statement about all parameter pairs.", "anchors": ["turbustat/statistics/base_pspec2.py:fit_2Dpspec", "turbustat/statistics/elliptical_powerlaw.py:fit_elliptical_powerlaw", "turbustat/statistics/scf/scf.py:SCF.fit_2Dplaw"]}
{"id": "C81", "title": "Saved moment maps are the maps that are loaded", "statement": "Moments.to_fits writes the three maps with their error maps; Moments.from_fits with the same prefix, the same explicit names, or the cube name and its directory gives back exactly these maps; saving never touches other files or (without overwrite) existing ones, saves under other prefixes do not disturb a saved set, an incomplete object is refused with nothing written, and the file headers carry the unit of the map.", "quantifier": "every object, prefix, directory and file name, disk content and history of saves", "why_tests_cant": "Round trip and non-interference quantify over all names and histories, and partial failures need a crash-point argument.", "anchors": ["turbustat/moments/make_moments.py:Moments.to_fits", "turbustat/moments/make_moments.py:Moments.from_fits", "turbustat/moments/make_moments.py:Moments.to_dict"]}
{"id": "C82", "title": "Tsallis fits", "statement": "For every lag the Tsallis fit reports the amplitude, width and shape of the distribution when the histogram is exactly the documented Tsallis distribution, with a (reduced) chi-squared of 0; the fitted points are the finite ones within sigma_clip standard deviations; every row of the results belongs to its own lag, the table names its columns correctly, and the results do not depend on the unit of the image.", "quantifier": "all histograms, parameter sets, clip limits, images and fitters that find the least-squares solution", "why_tests_cant": "Whether three parameters are determined by the histogram is a statement about all pairs of parameter sets; recovery must hold for all amplitudes, widths and shapes.", "anchors": ["turbustat/statistics/tsallis/tsallis.py:Tsallis.fit_tsallis", "turbustat/statistics/tsallis/tsallis.py:tsallis_function", "turbustat/statistics/tsallis/tsallis.py:clip_to_sigma", "turbustat/statistics/tsallis/tsallis.py:Tsallis.tsallis_table"]}
{"id": "C83", "title": "Saving and loading results", "statement": "save_results leaves the statistic unchanged and writes one file; load_results then returns, at any later time and whatever happened to the statistic or its arrays since, an independent object with exactly the attributes the statistic had when it was saved, without the input data unless keep_data is set; the name given to save_results can be given to load_results, and a save that fails leaves the earlier results readable.", "quantifier": "all objects and attribute values (shared arrays included), file names, histories of changes, saves and loads between the save and the load, and points at which writing stops", "why_tests_cant": "Independence of the saved copy must hold for every later history of changes and every way attributes share arrays; tests save and load once in one order, and never interrupt the write.", "anchors": ["turbustat/statistics/base_statistic.py:BaseStatisticMixIn.save_results", "turbustat/statistics/base_statistic.py:BaseStatisticMixIn.load_results", "turbustat/statistics/mvc/mvc.py:MVC.save_results", "turbustat/statistics/mvc/mvc.py:MVC.__init__", "turbustat/statistics/pdf/compare_pdf.py:PDF.__init__"]}
{"id": "C84", "title": "run passes its options to its steps", "statement": "A call of run on any statistic makes exactly the documented steps in order (those depending on a switch only when it is set); every option of run that a step also has reaches that step with the user's value, else with run's default, which is also the step's default; every entry of an option dictionary, and every further keyword, reaches the step it is documented for; names that are no option are refused; and run returns the statistic.", "quantifier": "all fourteen statistics with a run method, all sets of options and option values, all contents of the option dictionaries, with and without a beam in the header", "why_tests_cant": "There are over a hundred options whose values must survive two levels of keyword passing in every combination; tests use run with the defaults and one or two options.", "anchors": ["turbustat/statistics/pspec_bispec/pspec.py:PowerSpectrum.run", "turbustat/statistics/pspec_bispec/bispec.py:Bispectrum.run", "turbustat/statistics/vca_vcs/vca.py:VCA.run", "turbustat/statistics/vca_vcs/vcs.py:VCS.run", "turbustat/statistics/mvc/mvc.py:MVC.run", "turbustat/statistics/delta_variance/delta_variance.py:DeltaVariance.run", "turbustat/statistics/wavelets/wavelet_transform.py:Wavelet.run", "turbustat/statistics/scf/scf.py:SCF.run", "turbustat/statistics/pca/pca.py:PCA.run", "turbustat/statistics/tsallis/tsallis.py:Tsallis.run", "turbustat/statistics/stat_moments/highstatmoments.py:StatMoments.run", "turbustat/statistics/genus/genus.py:Genus.run", "turbustat/statistics/dendrograms/dendro_stats.py:Dendrogram_Stats.run", "turbustat/statistics/pdf/compare_pdf.py:PDF.run"]}
{"id": "C85", "title": "Genus thresholds and distance", "statement": "Without limits the thresholds of a genus curve are numpts values at equal distances between two percentiles of the valid pixels (minimum and maximum by default), all within the data range and in the image's unit; limits may be given in any unit of the right kind, others are refused; the percentages override given limits as documented; the smoothing radii are the documented ones. The genus distance is zero between an image and itself, never negative, unchanged by a positive rescaling and shift of the brightness of either image, symmetric, obeys the triangle inequality, compares curves per angular area, and uses every option it accepts.", "quantifier": "all images with blanks, all percentages, limits, units, radii, pixel scales and every interpolating spline routine", "why_tests_cant": "Percentiles, unit conversions and the distance depend on every pixel and on the ratio of pixel scales; the tests use one image pair with a common header.", "anchors": ["turbustat/statistics/genus/genus.py:Genus.__init__", "turbustat/statistics/genus/genus.py:Genus.smoothing_radii", "turbustat/statistics/genus/genus.py:Genus.make_genus_curve", "turbustat/statistics/genus/genus.py:Genus_Distance.__init__", "turbustat/statistics/genus/genus.py:Genus_Distance.distance_metric"]}
{"id": "C86", "title": "Delta-variance and wavelet values do not depend on position or orientation", "statement": "The delta-variance curve (values and errors) of a map and its weights is the same when both are turned by a right angle or mirrored, with either boundary and all options; with periodic boundaries it is the same when the map is shifted cyclically. The wavelet transform has the same symmetries. The kernels used are isotropic weights of sum one.", "quantifier": "all maps with missing pixels, all weights, lags, diameter ratios, cut-offs, shifts and both boundary rules", "why_tests_cant": "A kernel that is off-centre by one pixel, or a convolution that is not periodic where it should be, changes the numbers slightly on every map; tests compare with stored numbers of one map.", "anchors": ["turbustat/statistics/delta_variance/kernels.py:core_kernel", "turbustat/statistics/delta_variance/kernels.py:AnnulusKernel", "turbustat/statistics/convolve_wrapper.py:convolution_wrapper", "turbustat/statistics/delta_variance/delta_variance.py:DeltaVariance.compute_deltavar", "turbustat/statistics/wavelets/wavelet_transform.py:Wavelet.compute_transform"]}
{"id": "C87", "title": "The SCF spectrum averages the surface over lag length, at lags in the unit of roll_lags", "statement": "For roll_lags that are evenly spaced with 0 in the middle, each value of the SCF spectrum is the mean of the surface values whose lag vector has a length in the bin, the reported lags are the bin centres in the unit of roll_lags, positive and increasing, every value lies in [1-sqrt(2), 1], the unit of the lags does not matter, and repeating the computation changes nothing. The spectrum belongs to the current roll_lags, for every set of lags the class accepts.", "quantifier": "all cubes with missing values, all evenly spaced lags in any unit, all bin options, and all sequences of setting lags and computing", "why_tests_cant": "A wrong scaling, a wrong centre or a stale surface shifts the curve for particular lags only; tests compare the surface for one set of lags in two units, and slopes with the default lags, always on new objects.", "anchors": ["turbustat/statistics/scf/scf.py:SCF.compute_spectrum", "turbustat/statistics/scf/scf.py:SCF.roll_lags", "turbustat/statistics/scf/scf.py:SCF.fitted_model", "turbustat/statistics/psds.py:pspec"]}
{"id": "C88", "title": "The dendrogram histogram distance is the mean Hellinger distance of z-score histograms", "statement": "At each threshold used, Dendrogram_Distance compares the shares of the z-scores of the peaks of both datasets in common bins of equal width from the smallest to the largest z-score, floor(sqrt((n1+n2)/2)) of them for nbins='best' and otherwise the number given. The histogram distance is the mean of the Hellinger distances over the thresholds, lies in [0, 1], is zero exactly when all shares agree, is symmetric in the datasets, and does not change with the intensity scale, the zero level or the order of the structures of either dataset. Datasets with different distributions of peaks have a positive distance, and the distance can be computed again.", "quantifier": "all pairs of dendrogram statistics with any numbers of thresholds and structures, every nbins, every min_features", "why_tests_cant": "The claim is about every pair of lists of peaks; tests compare two stored numbers for one pair.", "anchors": ["turbustat/statistics/dendrograms/dendro_stats.py:Dendrogram_Distance.histogram_stat", "turbustat/statistics/dendrograms/dendro_stats.py:Dendrogram_Distance.distance_metric", "turbustat/statistics/dendrograms/dendro_stats.py:hellinger_stat", "turbustat/statistics/stats_utils.py:common_histogram_bins", "turbustat/statistics/stats_utils.py:standardize"]}
{"id": "C89", "title": "The moment distance compares the skewness and kurtosis maps by binned Hellinger distances", "statement": "StatMoments_Distance compares the values of the two skewness maps, and of the two kurtosis maps, in nbins common bins of equal width from the smallest to the largest value (nbins defaults to the root of the smaller number of pixels). Each distance is the Hellinger distance of the shares in the bins: between 0 and 1, zero exactly when the shares agree, symmetric, and dependent on the values in the maps only. Multiplying an image by a positive number or adding a constant to it changes neither distance. Data and StatMoments objects can be given in either position.", "quantifier": "all pairs of images with any missing pixels and weights, both boundary treatments, every radius, minimum fraction and number of bins, raw or as objects", "why_tests_cant": "The claim is about every pair of images and every way of giving them; tests compare two stored numbers for one pair of images, raw and precomputed.", "anchors": ["turbustat/statistics/stat_moments/highstatmoments.py:StatMoments_Distance", "turbustat/statistics/stat_moments/highstatmoments.py:StatMoments.make_spatial_histograms", "turbustat/statistics/stat_moments/highstatmoments.py:StatMoments.compute_spatial_distrib", "turbustat/statistics/stat_moments/highstatmoments.py:compute_moments", "turbustat/statistics/stats_utils.py:common_histogram_bins", "turbustat/statistics/stats_utils.py:hellinger"]}
{"id": "C90", "title": "The ellipse fit returns the ellipse through the points, and the contour width is its mean axis", "statement": "When EllipseModel.estimate succeeds its parameters describe a real ellipse with positive semi-axes, the curve predict_xy traces is that ellipse, and no other conic of the same discriminant has a smaller algebraic error on the points. Points that lie on no conic make it succeed, and five or more distinct points of an ellipse give back its centre, semi-axes and curve. The 2D width by method 'contour' is the root mean square of the two semi-axes of the ellipse fitted to the contour round the origin (the radius if it is a circle), and NaN when no contour goes round the origin.", "quantifier": "all lists of points, all ellipses and all sets of points on them, all lists of contours and every eigensolver that returns an eigenbasis", "why_tests_cant": "The claim is about every ellipse and every set of points; no test calls the ellipse fit directly; it is run inside one contour width of a round Gaussian.", "anchors": ["turbustat/statistics/stats_utils.py:EllipseModel.estimate", "turbustat/statistics/stats_utils.py:EllipseModel.predict_xy", "turbustat/statistics/pca/width_estimate.py:WidthEstimate2D", "turbustat/statistics/pca/width_estimate.py:fit_2D_ellipse", "turbustat/statistics/pca/width_estimate.py:get_contour_path"]}
{"id": "C91", "title": "Spectral widths are 1/e widths of the eigenspectra, and spectral units name the same width", "statement": "PCA.find_spectral_widths gives one width per component: the lag where the autocorrelation of the eigenvector falls to 1/e of its maximum, NaN where it does not, for each of the methods 'walk-down', 'interpolate' and 'fit', with no influence of the sign of the eigenvector or of the number of components asked for. spectral_width(unit) converts by the width of a channel whatever the sign of the increment in the header, conversions to and from channels are inverse, units of another kind are refused, and cuts given to VCS.fit_pspec in any spectral unit select the channels whose frequency in that unit lies between them.", "quantifier": "all eigenvectors, numbers of channels and components, methods, headers, units and cuts", "why_tests_cant": "The claim is about every eigenvector and every header; tests compare stored widths of one cube and the width of one Gaussian line.", "anchors": ["turbustat/statistics/pca/pca.py:PCA.find_spectral_widths", "turbustat/statistics/pca/pca.py:PCA.autocorr_spec", "turbustat/statistics/pca/pca.py:PCA.spectral_width", "turbustat/statistics/pca/width_estimate.py:WidthEstimate1D", "turbustat/statistics/base_statistic.py:BaseStatisticMixIn._to_spectral", "turbustat/statistics/base_statistic.py:BaseStatisticMixIn._spectral_freq_unit_conversion", "turbustat/statistics/vca_vcs/vcs.py:VCS.fit_pspec"]}
{"id": "C92", "title": "Spatial widths are the 1/e widths of the noise-corrected autocorrelation images", "statement": "PCA.find_spatial_widths gives one width per component, measured on the autocorrelation of its eigenimage after the mean autocorrelation of noise components beyond the measured ones has been subtracted: the 1/e ellipse ('contour'), the Gaussian width ('fit') or the 1/e radius ('interpolate', 'xinterpolate'). It does not depend on the brightness unit of the cube, takes the beam from beam_fwhm or else from BMAJ in the header and only when beam correction is on, converts with the distance given, and refuses unknown methods.", "quantifier": "all cubes with missing values, decompositions, methods, beams, headers, distances, contour finders, fitters and splines", "why_tests_cant": "The claim is about every cube and every image; tests compare stored widths of one cube and the width of one round Gaussian.", "anchors": ["turbustat/statistics/pca/pca.py:PCA.find_spatial_widths", "turbustat/statistics/pca/pca.py:PCA.spatial_width", "turbustat/statistics/pca/pca.py:PCA.noise_ACF", "turbustat/statistics/pca/width_estimate.py:WidthEstimate2D", "turbustat/statistics/pca/width_estimate.py:fit_2D_gaussian", "turbustat/io/try_load_beamwidth.py:find_beam_width"]}
{"id": "C93", "title": "The Bayesian line fit samples the likelihood of straight lines with errors in both variables", "statement": "bayes_linear (and PCA.fit_plaw with fit_method='bayes') draws lines with the probability of the measured points when each true point lies somewhere on the line and both coordinates have normal errors. The two variables are treated alike, changing units moves the lines only, points on a line are fitted by that line, the reported slope and intercept are medians of the samples inside the reported percentile ranges, missing values do not influence the fit, and rising and falling lines are found alike.", "quantifier": "all data with errors, missing values, lines, samplers, random draws and percentiles", "why_tests_cant": "The claim is about every data set and every chain; a test compares one fit of one data set within a tolerance.", "anchors": ["turbustat/statistics/fitting_utils.py:bayes_linear", "turbustat/statistics/pca/pca.py:PCA.fit_plaw"]}
{"id": "C94", "title": "The residuals and errors of a fitted ellipse", "statement": "EllipseModel.residuals returns the shortest distance of each point to the fitted ellipse, and estimate_stderrs returns, for each of the five parameters, half the width of the central interval of confidence alpha over refits of resampled points. Points lying on an ellipse have residuals and errors 0; errors are not negative and grow with alpha; the resampling moves each point by a resampled residual; fit_2D_ellipse returns the semi-axes and their errors over the square root of 2, NaN when the fit fails, and reports invalid options.", "quantifier": "all points, ellipses, random draws, confidence levels and minimisers", "why_tests_cant": "The claim is about every random draw and every point; a test runs one seed on one set of points, with a tolerance.", "anchors": ["turbustat/statistics/stats_utils.py:EllipseModel.residuals", "turbustat/statistics/stats_utils.py:EllipseModel.estimate_stderrs", "turbustat/statistics/pca/width_estimate.py:fit_2D_ellipse"]}
{"id": "C95", "title": "The plot options of the distance metrics", "statement": "With verbose, the distance metrics draw each dataset with the options given in plot_kwargs1 and plot_kwargs2 and with fixed defaults for color, label and symbol where none are given. Without verbose they draw nothing. A call without options draws the defaults whatever was called before; repeating a call draws the same; what is drawn depends only on the contents of the two dictionaries. An unknown keyword is reported. The caller's dictionaries are not changed, and all documented options have an effect.", "quantifier": "all sequences of calls of the distance metrics with plot options, all dictionaries, the same or different ones for the two datasets", "why_tests_cant": "The default dictionaries are objects shared by all calls and are written to: the claim is about every history of calls. A test makes one call.", "anchors": ["turbustat/statistics/pca/pca.py:PCA_Distance.distance_metric", "turbustat/statistics/mvc/mvc.py:MVC_Distance.distance_metric", "turbustat/statistics/scf/scf.py:SCF_Distance.distance_metric", "turbustat/statistics/pdf/compare_pdf.py:PDF_Distance.distance_metric", "turbustat/statistics/wavelets/wavelet_transform.py:Wavelet_Distance.distance_metric", "turbustat/statistics/dendrograms/dendro_stats.py:Dendrogram_Distance.distance_metric", "turbustat/statistics/delta_variance/delta_variance.py:DeltaVariance_Distance.distance_metric", "turbustat/statistics/stat_moments/highstatmoments.py:StatMoments_Distance.distance_metric", "turbustat/statistics/pspec_bispec/pspec.py:PSpec_Distance.distance_metric", "turbustat/statistics/vca_vcs/vca.py:VCA_Distance.distance_metric", "turbustat/statistics/vca_vcs/vcs.py:VCS_Distance.distance_metric"]}
{"id": "C96", "title": "What the fit plots show", "statement": "The plots of a fit show the data, the fitted model and the fit limits on one axis in the unit the user asked for: every data point is drawn at its scale or frequency in that unit, the curve is the fitted power law at the same scales, the vertical lines are the limits of the fit, and the residual panel shows value minus fitted model.", "quantifier": "all fits, all lists of values (with missing ones), all units with a pixel size, with and without wavenumbers and residuals", "why_tests_cant": "The plots are only looked at, and the default unit (pixels) hides every mixture of units. The claim ranges over all units, fits and values.", "anchors": ["turbustat/statistics/base_pspec2.py:StatisticBase_PSpec2D.plot_fit", "turbustat/statistics/delta_variance/delta_variance.py:DeltaVariance.plot_fit", "turbustat/statistics/wavelets/wavelet_transform.py:Wavelet.plot_transform", "turbustat/statistics/scf/scf.py:SCF.plot_fit", "turbustat/statistics/vca_vcs/vcs.py:VCS.plot_fit", "turbustat/statistics/lm_seg.py:Lm_Seg.model"]}
{"id": "C97", "title": "Plotting several datasets into one figure", "statement": "The plotting methods use the current figure: on an empty one they make the axes they need, and calling them again for another dataset adds it to the same axes: curve on curve, residuals on residuals, image on image. The verbose output of a distance metric is one figure that shows both datasets, with a legend for the curves, and it can be saved.", "quantifier": "all sequences of calls on one figure, all options, all backends (whether a shown figure stays current)", "why_tests_cant": "Which axes are used depends on the number of axes earlier calls left behind: the claim ranges over histories of calls. The tests run with one backend and look at no figure.", "anchors": ["turbustat/statistics/base_pspec2.py:StatisticBase_PSpec2D.plot_fit", "turbustat/statistics/delta_variance/delta_variance.py:DeltaVariance.plot_fit", "turbustat/statistics/wavelets/wavelet_transform.py:Wavelet.plot_transform", "turbustat/statistics/scf/scf.py:SCF.plot_fit", "turbustat/statistics/vca_vcs/vcs.py:VCS.plot_fit", "turbustat/statistics/mvc/mvc.py:MVC_Distance.distance_metric", "turbustat/statistics/pspec_bispec/pspec.py:PSpec_Distance.distance_metric", "turbustat/statistics/delta_variance/delta_variance.py:DeltaVariance_Distance.distance_metric"]}
{"id": "C98", "title": "Results belong to the settings they are shown with", "statement": "After a computation the stored values are those of the current lags, scales, weights or radii, whatever the object was used for before; a fit or a table pairs each lag with its own value; images that were asked for can be read and belong to the last computation. A call that raises changes nothing.", "quantifier": "all sequences of assignments, computations, fits and readings on one object, all settings, all statistics at one lag, all points at which a computation can raise", "why_tests_cant": "The claim ranges over histories of one object, including calls that raise. The tests compute once on a new object.", "anchors": ["turbustat/statistics/delta_variance/delta_variance.py:DeltaVariance", "turbustat/statistics/wavelets/wavelet_transform.py:Wavelet", "turbustat/statistics/tsallis/tsallis.py:Tsallis", "turbustat/statistics/stat_moments/highstatmoments.py:StatMoments", "turbustat/statistics/genus/genus.py:Genus", "turbustat/statistics/pca/pca.py:PCA.n_eigs"]}
{"id": "C99", "title": "A fit with a break recovers broken power laws and does not depend on units", "statement": "Fitting a curve that is exactly two joined power laws, with a guess near the break, returns the two exponents and the break. Points without weight do not matter. Break and slopes do not depend on the brightness unit, and the break follows the unit of length; multiplying all weights by a number changes nothing.", "quantifier": "all data, all weights, all guesses, all options of the segmented fit, every least-squares solver; recovery for all exact two-slope data and guesses in the same gap of the abscissae", "why_tests_cant": "The result of an iteration with a stopping rule and a model comparison; tests fit one noisy curve and compare with stored numbers.", "anchors": ["turbustat/statistics/lm_seg.py:Lm_Seg.fit_model", "turbustat/statistics/base_pspec2.py:StatisticBase_PSpec2D.fit_pspec", "turbustat/statistics/delta_variance/delta_variance.py:DeltaVariance.fit_plaw", "turbustat/statistics/wavelets/wavelet_transform.py:Wavelet.fit_transform"]}
{"id": "C100", "title": "Smoothing helpers: kernel, signal mask, convolution wrapper and annulus profile", "statement": "gauss_kern returns an odd box of positive weights with sum one and a Gaussian profile along each axis. Smoothing with it averages: the result lies between the values around the voxel. moment_masking returns the voxels within `dilations` pixels of one whose smoothed value exceeds clip times the noise. The convolution wrapper accepts astropy 2 and later and gives the same result with and without pyfftw. The annulus model is a ring about (x_mean, y_mean).", "quantifier": "all sizes, cubes (with NaN), thresholds, numbers of dilations, noise estimators, versions of astropy, ring parameters", "why_tests_cant": "The tests never call gauss_kern or moment_masking, run with one version of astropy, and only see rings about the origin.", "anchors": ["turbustat/moments/make_moments.py:gauss_kern", "turbustat/moments/make_moments.py:moment_masking", "turbustat/statistics/convolve_wrapper.py:convolution_wrapper", "turbustat/statistics/delta_variance/kernels.py:GaussianAnnulus2D.evaluate"]}
{"id": "C101", "title": "What the plots of distributions, genus curves, dendrograms and the size-linewidth relation show", "statement": "PDF.plot_distrib shows the measured distribution and the density and cumulative distribution of the latest successful fit. Tsallis.plot_fit has one panel per lag with its distribution and its own fit and marks the data that were fitted; plot_parameters shows the fitted parameters. Genus.plot_fit shows the curve of every smoothing radius at its own place. Dendrogram_Stats.plot_fit shows the fit and bars that cover the bins of the histograms. PCA.plot_fit shows the requested number of eigenvalues and, in any units, the widths and the fitted relation.", "quantifier": "all objects and histories of fits (including failed ones), fixed parameters, numbers of lags, radii, bins and components, units, missing widths", "why_tests_cant": "The tests only check that a file is written; they do not look at what was drawn, never refit after a failure, and use one set of units.", "anchors": ["turbustat/statistics/pdf/compare_pdf.py:PDF.plot_distrib", "turbustat/statistics/pdf/compare_pdf.py:PDF.trace_plot", "turbustat/statistics/pdf/compare_pdf.py:PDF.fit_pdf", "turbustat/statistics/tsallis/tsallis.py:Tsallis.plot_fit", "turbustat/statistics/tsallis/tsallis.py:Tsallis.plot_parameters", "turbustat/statistics/genus/genus.py:Genus.plot_fit", "turbustat/statistics/dendrograms/dendro_stats.py:Dendrogram_Stats.plot_fit", "turbustat/statistics/pca/pca.py:PCA.plot_fit", "turbustat/statistics/pca/pca.py:PCA.model"]}
{"id": "C102", "title": "The size of a pixel and the width of a channel are those of the header", "statement": "For every header, the angular size of a pixel used by all conversions between pixels, angles and physical lengths is the length on the sky of a one-pixel step, whatever the orientation or mirroring of the grid and the order of the axes; the width of a channel is that of the spectral axis. Headers whose sky pixels are not square are refused, those with square pixels are accepted.", "quantifier": "all coordinate matrices, orders of the axes, distances, quantities in any unit", "why_tests_cant": "The tests use one or two unrotated headers with sky axes first; they cannot cover all rotations, near-square grids and axis orders.", "anchors": ["turbustat/statistics/base_statistic.py:BaseStatisticMixIn._wcs", "turbustat/statistics/base_statistic.py:BaseStatisticMixIn._ang_size", "turbustat/statistics/base_statistic.py:BaseStatisticMixIn._physical_size", "turbustat/statistics/base_statistic.py:BaseStatisticMixIn._to_pixel", "turbustat/statistics/base_statistic.py:BaseStatisticMixIn._spatial_unit_conversion", "turbustat/statistics/base_statistic.py:BaseStatisticMixIn._has_spectral", "turbustat/statistics/base_statistic.py:BaseStatisticMixIn._spectral_size"]}
{"id": "C103", "title": "An object that was constructed holds what was given, and a saved dendrogram can be loaded", "statement": "Dendrogram_Stats, PCA, StatMoments and MVC hold, after construction, the data, header, parameters, thresholds, radius, weights and maps they were given (with the documented defaults), know how many channels the cube has, and refuse bad arguments (text other than 'auto', thresholds that do not increase, a radius outside 2 pixels to half the shorter side, maps of different shapes, a spectral axis that is not a velocity) when they are made. load_dendrogram gives an object with the saved data and parameters.", "quantifier": "all ways to give data and header, shapes, thresholds, radii in any unit, numbers of bins, saved files", "why_tests_cant": "The tests construct each class from one HDU or tuple with default arguments; load_dendrogram is not tested.", "anchors": ["turbustat/statistics/dendrograms/dendro_stats.py:Dendrogram_Stats.__init__", "turbustat/statistics/dendrograms/dendro_stats.py:Dendrogram_Stats.load_dendrogram", "turbustat/statistics/pca/pca.py:PCA.__init__", "turbustat/statistics/stat_moments/highstatmoments.py:StatMoments.__init__", "turbustat/statistics/stat_moments/highstatmoments.py:StatMoments.radius", "turbustat/statistics/mvc/mvc.py:MVC.__init__"]}
{"id": "C104", "title": "The centroid spectrum does not depend on the units, and errors act as weights", "statement": "Expressing the same intensities or the same velocities in another unit multiplies the spectrum of MVC by a constant, so its slope does not change; displacing the maps periodically changes nothing. With weight_by_error, MVC_Distance weights each property map by the inverse square of its own error map: errors that are the same everywhere leave the shape of the spectrum as it is, errors of one leave the maps as they are, each dataset is weighted by its own errors, and a missing property or error map raises KeyError.", "quantifier": "all shapes, complete maps, units (positive factors), displacements, error maps without zeros, dictionaries", "why_tests_cant": "The tests compare one spectrum with a stored one in one unit; weight_by_error is not tested at all.", "anchors": ["turbustat/statistics/mvc/mvc.py:MVC.compute_pspec", "turbustat/statistics/mvc/mvc.py:MVC_Distance.__init__"]}
{"id": "C105", "title": "VCA at a given channel width is the VCA of the averaged channels, down to a single channel", "statement": "VCA(cube, channel_width=w) is the VCA of the cube whose channels are averages over the valid values in runs of w channels (quantities rounded up to whole channels, missing values zero); a width of one channel changes nothing, wider channels never have more power, and at the width of the whole cube the result is the power spectrum of the averaged image. A cube with a single channel, row or column is treated as a cube by VCA, VCS and SCF.", "quantifier": "all cubes with or without missing values, widths as integers and quantities, shapes including axes of length one", "why_tests_cant": "The tests use one cube and a width of two channels and check the shape and the mean of the regridded cube; no test has an axis of length one.", "anchors": ["turbustat/statistics/vca_vcs/vca.py:VCA.__init__", "turbustat/statistics/vca_vcs/vca.py:VCA.compute_pspec", "turbustat/statistics/vca_vcs/vcs.py:VCS.compute_pspec", "turbustat/statistics/scf/scf.py:SCF.compute_surface", "turbustat/statistics/base_statistic.py:BaseStatisticMixIn.data", "turbustat/statistics/vca_vcs/slice_thickness.py:spectral_regrid_cube"]}
{"id": "C106", "title": "Beam correction gives the spectrum before the beam was applied", "statement": "For data that are the periodic convolution of an image (or of each channel of a cube) with the beam, compute_pspec(beam_correct=True) of PowerSpectrum and VCA gives the spectrum of the unconvolved data at every frequency where the beam has a response, and a missing value at the others; for MVC the same holds of the maps without the beam. A beam of one pixel changes nothing. Without a beam the option raises AttributeError; without the option the beam has no effect.", "quantifier": "all images and cubes, all beams of the shape of the image, all frequencies", "why_tests_cant": "The tests convolve one power-law field with one round Gaussian beam and check the fitted slope to two per cent (for MVC with constant intensity and linewidth); whether every frequency is restored for every image and beam, and where the beam has no response, is not seen in a slope.", "anchors": ["turbustat/statistics/base_pspec2.py:StatisticBase_PSpec2D.compute_beam_pspec", "turbustat/statistics/pspec_bispec/pspec.py:PowerSpectrum.compute_pspec", "turbustat/statistics/vca_vcs/vca.py:VCA.compute_pspec", "turbustat/statistics/mvc/mvc.py:MVC.compute_pspec"]}
{"id": "C107", "title": "The Cramer distance of two cubes uses the brightest fifth of each channel, and nothing else of it", "statement": "Cramer_Distance(cube1, cube2).distance_metric() does not depend on where in its channel a pixel lies, on the brightness unit of either cube (with its noise value), or on anything fainter than the brightest fifth of each channel. For maps of the same number of pixels it does not depend on the order of the channels. With normalize=False cubes of different intensity range are to be told apart. Drawing does not change the distance; the pictures show the two matrices with common colour limits.", "quantifier": "all pairs of cubes of all sizes and noise values, all rearrangements of pixels and channels, all units, all random draws", "why_tests_cant": "The tests compare one pair of cubes with a stored distance and exchange one pair of cubes of different sizes; a dependence on the position of a pixel, on faint pixels or on the channel order, and an option that has no effect, cannot be seen in them.", "anchors": ["turbustat/statistics/cramer/cramer.py:Cramer_Distance.format_data", "turbustat/statistics/cramer/cramer.py:Cramer_Distance.distance_metric", "turbustat/statistics/threeD_to_twoD.py:intensity_data", "turbustat/statistics/threeD_to_twoD.py:_format_data"]}
{"id": "C108", "title": "The power-spectrum fits of a generated field give back the index, axis ratio and angle", "statement": "A field made by make_extended(imsize, powerlaw, theta, ellip) with an even imsize and analysed by PowerSpectrum(img).run(fit_2D=True), or a cube of such fields analysed by VCA, has slope2D = -powerlaw, ellip2D = ellip and theta2D = theta modulo pi, whatever phases were drawn. For an isotropic field the fit with fix_ellip_params=True, and the 1D fit with fit_unbinned=True, give -powerlaw. The run returns a result for every image with positive powers.", "quantifier": "all even sizes of at least 16, all indices up to 20, all axis ratios and angles, all draws of the phases, all binnings", "why_tests_cant": "test_pspec_fit2D checks one size, one index and one axis ratio at four angles, within 0.08 rad and 2 per cent; the isotropic tests check a few indices of one size within 2 per cent. A bias that depends on the draw, the size or the axis ratio within those tolerances, and exactness itself, cannot be settled by them.", "anchors": ["turbustat/simulator/gen_field.py:make_extended", "turbustat/statistics/pspec_bispec/pspec.py:PowerSpectrum.run", "turbustat/statistics/vca_vcs/vca.py:VCA.run", "turbustat/statistics/base_pspec2.py:StatisticBase_PSpec2D.fit_2Dpspec", "turbustat/statistics/base_pspec2.py:StatisticBase_PSpec2D.fit_pspec"]}
{"id": "C109", "title": "A result can be read from the step that makes it, and not before", "statement": "For every statistic and every history of calls on an object: before a step that makes a result (a slope, a spectrum, a histogram, ...) was called, reading it raises an error; once a step that makes it has completed, it can be read for good, whatever is called later and however those calls end, and it is a computed value, not None. The steps in their documented order, and run, find every attribute they need. Reading a result and plotting leave the object as it was. The constructor finds every attribute it needs.", "quantifier": "all 14 statistic classes, all finite sequences of method calls in any order with any arguments, each ending normally or by an exception at any statement", "why_tests_cant": "The tests call run(), or the steps in the documented order, and read the results afterwards; some then repeat the fit once with other options. None reads a result before its step or goes on after a step failed, and the number of histories is unbounded.", "anchors": ["turbustat/statistics/base_pspec2.py:StatisticBase_PSpec2D", "turbustat/statistics/pspec_bispec/pspec.py:PowerSpectrum", "turbustat/statistics/vca_vcs/vca.py:VCA", "turbustat/statistics/vca_vcs/vcs.py:VCS", "turbustat/statistics/mvc/mvc.py:MVC", "turbustat/statistics/wavelets/wavelet_transform.py:Wavelet", "turbustat/statistics/delta_variance/delta_variance.py:DeltaVariance", "turbustat/statistics/scf/scf.py:SCF", "turbustat/statistics/pca/pca.py:PCA", "turbustat/statistics/pdf/compare_pdf.py:PDF", "turbustat/statistics/tsallis/tsallis.py:Tsallis", "turbustat/statistics/stat_moments/highstatmoments.py:StatMoments", "turbustat/statistics/genus/genus.py:Genus", "turbustat/statistics/dendrograms/dendro_stats.py:Dendrogram_Stats", "turbustat/statistics/pspec_bispec/bispec.py:Bispectrum"]}
{"id": "C110", "title": "Bootstrapped errors are the spread of the fit over resamplings", "statement": "With bootstrap=True the error reported for a fitted parameter is the standard deviation of that parameter over fits of the same kind to the fitted curve plus resampled residuals. Data that lie exactly on the model have zero errors; multiplying the data by c and adding any curve of the model multiplies the errors by |c|; a common factor of the weights, which does not change the fit, does not change the errors. With a break, the errors are those of the reported slopes.", "quantifier": "all designs with independent columns, data, positive weights, numbers of resamplings and random draws; the line fits and the fits with a break", "why_tests_cant": "The tests call the fits with bootstrap=True and do not look at the errors. The claim is about every data set, weighting and draw.", "anchors": ["turbustat/statistics/fitting_utils.py:residual_bootstrap", "turbustat/statistics/base_pspec2.py:StatisticBase_PSpec2D.fit_pspec", "turbustat/statistics/scf/scf.py:SCF.fit_plaw", "turbustat/statistics/delta_variance/delta_variance.py:DeltaVariance.fit_plaw", "turbustat/statistics/wavelets/wavelet_transform.py:Wavelet.fit_transform", "turbustat/statistics/vca_vcs/vcs.py:VCS.fit_pspec"]}
{"id": "C111", "title": "A statistic computed beforehand that a distance class accepts has what the distance reads", "statement": "A distance class can be given an object of its statistic instead of a data set. It keeps an object that has been computed and runs one that has not. Whatever the user called on the object before, once the distance class is constructed distance_metric finds every result it reads from the object, and these results are computed values; with verbose=True so does the plot.", "quantifier": "all histories of calls on the object: any methods, order and arguments, all completing or (stronger form) any of them failing at any point; the eleven distance classes that take objects", "why_tests_cant": "The tests give objects on which nothing was called, or which another distance object has run. The claim is about every history of calls before the object is handed over.", "anchors": ["turbustat/statistics/pspec_bispec/pspec.py:PSpec_Distance", "turbustat/statistics/vca_vcs/vca.py:VCA_Distance", "turbustat/statistics/mvc/mvc.py:MVC_Distance", "turbustat/statistics/vca_vcs/vcs.py:VCS_Distance", "turbustat/statistics/wavelets/wavelet_transform.py:Wavelet_Distance", "turbustat/statistics/delta_variance/delta_variance.py:DeltaVariance_Distance", "turbustat/statistics/scf/scf.py:SCF_Distance", "turbustat/statistics/pca/pca.py:PCA_Distance", "turbustat/statistics/stat_moments/highstatmoments.py:StatMoments_Distance", "turbustat/statistics/dendrograms/dendro_stats.py:Dendrogram_Distance", "turbustat/statistics/pspec_bispec/bispec.py:Bispectrum_Distance"]}
{"id": "C112", "title": "Delta-variance with interpolation over missing pixels", "statement": "With nan_treatment='interpolate' the delta-variance of a map with missing pixels follows the changes of the map as without missing pixels: it is the same for mirror images, right-angle turns and (boundary='wrap') cyclic shifts, it is multiplied by c^2 when the map is multiplied by c, and adding a constant to the map changes nothing; a map without missing pixels has, with boundary='wrap', the same delta-variance with both choices of nan_treatment.", "quantifier": "all map shapes and values, all patterns of missing pixels, all weights, all lags of at least one pixel, both boundaries, preserve_nan on and off, all cut-off fractions", "why_tests_cant": "The tests with nan_treatment='interpolate' compare one moment map and its weights with stored values. The claim is about pairs of maps, for every pattern of missing pixels.", "anchors": ["turbustat/statistics/delta_variance/delta_variance.py:DeltaVariance.compute_deltavar", "turbustat/statistics/convolve_wrapper.py:convolution_wrapper", "turbustat/statistics/delta_variance/kernels.py:core_kernel", "turbustat/statistics/delta_variance/kernels.py:annulus_kernel"]}
{"id": "C113", "title": "Random draws: what is repeatable, and numpy's global generator", "statement": "Results that rest on random draws are repeatable: bootstrapped errors of line and broken-line fits, the bispectrum, generated fields, the Cramer distance of cubes of different sizes, and the bootstrapped errors of elliptical fits depend on the arguments (with the seed) only, not on what was called before. None of these calls disturbs the user's own use of numpy's global generator: leaving them out of a program changes none of its other draws.", "quantifier": "all generators and all their states, all programs (sequences of such calls and of the user's own seeding and drawing, including calls that raise), all seeds, all data", "why_tests_cant": "Stored values test each routine in one fixed order of calls; no test looks at the generator afterwards, and no bootstrapped error is compared with anything. Independence of the history is a statement about all sequences of calls.", "anchors": ["turbustat/statistics/fitting_utils.py:residual_bootstrap", "turbustat/statistics/pspec_bispec/bispec.py:Bispectrum.compute_bispectrum", "turbustat/simulator/gen_field.py:make_extended", "turbustat/simulator/gen_field.py:make_3dfield", "turbustat/statistics/cramer/cramer.py:Cramer_Distance.format_data", "turbustat/statistics/elliptical_powerlaw.py:fit_elliptical_powerlaw", "turbustat/statistics/stats_utils.py:EllipseModel.estimate_stderrs"]}
{"id": "C114", "title": "The standard deviations of the one-dimensional spectrum and the weighted fit", "statement": "The standard deviation returned with every bin of the one-dimensional power spectrum is that of the powers in the bin, raised to the standard error of Student's t where there are few, and missing where there are fewer than two; it is zero only for bins of equal powers. With bootstrapping it is an estimate of the same quantity. Multiplying the image by a constant multiplies them by its square, changes no weight of a weighted fit, leaves the slope alone and moves the intercept by twice its logarithm. A weighted fit gives every bin the weight its standard deviation calls for.", "quantifier": "all images and two-dimensional spectra with any missing pixels, all numbers and spacings of bins, azimuthal limits, numbers of bootstrap iterations and all draws, all quantile functions, fit limits and factors", "why_tests_cant": "No test looks at the standard deviations or passes boot_iter; weighted_fit is False in every test of power spectra, VCA and MVC. A stored value for one image could not show what happens to other bins, factors or draws.", "anchors": ["turbustat/statistics/psds.py:pspec", "turbustat/statistics/base_pspec2.py:StatisticBase_PSpec2D.compute_radial_pspec", "turbustat/statistics/base_pspec2.py:StatisticBase_PSpec2D.fit_pspec", "turbustat/statistics/pspec_bispec/pspec.py:PowerSpectrum.run"]}
{"id": "C115", "title": "The one-dimensional power spectrum does not depend on the orientation of the image, and azimuthal limits turn with it", "statement": "Turning an image by a right angle, mirroring it or exchanging its rows and columns changes neither the bins of its one-dimensional power spectrum nor their powers, counts and standard deviations, nor the fitted slope and intercept, with or without an apodizing window; the same holds for the VCA spectrum of a cube and the MVC spectrum of its moment maps. With azimuthal limits the same is true when theta_0 is turned or mirrored with the image, and limits about the direction found by the two-dimensional fit use the modes along the axis of highest fitted power.", "quantifier": "all images and cubes of all sizes, all windows, bins, fit limits and azimuthal limits, any sequence of turns and mirrorings", "why_tests_cant": "One test compares the slope of one image with that of its transpose (to seven digits) without window or limits; others use limits about 0 and 90 degrees of 128-pixel images whose slope is the same in all directions, so that which modes are used cannot be seen. Whether every other mode lands in the same bin can only be seen for all sizes, even and odd, together.", "anchors": ["turbustat/statistics/psds.py:pspec", "turbustat/statistics/psds.py:make_radial_arrays", "turbustat/statistics/psds.py:make_radial_freq_arrays", "turbustat/statistics/pspec_bispec/pspec.py:PowerSpectrum.run", "turbustat/statistics/vca_vcs/vca.py:VCA.compute_pspec", "turbustat/statistics/base_pspec2.py:StatisticBase_PSpec2D.fit_pspec", "turbustat/statistics/base_pspec2.py:StatisticBase_PSpec2D.fit_2Dpspec", "turbustat/statistics/apodizing_kernels.py"]}
{"id": "C116", "title": "The figure of a distance shows what was compared", "statement": "With verbose=True the figure of a distance has a panel or curve for each dataset, under its label or in its colour, and the distance can be read from it: it is the stated function of the numbers drawn (bispectrum, genus, dendrograms, PCA, higher moments, SCF, PDF). Axes say what is drawn, the two datasets share abscissae and colour scales, and the names under which two figures are saved differ and keep the format asked for.", "quantifier": "all datasets and options for which the distance exists, all labels, colours, colour maps and file names", "why_tests_cant": "One test per distance draws one figure of one pair of datasets with default arguments and the name test.png and checks that it is closed; nothing looks at what was drawn, and that the numbers in the figure give the distance is a statement about all datasets.", "anchors": ["turbustat/statistics/pspec_bispec/bispec.py:Bispectrum_Distance.distance_metric", "turbustat/statistics/genus/genus.py:Genus_Distance.distance_metric", "turbustat/statistics/dendrograms/dendro_stats.py:Dendrogram_Distance.distance_metric", "turbustat/statistics/pca/pca.py:PCA_Distance.distance_metric", "turbustat/statistics/stat_moments/highstatmoments.py:StatMoments_Distance.distance_metric", "turbustat/statistics/scf/scf.py:SCF_Distance.distance_metric", "turbustat/statistics/pdf/compare_pdf.py:PDF_Distance.distance_metric"]}
{"id": "C117", "title": "The library of the Fourier transforms does not change a result, and its options reach it", "statement": "use_pyfftw, threads and pyfftw_kwargs do not change the result of PowerSpectrum, VCA, VCS, MVC or Bispectrum as long as pyfftw computes the transform under those options; the library is pyfftw exactly when it is asked for and installed; when it is asked for and missing the statistic warns and uses numpy. The number of threads and the other options are passed to the library. An old class name gives what the new one gives and warns, and only an old name warns.", "quantifier": "all images and cubes, apodizing windows, settings of the three options, and with or without pyfftw installed", "why_tests_cant": "The pyfftw tests compare one dataset with threads=1 and no option, and are skipped without pyfftw; none counts threads or warnings, none passes options. That nothing passed to threads can reach the library is a statement about all settings.", "anchors": ["turbustat/statistics/rfft_to_fft.py:rfft_to_fft", "turbustat/statistics/pspec_bispec/pspec.py:PowerSpectrum.compute_pspec", "turbustat/statistics/vca_vcs/vca.py:VCA.compute_pspec", "turbustat/statistics/vca_vcs/vcs.py:VCS.compute_pspec", "turbustat/statistics/mvc/mvc.py:MVC.compute_pspec", "turbustat/statistics/pspec_bispec/bispec.py:Bispectrum.compute_bispectrum", "turbustat/statistics/convolve_wrapper.py:convolution_wrapper", "turbustat/statistics/wavelets/wavelet_transform.py:Wavelet.compute_transform", "turbustat/statistics/pspec_bispec/bispec.py:BiSpectrum", "turbustat/statistics/pspec_bispec/bispec.py:Bispectrum_Distance", "turbustat/statistics/genus/genus.py:GenusDistance", "turbustat/statistics/dendrograms/dendro_stats.py:DendroDistance"]}
{"id": "C118", "title": "SCF, Tsallis, moment, genus and PCA results do not depend on the position or orientation of the map or cube", "statement": "Mirroring an image or cube, exchanging its two spatial axes or turning it by a quarter turn, and on a periodic image also shifting it around the boundary, does not change the Tsallis distributions, the genus curves or the covariance matrix and eigenvalues of PCA; the moment maps and the SCF surface are mirrored, turned or shifted with it, and the SCF spectrum without azimuthal limits and the moment, genus and SCF distances are unchanged, each of the two datasets being moved in its own way.", "quantifier": "all images and cubes including missing values, sequences of mirrorings, axis exchanges and periodic shifts, lags, radii, thresholds, connectivities and both SCF boundaries", "why_tests_cant": "The tests of these five statistics compare with stored values for one orientation of two fixed datasets; none mirrors, turns or shifts its input. The claim compares two runs for every image and every sequence of moves.", "anchors": ["turbustat/statistics/scf/scf.py:SCF.compute_surface", "turbustat/statistics/scf/scf.py:SCF.compute_spectrum", "turbustat/statistics/scf/scf.py:SCF_Distance.distance_metric", "turbustat/statistics/tsallis/tsallis.py:Tsallis.make_tsallis", "turbustat/statistics/stat_moments/highstats.py:StatMoments.compute_spatial_distrib", "turbustat/statistics/stat_moments/highstats.py:StatMoments_Distance", "turbustat/statistics/genus/genus.py:Genus.make_genus_curve", "turbustat/statistics/genus/genus.py:Genus_Distance", "turbustat/statistics/pca/pca.py:var_cov_cube", "turbustat/statistics/pca/pca.py:PCA.compute_pca"]}
{"id": "C119", "title": "Results do not depend on the direction of the spectral axis", "statement": "A cube and the same cube with its spectral axis reversed (data and header) give the same SCF surface and spectrum, VCA and VCS power spectra, PCA eigenvalues and spectral widths, the same conversions between channels and spectral units and the same channel widths; the SCF, VCA and PCA eigenvalues do not depend on the order of the channels at all.", "quantifier": "all cubes including missing values, rearrangements of the channels (SCF, VCA, PCA), lags, boundaries, windows, widths and units", "why_tests_cant": "The tests of SCF, VCA, VCS and PCA compare with stored values or fits for cubes whose axis points one way; none reverses or reorders the channels. The claim compares two runs for every cube.", "anchors": ["turbustat/statistics/scf/scf.py:SCF.compute_surface", "turbustat/statistics/scf/scf.py:SCF.compute_spectrum", "turbustat/statistics/vca_vcs/vca.py:VCA.compute_pspec", "turbustat/statistics/vca_vcs/vcs.py:VCS.compute_pspec", "turbustat/statistics/vca_vcs/slice_thickness.py:spectral_regrid_cube", "turbustat/statistics/pca/pca.py:PCA.compute_pca", "turbustat/statistics/pca/pca.py:PCA.find_spectral_widths", "turbustat/statistics/threeD_to_twoD.py:var_cov_cube", "turbustat/statistics/base_statistic.py:BaseStatisticMixIn._to_spectral"]}
{"id": "C120", "title": "At lags of a fraction of a pixel the SCF surface keeps the symmetries it has at whole lags", "statement": "For lags of any length, whole pixels or not, given symmetrically or not, the SCF surface of a mirrored cube is the mirrored surface, that of a cube with its sky axes exchanged is the transposed surface, a periodic shift of the cube changes nothing, and the value at the opposite lag is the same.", "quantifier": "all cubes, with or without missing voxels, all lists of real lags in pixels and both boundaries", "why_tests_cant": "test_SCF_noninteger_shift and test_SCF_nonpixelunit_shift run one cube at one list of lags and compare with nothing, or with the same lags in other units. The claim compares pairs of runs for all cubes and lags.", "anchors": ["turbustat/statistics/scf/scf.py:SCF.compute_surface", "turbustat/statistics/stats_utils.py:fourier_shift", "turbustat/statistics/stats_utils.py:pixel_shift"]}
{"id": "C121", "title": "The zero level of the data does not matter: a background, the levels of the channels, a continuum, the velocity frame", "statement": "A constant added to an image changes its two-dimensional power spectrum at the zero frequency only, and so neither the one-dimensional spectrum with its standard deviations nor the fitted slopes. The same holds for VCA when another constant is added to each channel, and for VCS when another flat continuum is added to the spectrum of each pixel. The bispectrum with the mean subtracted does not change, and the MVC spectrum does not depend on the velocity frame.", "quantifier": "all images and cubes, all levels, all bins above the zero frequency, all fit limits, all azimuthal limits and all resampling draws", "why_tests_cant": "The tests run each statistic on one data set and compare with stored values, or with the same run in other units; the bispectrum with the mean subtracted is compared with one stored table. The claim compares pairs of runs for all data and all levels.", "anchors": ["turbustat/statistics/base_pspec2.py:StatisticBase_PSpec2D.compute_radial_pspec", "turbustat/statistics/base_pspec2.py:StatisticBase_PSpec2D.fit_pspec", "turbustat/statistics/psds.py:pspec", "turbustat/statistics/vca_vcs/vca.py:VCA.compute_pspec", "turbustat/statistics/vca_vcs/vcs.py:VCS.compute_pspec", "turbustat/statistics/pspec_bispec/bispec.py:Bispectrum.compute_bispectrum", "turbustat/statistics/mvc/mvc.py:MVC.compute_pspec"]}
{"id": "C122", "title": "Blank rows and columns around a map or cube do not change its results", "statement": "When rows and columns of missing pixels are put around an image or cube, the statistics stay the same: the PDF object and the PDF distance, the genus curves, the moments at the pixels of the image and their distributions, the Tsallis distributions, the delta-variance and wavelet values, the shape of the VCS spectrum, the power of the spatial spectra at the same frequency, the covariances used by PCA, the SCF surface and the data compared by the Cramer statistic.", "quantifier": "all images, weights and cubes with missing values anywhere, all widths of the frame on the four sides, all thresholds, bins, lags and radii", "why_tests_cant": "The tests run each statistic on given data, and none puts blank rows or columns around its data. The claim compares pairs of runs for all data and all frames.", "anchors": ["turbustat/statistics/pdf/compare_pdf.py:PDF.__init__", "turbustat/statistics/genus/genus.py:Genus.make_genus_curve", "turbustat/statistics/stat_moments/highstatmoments.py:StatMoments.compute_spatial_distrib", "turbustat/statistics/tsallis/tsallis.py:Tsallis.make_tsallis", "turbustat/statistics/delta_variance/delta_variance.py:DeltaVariance.compute_deltavar", "turbustat/statistics/wavelets/wavelet_transform.py:Wavelet.compute_transform", "turbustat/statistics/vca_vcs/vcs.py:VCS.compute_pspec", "turbustat/statistics/pspec_bispec/pspec.py:PowerSpectrum.compute_pspec", "turbustat/statistics/vca_vcs/vca.py:VCA.compute_pspec", "turbustat/statistics/threeD_to_twoD.py:var_cov_cube", "turbustat/statistics/threeD_to_twoD.py:intensity_data", "turbustat/statistics/scf/scf.py:SCF.compute_surface"]}
{"id": "C123", "title": "Blank channels at the ends of a cube do not change its results", "statement": "When missing channels are added before the first and after the last channel of a cube, the statistics of the cube stay the same: the SCF surface and spectrum, the VCA spectrum up to its level, the VCS spectrum at the frequencies of the cube, the covariances, eigenvalues and total variance of PCA, and the Cramer distance.", "quantifier": "all cubes with missing voxels anywhere, all numbers of blank channels at either end, all lags and boundaries of SCF, all options of the SCF spectrum, all fractions and noise limits of the Cramer data", "why_tests_cant": "None of the tests of SCF, VCA, VCS, PCA and Cramer adds blank channels to its cube. The claim compares pairs of runs for all cubes and all numbers of blank channels.", "anchors": ["turbustat/statistics/scf/scf.py:SCF.compute_surface", "turbustat/statistics/scf/scf.py:SCF.compute_spectrum", "turbustat/statistics/vca_vcs/vca.py:VCA.compute_pspec", "turbustat/statistics/vca_vcs/vcs.py:VCS.compute_pspec", "turbustat/statistics/threeD_to_twoD.py:var_cov_cube", "turbustat/statistics/threeD_to_twoD.py:intensity_data", "turbustat/statistics/cramer/cramer.py:Cramer_Distance.cramer_statistic"]}
{"id": "C124", "title": "A periodic map or cube shown over several periods gives the results of one period", "statement": "When a map or cube is repeated a whole number of times along each sky axis, the statistics that treat it as periodic stay the same: the SCF surface with the continuous boundary, the covariances of PCA, the PDF and cumulative distribution, the moment maps, their histograms and the Tsallis distributions with periodic boundaries, and the wavelet transform and delta-variance with wrapped boundaries when the kernels fit into one period. The power spectra of the map, of VCA and of MVC are those of one period times the square of the number of periods at its frequencies, and zero at all others. The VCS spectrum is that of one period times the number of periods.", "quantifier": "all maps and cubes with missing values anywhere, all positive numbers of repeats along both axes, all PDF bins, limits and normalisations, all SCF lags, whole or not, all scales and lags whose kernels fit into one period, all weights", "why_tests_cant": "None of the tests of SCF, PCA, the PDF, the moment maps, Tsallis, the wavelet transform, delta-variance, the power spectrum, VCA, VCS and MVC repeats its data. The claim compares pairs of runs for all maps and all numbers of repeats.", "anchors": ["turbustat/statistics/scf/scf.py:SCF.compute_surface", "turbustat/statistics/threeD_to_twoD.py:var_cov_cube", "turbustat/statistics/pdf/compare_pdf.py:PDF.make_pdf", "turbustat/statistics/pdf/compare_pdf.py:PDF.make_ecdf", "turbustat/statistics/pdf/compare_pdf.py:PDF.find_percentile", "turbustat/statistics/pdf/compare_pdf.py:PDF.find_at_percentile", "turbustat/statistics/stat_moments/highstatmoments.py:StatMoments.compute_spatial_distrib", "turbustat/statistics/tsallis/tsallis.py:Tsallis.make_tsallis", "turbustat/statistics/wavelets/wavelet_transform.py:Wavelet.compute_transform", "turbustat/statistics/delta_variance/delta_variance.py:DeltaVariance.compute_deltavar", "turbustat/statistics/pspec_bispec/pspec.py:PowerSpectrum.compute_pspec", "turbustat/statistics/mvc/mvc.py:MVC.compute_pspec", "turbustat/statistics/vca_vcs/vca.py:VCA.compute_pspec", "turbustat/statistics/vca_vcs/vcs.py:VCS.compute_pspec"]}
