import Verif.Model.Lifecycle

/-!
# Which attributes each method reads and stores: `Wavelet`, `DeltaVariance`, `SCF`, `PCA`

Every method of these classes as a `Life.Cmd`, statement by statement; the number
in front of a statement is its line in the cited file.  Simplifications: a
property that only returns an attribute is replaced by the attribute; the unit
conversions and `save_results` of the base class are `may`; consecutive statements
that touch no attribute are one `may`; repeated reads of the same attribute with
no store in between are one read.
-/

namespace TS
namespace Life

namespace Wavelet

/-! Attributes of `Wavelet` (turbustat/statistics/wavelets/wavelet_transform.py:32). -/

@[reducible] def A._data : ℕ := 0
@[reducible] def A._distance : ℕ := 1
@[reducible] def A._scales : ℕ := 2
@[reducible] def A._Wf : ℕ := 3
@[reducible] def A._values : ℕ := 4
@[reducible] def A._stddev : ℕ := 5
@[reducible] def A._fit_range : ℕ := 6
@[reducible] def A.fit : ℕ := 7
@[reducible] def A._brk : ℕ := 8
@[reducible] def A._slope : ℕ := 9
@[reducible] def A._slope_err : ℕ := 10
@[reducible] def A._brk_err : ℕ := 11
@[reducible] def A._model : ℕ := 12
@[reducible] def A._bootstrap_flag : ℕ := 13
@[reducible] def A._header : ℕ := 14
@[reducible] def A._beam : ℕ := 15

/-! Methods and properties. -/

@[reducible] def M.scales : ℕ := 0
@[reducible] def M.scales__set : ℕ := 1
@[reducible] def M.compute_transform : ℕ := 2
@[reducible] def M.Wf : ℕ := 3
@[reducible] def M.values : ℕ := 4
@[reducible] def M.stddev : ℕ := 5
@[reducible] def M.fit_transform : ℕ := 6
@[reducible] def M.slope : ℕ := 7
@[reducible] def M.slope_err : ℕ := 8
@[reducible] def M.brk : ℕ := 9
@[reducible] def M.brk_err : ℕ := 10
@[reducible] def M.fit_range : ℕ := 11
@[reducible] def M.fitted_model : ℕ := 12
@[reducible] def M.plot_transform : ℕ := 13
@[reducible] def M.run : ℕ := 14
@[reducible] def M.load_beam : ℕ := 15
@[reducible] def M.input_data_header : ℕ := 16

/-! Facts about arguments that the methods test (`x_is_None`: `x is None`). -/

@[reducible] def O.distance_is_None : ℕ := 0
@[reducible] def O.scales_is_None : ℕ := 1
@[reducible] def O.keep_convolved_arrays : ℕ := 2
@[reducible] def O.weighted_fit : ℕ := 3
@[reducible] def O.xlow_is_None : ℕ := 4
@[reducible] def O.xhigh_is_None : ℕ := 5
@[reducible] def O.bootstrap : ℕ := 6
@[reducible] def O.brk_is_None : ℕ := 7
@[reducible] def O.show_residual : ℕ := 8
@[reducible] def O.verbose : ℕ := 9

/-- turbustat/statistics/wavelets/wavelet_transform.py:52-73 -/
def body.init : Cmd :=
  block [
  /- 55 -/ .may, .call M.input_data_header, .may,
  /- 59 -/ .get A._data, .may,
  /- 60 -/ .br (block [
    /- 61 -/ .get A._data, .may, .put A._data,
    /- 62 -/ .get A._data, .may]) (.skip),
  /- 64 -/ .opt O.distance_is_None (.skip) (block [
    /- 65 -/ .opt O.distance_is_None (block [
      /- 65 -/ .may, .put A._distance]) (block [
      /- 65 -/ .may, .put A._distance])]),
  /- 67 -/ .opt O.scales_is_None (block [
    /- 68 -/ .may,
    /- 69 -/ .get A._data, .may]) (.skip),
  /- 73 -/ .call M.scales__set]

/-- turbustat/statistics/wavelets/wavelet_transform.py:76-80 -/
def body.scales : Cmd :=
  block [
  /- 80 -/ .get A._scales, .ret]

/-- turbustat/statistics/wavelets/wavelet_transform.py:83-110 -/
def body.scales__set : Cmd :=
  block [
  /- 85 -/ .may, .br (.skip) (.raise),
  /- 90 -/ .tryC (.may) (.raise),
  /- 96 -/ .may, .br (.raise) (.skip),
  /- 103 -/ .get A._data, .may,
  /- 105 -/ .br (.raise) (.skip),
  /- 110 -/ .put A._scales]

/-- turbustat/statistics/wavelets/wavelet_transform.py:112-198 -/
def body.compute_transform : Cmd :=
  block [
  /- 139 -/ .may,
  /- 151 -/ .get A._data, .may,
  /- 152 -/ .get A._scales, .may,
  /- 154 -/ .opt O.keep_convolved_arrays (block [
    /- 155 -/ .may, .put A._Wf]) (.putNone A._Wf),
  /- 159 -/ .get A._scales, .may, .put A._values,
  /- 160 -/ .get A._scales, .may, .put A._stddev,
  /- 163 -/ .may,
  /- 169 -/ .get A._scales, .may,
  /- 174 -/ .loop (block [
    /- 175 -/ .may,
    /- 177 -/ .get A._data, .may,
    /- 185 -/ .opt O.keep_convolved_arrays (block [
      /- 186 -/ .get A._Wf, .may]) (.skip),
    /- 188 -/ .may, .get A._values, .may,
    /- 195 -/ .get A._stddev, .may])]

/-- turbustat/statistics/wavelets/wavelet_transform.py:201-210 -/
def body.Wf : Cmd :=
  block [
  /- 206 -/ .ifNone A._Wf (.may) (.skip),
  /- 210 -/ .get A._Wf, .ret]

/-- turbustat/statistics/wavelets/wavelet_transform.py:213-217 -/
def body.values : Cmd :=
  block [
  /- 217 -/ .get A._values, .ret]

/-- turbustat/statistics/wavelets/wavelet_transform.py:220-224 -/
def body.stddev : Cmd :=
  block [
  /- 224 -/ .get A._stddev, .ret]

/-- turbustat/statistics/wavelets/wavelet_transform.py:226-376 -/
def body.fit_transform : Cmd :=
  block [
  /- 255 -/ .may, .get A._scales, .may,
  /- 257 -/ .get A._values, .may,
  /- 259 -/ .opt O.weighted_fit (block [
    /- 260 -/ .get A._stddev, .get A._values, .may]) (.skip),
  /- 267 -/ .opt O.xlow_is_None (block [
    /- 272 -/ .get A._values, .may]) (.may),
  /- 276 -/ .opt O.xhigh_is_None (block [
    /- 281 -/ .get A._values, .may]) (.may),
  /- 285 -/ .put A._fit_range,
  /- 287 -/ .may,
  /- 295 -/ .opt O.brk_is_None (.putNone A._brk) (block [
    /- 298 -/ .may,
    /- 300 -/ .br (.raise) (.skip),
    /- 303 -/ .may,
    /- 309 -/ .put A.fit,
    /- 311 -/ .may,
    /- 311 -/ .br (block [
      /- 314 -/ .may,
      /- 314 -/ .br (block [
        /- 315 -/ .may,
        /- 318 -/ .putNone A._brk]) (block [
        /- 320 -/ .may,
        /- 324 -/ .put A._brk,
        /- 326 -/ .may, .put A._slope,
        /- 328 -/ .opt O.bootstrap (block [
          /- 329 -/ .may,
          /- 332 -/ .put A._slope_err,
          /- 333 -/ .get A._brk, .may, .put A._brk_err]) (block [
          /- 337 -/ .may, .put A._slope_err,
          /- 338 -/ .get A._brk, .may, .put A._brk_err]),
        /- 341 -/ .may, .put A.fit])]) (block [
      /- 344 -/ .putNone A._brk,
      /- 346 -/ .may])]),
  /- 353 -/ .ifNone A._brk (block [
    /- 355 -/ .may,
    /- 362 -/ .put A.fit,
    /- 364 -/ .get A.fit, .may, .put A._slope,
    /- 366 -/ .opt O.bootstrap (block [
      /- 367 -/ .get A.fit, .may,
      /- 369 -/ .put A._slope_err]) (block [
      /- 372 -/ .get A.fit, .may, .put A._slope_err])]) (.skip),
  /- 374 -/ .put A._model,
  /- 376 -/ .put A._bootstrap_flag]

/-- turbustat/statistics/wavelets/wavelet_transform.py:379-383 -/
def body.slope : Cmd :=
  block [
  /- 383 -/ .get A._slope, .ret]

/-- turbustat/statistics/wavelets/wavelet_transform.py:386-390 -/
def body.slope_err : Cmd :=
  block [
  /- 390 -/ .get A._slope_err, .ret]

/-- turbustat/statistics/wavelets/wavelet_transform.py:393-397 -/
def body.brk : Cmd :=
  block [
  /- 397 -/ .get A._brk, .ret]

/-- turbustat/statistics/wavelets/wavelet_transform.py:400-404 -/
def body.brk_err : Cmd :=
  block [
  /- 404 -/ .get A._brk_err, .ret]

/-- turbustat/statistics/wavelets/wavelet_transform.py:407-411 -/
def body.fit_range : Cmd :=
  block [
  /- 411 -/ .get A._fit_range, .ret]

/-- turbustat/statistics/wavelets/wavelet_transform.py:413-432 -/
def body.fitted_model : Cmd :=
  block [
  /- 429 -/ .get A._model, .may,
  /- 429 -/ .br (block [
    /- 430 -/ .get A._model, .may, .ret]) (block [
    /- 432 -/ .get A.fit, .may, .ret])]

/-- turbustat/statistics/wavelets/wavelet_transform.py:434-544 -/
def body.plot_transform : Cmd :=
  block [
  /- 458 -/ .may,
  /- 483 -/ .get A._scales, .may,
  /- 487 -/ .get A._values, .get A._stddev, .may,
  /- 497 -/ .get A._fit_range, .may,
  /- 502 -/ .call M.fitted_model, .may,
  /- 513 -/ .opt O.show_residual (block [
    /- 514 -/ .get A._values, .may, .call M.fitted_model, .may,
    /- 517 -/ .get A._stddev, .may]) (.may),
  /- 536 -/ .may]

/-- turbustat/statistics/wavelets/wavelet_transform.py:546-608 -/
def body.run : Cmd :=
  block [
  /- 591 -/ .may, .call M.compute_transform, .may,
  /- 596 -/ .call M.fit_transform, .may,
  /- 598 -/ .opt O.verbose (block [
    /- 599 -/ .get A.fit, .may,
    /- 601 -/ .get A._bootstrap_flag, .may,
    /- 605 -/ .call M.plot_transform, .may]) (.skip),
  /- 608 -/ .ret]

/-- turbustat/statistics/base_statistic.py:50-73 -/
def body.load_beam : Cmd :=
  .br (.ifHas A._header (block [/- 63 -/ .tryC (block [.may, .get A._header, .put A._beam]) .may]) .may) (block [/- 71 -/ .br .raise .skip, /- 73 -/ .put A._beam])

/-- turbustat/statistics/base_statistic.py:104-126 -/
def body.input_data_header : Cmd :=
  .br (block [/- 110 -/ .may, .put A._data, /- 112 -/ .may, .put A._header]) (block [/- 121 -/ .br .raise .skip, /- 125 -/ .may, .put A._data, .put A._header])

/-- The methods in the order of their numbers. -/
def methods : List Cmd := [
  body.scales,
  body.scales__set,
  body.compute_transform,
  body.Wf,
  body.values,
  body.stddev,
  body.fit_transform,
  body.slope,
  body.slope_err,
  body.brk,
  body.brk_err,
  body.fit_range,
  body.fitted_model,
  body.plot_transform,
  body.run,
  body.load_beam,
  body.input_data_header]

/-- turbustat/statistics/wavelets/wavelet_transform.py:32-608 -/
def cls : Cls := ⟨body.init, methods⟩

end Wavelet

namespace DeltaVariance

/-! Attributes of `DeltaVariance` (turbustat/statistics/delta_variance/delta_variance.py:23). -/

@[reducible] def A.diam_ratio : ℕ := 0
@[reducible] def A._data : ℕ := 1
@[reducible] def A._distance : ℕ := 2
@[reducible] def A._convolved_arrays : ℕ := 3
@[reducible] def A._convolved_weights : ℕ := 4
@[reducible] def A._lags : ℕ := 5
@[reducible] def A._weights : ℕ := 6
@[reducible] def A._delta_var : ℕ := 7
@[reducible] def A._delta_var_error : ℕ := 8
@[reducible] def A._convolve_arrays : ℕ := 9
@[reducible] def A._fit_range : ℕ := 10
@[reducible] def A.fit : ℕ := 11
@[reducible] def A._brk : ℕ := 12
@[reducible] def A._slope : ℕ := 13
@[reducible] def A._slope_err : ℕ := 14
@[reducible] def A._brk_err : ℕ := 15
@[reducible] def A._bootstrap_flag : ℕ := 16
@[reducible] def A._model : ℕ := 17
@[reducible] def A._header : ℕ := 18
@[reducible] def A._beam : ℕ := 19

/-! Methods and properties. -/

@[reducible] def M.lags : ℕ := 0
@[reducible] def M.lags__set : ℕ := 1
@[reducible] def M.weights : ℕ := 2
@[reducible] def M.weights__set : ℕ := 3
@[reducible] def M.compute_deltavar : ℕ := 4
@[reducible] def M.convolve_arrays : ℕ := 5
@[reducible] def M.convolve_weights : ℕ := 6
@[reducible] def M.delta_var : ℕ := 7
@[reducible] def M.delta_var_error : ℕ := 8
@[reducible] def M.fit_plaw : ℕ := 9
@[reducible] def M.brk : ℕ := 10
@[reducible] def M.brk_err : ℕ := 11
@[reducible] def M.slope : ℕ := 12
@[reducible] def M.slope_err : ℕ := 13
@[reducible] def M.fit_range : ℕ := 14
@[reducible] def M.fitted_model : ℕ := 15
@[reducible] def M.plot_fit : ℕ := 16
@[reducible] def M.run : ℕ := 17
@[reducible] def M.load_beam : ℕ := 18
@[reducible] def M.input_data_header : ℕ := 19

/-! Facts about arguments that the methods test (`x_is_None`: `x is None`). -/

@[reducible] def O.weights_is_None : ℕ := 0
@[reducible] def O.distance_is_None : ℕ := 1
@[reducible] def O.lags_is_None : ℕ := 2
@[reducible] def O.show_progress : ℕ := 3
@[reducible] def O.keep_convolve_arrays : ℕ := 4
@[reducible] def O.xlow_is_None : ℕ := 5
@[reducible] def O.xhigh_is_None : ℕ := 6
@[reducible] def O.bootstrap : ℕ := 7
@[reducible] def O.brk_is_None : ℕ := 8
@[reducible] def O.verbose : ℕ := 9
@[reducible] def O.show_residual : ℕ := 10

/-- turbustat/statistics/delta_variance/delta_variance.py:58-90 -/
def body.init : Cmd :=
  block [
  /- 60 -/ .may,
  /- 63 -/ .call M.input_data_header, .may,
  /- 65 -/ .put A.diam_ratio,
  /- 67 -/ .opt O.weights_is_None (block [
    /- 69 -/ .get A._data, .may, .call M.weights__set]) (block [
    /- 71 -/ .may, .call M.weights__set]),
  /- 73 -/ .opt O.distance_is_None (.skip) (block [
    /- 74 -/ .opt O.distance_is_None (block [
      /- 74 -/ .may, .put A._distance]) (block [
      /- 74 -/ .may, .put A._distance])]),
  /- 76 -/ .opt O.lags_is_None (block [
    /- 78 -/ .get A._data, .may, .call M.lags__set]) (block [
    /- 84 -/ .may,
    /- 84 -/ .br (block [
      /- 87 -/ .may, .call M.lags__set]) (block [
      /- 85 -/ .may, .call M.lags__set])]),
  /- 89 -/ .putNone A._convolved_arrays,
  /- 90 -/ .putNone A._convolved_weights]

/-- turbustat/statistics/delta_variance/delta_variance.py:93-97 -/
def body.lags : Cmd :=
  block [
  /- 97 -/ .get A._lags, .ret]

/-- turbustat/statistics/delta_variance/delta_variance.py:100-119 -/
def body.lags__set : Cmd :=
  block [
  /- 102 -/ .may, .br (.skip) (.raise),
  /- 105 -/ .may,
  /- 107 -/ .br (.raise) (.skip),
  /- 112 -/ .get A._data, .may,
  /- 114 -/ .br (.raise) (.skip),
  /- 119 -/ .put A._lags]

/-- turbustat/statistics/delta_variance/delta_variance.py:122-126 -/
def body.weights : Cmd :=
  block [
  /- 126 -/ .get A._weights, .ret]

/-- turbustat/statistics/delta_variance/delta_variance.py:129-135 -/
def body.weights__set : Cmd :=
  block [
  /- 131 -/ .get A._data, .may, .br (.raise) (.skip),
  /- 135 -/ .put A._weights]

/-- turbustat/statistics/delta_variance/delta_variance.py:137-263 -/
def body.compute_deltavar : Cmd :=
  block [
  /- 178 -/ .get A._lags, .may, .put A._delta_var,
  /- 179 -/ .get A._lags, .may, .put A._delta_var_error,
  /- 181 -/ .opt O.show_progress (block [
    /- 182 -/ .get A._lags, .may]) (.skip),
  /- 184 -/ .get A._lags, .may,
  /- 184 -/ .loop (block [
    /- 185 -/ .get A._data, .may,
    /- 186 -/ .get A.diam_ratio, .may,
    /- 189 -/ .br (block [
      /- 191 -/ .get A._weights, .may,
      /- 192 -/ .get A._data, .may]) (block [
      /- 193 -/ .may,
      /- 193 -/ .br (block [
        /- 195 -/ .get A._weights, .may,
        /- 196 -/ .get A._data, .may]) (.raise)]),
    /- 202 -/ .may,
    /- 238 -/ .get A._weights, .may,
    /- 249 -/ .opt O.keep_convolve_arrays (block [
      /- 250 -/ .get A._convolved_arrays, .may,
      /- 251 -/ .get A._convolved_weights, .may]) (.skip),
    /- 253 -/ .may,
    /- 255 -/ .br (block [
      /- 256 -/ .may, .get A._delta_var, .may,
      /- 257 -/ .get A._delta_var_error, .may]) (block [
      /- 259 -/ .get A._delta_var, .may,
      /- 260 -/ .get A._delta_var_error, .may]),
    /- 262 -/ .may])]

/-- turbustat/statistics/delta_variance/delta_variance.py:266-270 -/
def body.convolve_arrays : Cmd :=
  block [
  /- 267 -/ .get A._convolved_arrays, .may,
  /- 270 -/ .get A._convolve_arrays, .ret]

/-- turbustat/statistics/delta_variance/delta_variance.py:273-277 -/
def body.convolve_weights : Cmd :=
  block [
  /- 274 -/ .get A._convolved_weights, .may,
  /- 277 -/ .get A._convolve_arrays, .ret]

/-- turbustat/statistics/delta_variance/delta_variance.py:280-284 -/
def body.delta_var : Cmd :=
  block [
  /- 284 -/ .get A._delta_var, .ret]

/-- turbustat/statistics/delta_variance/delta_variance.py:287-291 -/
def body.delta_var_error : Cmd :=
  block [
  /- 291 -/ .get A._delta_var_error, .ret]

/-- turbustat/statistics/delta_variance/delta_variance.py:293-436 -/
def body.fit_plaw : Cmd :=
  block [
  /- 317 -/ .get A._lags, .may,
  /- 318 -/ .get A._delta_var, .may,
  /- 320 -/ .opt O.xlow_is_None (block [
    /- 325 -/ .get A._delta_var, .may,
    /- 327 -/ .get A._lags, .may]) (.may),
  /- 329 -/ .opt O.xhigh_is_None (block [
    /- 334 -/ .get A._delta_var, .may,
    /- 336 -/ .get A._lags, .may]) (.may),
  /- 338 -/ .put A._fit_range,
  /- 340 -/ .may,
  /- 345 -/ .get A._delta_var_error, .may,
  /- 349 -/ .opt O.brk_is_None (.putNone A._brk) (block [
    /- 352 -/ .may,
    /- 354 -/ .br (.raise) (.skip),
    /- 357 -/ .may,
    /- 364 -/ .put A.fit,
    /- 366 -/ .may,
    /- 366 -/ .br (block [
      /- 369 -/ .may,
      /- 369 -/ .br (block [
        /- 370 -/ .may,
        /- 373 -/ .putNone A._brk]) (block [
        /- 375 -/ .may,
        /- 379 -/ .put A._brk,
        /- 381 -/ .may, .put A._slope,
        /- 383 -/ .opt O.bootstrap (block [
          /- 384 -/ .may,
          /- 387 -/ .put A._slope_err,
          /- 388 -/ .get A._brk, .may, .put A._brk_err]) (block [
          /- 392 -/ .may, .put A._slope_err,
          /- 393 -/ .get A._brk, .may, .put A._brk_err]),
        /- 396 -/ .may, .put A.fit])]) (block [
      /- 399 -/ .putNone A._brk,
      /- 401 -/ .may])]),
  /- 408 -/ .ifNone A._brk (block [
    /- 410 -/ .may,
    /- 415 -/ .put A.fit,
    /- 417 -/ .get A.fit, .may, .put A._slope,
    /- 419 -/ .opt O.bootstrap (block [
      /- 420 -/ .get A.fit, .may,
      /- 422 -/ .put A._slope_err]) (block [
      /- 425 -/ .get A.fit, .may, .put A._slope_err])]) (.skip),
  /- 427 -/ .put A._bootstrap_flag,
  /- 429 -/ .opt O.verbose (block [
    /- 430 -/ .get A.fit, .may,
    /- 432 -/ .get A._bootstrap_flag, .may]) (.skip),
  /- 436 -/ .put A._model]

/-- turbustat/statistics/delta_variance/delta_variance.py:439-443 -/
def body.brk : Cmd :=
  block [
  /- 443 -/ .get A._brk, .ret]

/-- turbustat/statistics/delta_variance/delta_variance.py:446-450 -/
def body.brk_err : Cmd :=
  block [
  /- 450 -/ .get A._brk_err, .ret]

/-- turbustat/statistics/delta_variance/delta_variance.py:453-457 -/
def body.slope : Cmd :=
  block [
  /- 457 -/ .get A._slope, .ret]

/-- turbustat/statistics/delta_variance/delta_variance.py:460-464 -/
def body.slope_err : Cmd :=
  block [
  /- 464 -/ .get A._slope_err, .ret]

/-- turbustat/statistics/delta_variance/delta_variance.py:467-471 -/
def body.fit_range : Cmd :=
  block [
  /- 471 -/ .get A._fit_range, .ret]

/-- turbustat/statistics/delta_variance/delta_variance.py:473-492 -/
def body.fitted_model : Cmd :=
  block [
  /- 489 -/ .get A._model, .may,
  /- 489 -/ .br (block [
    /- 490 -/ .get A._model, .may, .ret]) (block [
    /- 492 -/ .get A.fit, .may, .ret])]

/-- turbustat/statistics/delta_variance/delta_variance.py:494-604 -/
def body.plot_fit : Cmd :=
  block [
  /- 522 -/ .may,
  /- 543 -/ .get A._lags, .may,
  /- 546 -/ .get A._delta_var, .get A._delta_var_error, .may,
  /- 553 -/ .get A._fit_range, .may,
  /- 558 -/ .call M.fitted_model, .may,
  /- 561 -/ .get A._fit_range, .may,
  /- 572 -/ .opt O.show_residual (block [
    /- 573 -/ .get A._delta_var, .may, .call M.fitted_model, .may,
    /- 574 -/ .get A._delta_var_error, .may]) (.may),
  /- 594 -/ .may]

/-- turbustat/statistics/delta_variance/delta_variance.py:606-665 -/
def body.run : Cmd :=
  block [
  /- 652 -/ .may, .call M.compute_deltavar, .may,
  /- 659 -/ .call M.fit_plaw, .may,
  /- 662 -/ .opt O.verbose (block [
    /- 663 -/ .may, .call M.plot_fit, .may]) (.skip),
  /- 665 -/ .ret]

/-- turbustat/statistics/base_statistic.py:50-73 -/
def body.load_beam : Cmd :=
  .br (.ifHas A._header (block [/- 63 -/ .tryC (block [.may, .get A._header, .put A._beam]) .may]) .may) (block [/- 71 -/ .br .raise .skip, /- 73 -/ .put A._beam])

/-- turbustat/statistics/base_statistic.py:104-126 -/
def body.input_data_header : Cmd :=
  .br (block [/- 110 -/ .may, .put A._data, /- 112 -/ .may, .put A._header]) (block [/- 121 -/ .br .raise .skip, /- 125 -/ .may, .put A._data, .put A._header])

/-- The methods in the order of their numbers. -/
def methods : List Cmd := [
  body.lags,
  body.lags__set,
  body.weights,
  body.weights__set,
  body.compute_deltavar,
  body.convolve_arrays,
  body.convolve_weights,
  body.delta_var,
  body.delta_var_error,
  body.fit_plaw,
  body.brk,
  body.brk_err,
  body.slope,
  body.slope_err,
  body.fit_range,
  body.fitted_model,
  body.plot_fit,
  body.run,
  body.load_beam,
  body.input_data_header]

/-- turbustat/statistics/delta_variance/delta_variance.py:23-665 -/
def cls : Cls := ⟨body.init, methods⟩

end DeltaVariance

namespace SCF

/-! Attributes of `SCF` (turbustat/statistics/scf/scf.py:24). -/

@[reducible] def A._distance : ℕ := 0
@[reducible] def A._roll_lags : ℕ := 1
@[reducible] def A.size : ℕ := 2
@[reducible] def A._scf_surface : ℕ := 3
@[reducible] def A._scf_spectrum_stddev : ℕ := 4
/-- `False` is `None` here, `True` a value.  scf.py:97, 533, 673 -/
@[reducible] def A._fit2D_flag : ℕ := 5
@[reducible] def A._scf_spectrum : ℕ := 6
@[reducible] def A._lags : ℕ := 7
@[reducible] def A._data : ℕ := 8
/-- `False` is `None` here, `True` a value.  scf.py:266-274, 678 -/
@[reducible] def A._azim_constraint_flag : ℕ := 9
@[reducible] def A._azim_mask : ℕ := 10
@[reducible] def A._xlow : ℕ := 11
@[reducible] def A._xhigh : ℕ := 12
@[reducible] def A.fit : ℕ := 13
@[reducible] def A._slope : ℕ := 14
@[reducible] def A._slope_err : ℕ := 15
@[reducible] def A._bootstrap_flag : ℕ := 16
@[reducible] def A.fit2D : ℕ := 17
@[reducible] def A._fitter : ℕ := 18
@[reducible] def A._slope2D : ℕ := 19
@[reducible] def A._slope2D_err : ℕ := 20
@[reducible] def A._theta2D : ℕ := 21
@[reducible] def A._theta2D_err : ℕ := 22
@[reducible] def A._ellip2D : ℕ := 23
@[reducible] def A._ellip2D_err : ℕ := 24
@[reducible] def A._header : ℕ := 25
@[reducible] def A._beam : ℕ := 26

/-! Methods and properties. -/

@[reducible] def M.roll_lags : ℕ := 0
@[reducible] def M.roll_lags__set : ℕ := 1
@[reducible] def M.scf_surface : ℕ := 2
@[reducible] def M.scf_spectrum : ℕ := 3
@[reducible] def M.scf_spectrum_stddev : ℕ := 4
@[reducible] def M.lags : ℕ := 5
@[reducible] def M.compute_surface : ℕ := 6
@[reducible] def M.compute_spectrum : ℕ := 7
@[reducible] def M.fit_plaw : ℕ := 8
@[reducible] def M.slope : ℕ := 9
@[reducible] def M.slope_err : ℕ := 10
@[reducible] def M.xlow : ℕ := 11
@[reducible] def M.xhigh : ℕ := 12
@[reducible] def M.fitted_model : ℕ := 13
@[reducible] def M.fit_2Dplaw : ℕ := 14
@[reducible] def M.slope2D : ℕ := 15
@[reducible] def M.slope2D_err : ℕ := 16
@[reducible] def M.theta2D : ℕ := 17
@[reducible] def M.theta2D_err : ℕ := 18
@[reducible] def M.ellip2D : ℕ := 19
@[reducible] def M.ellip2D_err : ℕ := 20
@[reducible] def M.plot_fit : ℕ := 21
@[reducible] def M.run : ℕ := 22
@[reducible] def M.load_beam : ℕ := 23
@[reducible] def M.input_data_header : ℕ := 24

/-! Facts about arguments that the methods test (`x_is_None`: `x is None`). -/

@[reducible] def O.distance_is_None : ℕ := 0
@[reducible] def O.roll_lags_is_None : ℕ := 1
@[reducible] def O.xlow_is_None : ℕ := 2
@[reducible] def O.xhigh_is_None : ℕ := 3
@[reducible] def O.bootstrap : ℕ := 4
@[reducible] def O.verbose : ℕ := 5
@[reducible] def O.use_azimmask : ℕ := 6
@[reducible] def O.show_residual : ℕ := 7
@[reducible] def O.show_surface : ℕ := 8
@[reducible] def O.show_radial : ℕ := 9
@[reducible] def O.fit_2D : ℕ := 10
/-- `theta_0` is among the keyword arguments. -/
@[reducible] def O.theta_0 : ℕ := 11

/-- turbustat/statistics/scf/scf.py:57-97 -/
def body.init : Cmd :=
  block [
  /- 59 -/ .may,
  /- 62 -/ .call M.input_data_header, .may,
  /- 64 -/ .opt O.distance_is_None (.skip) (block [
    /- 65 -/ .opt O.distance_is_None (block [
      /- 65 -/ .may, .put A._distance]) (block [
      /- 65 -/ .may, .put A._distance])]),
  /- 67 -/ .opt O.roll_lags_is_None (block [
    /- 68 -/ .may,
    /- 72 -/ .call M.roll_lags__set]) (block [
    /- 74 -/ .may,
    /- 79 -/ .br (.skip) (block [
      /- 81 -/ .may, .br (.may) (.raise)]),
    /- 87 -/ .call M.roll_lags__set,
    /- 90 -/ .may, .get A._roll_lags, .may]),
  /- 92 -/ .get A._roll_lags, .may, .put A.size,
  /- 94 -/ .putNone A._scf_surface,
  /- 95 -/ .putNone A._scf_spectrum_stddev,
  /- 97 -/ .putNone A._fit2D_flag]

/-- turbustat/statistics/scf/scf.py:100-105 -/
def body.roll_lags : Cmd :=
  block [
  /- 105 -/ .get A._roll_lags, .ret]

/-- turbustat/statistics/scf/scf.py:108-121 -/
def body.roll_lags__set : Cmd :=
  block [
  /- 111 -/ .may, .br (.skip) (.raise),
  /- 114 -/ .tryC (.may) (.raise),
  /- 121 -/ .put A._roll_lags]

/-- turbustat/statistics/scf/scf.py:124-128 -/
def body.scf_surface : Cmd :=
  block [
  /- 128 -/ .get A._scf_surface, .ret]

/-- turbustat/statistics/scf/scf.py:131-135 -/
def body.scf_spectrum : Cmd :=
  block [
  /- 135 -/ .get A._scf_spectrum, .ret]

/-- turbustat/statistics/scf/scf.py:138-142 -/
def body.scf_spectrum_stddev : Cmd :=
  block [
  /- 142 -/ .get A._scf_spectrum_stddev, .ret]

/-- turbustat/statistics/scf/scf.py:145-149 -/
def body.lags : Cmd :=
  block [
  /- 149 -/ .get A._lags, .ret]

/-- turbustat/statistics/scf/scf.py:151-243 -/
def body.compute_surface : Cmd :=
  block [
  /- 165 -/ .may, .br (.raise) (.skip),
  /- 168 -/ .get A.size, .may, .put A._scf_surface,
  /- 171 -/ .may, .get A._roll_lags, .may,
  /- 179 -/ .loop (block [
    /- 181 -/ .may,
    /- 183 -/ .br (block [
      /- 184 -/ .get A._scf_surface, .may]) (.skip),
    /- 186 -/ .may,
    /- 186 -/ .br (block [
      /- 187 -/ .get A._data, .may]) (block [
      /- 189 -/ .may,
      /- 193 -/ .get A._data, .may]),
    /- 195 -/ .may,
    /- 226 -/ .get A._data, .may,
    /- 235 -/ .br (.raise) (.skip),
    /- 240 -/ .get A._scf_surface, .may])]

/-- turbustat/statistics/scf/scf.py:245-284 -/
def body.compute_spectrum : Cmd :=
  block [
  /- 258 -/ .ifNone A._scf_surface (block [
    /- 259 -/ .may, .call M.compute_surface, .may]) (.skip),
  /- 261 -/ .may,
  /- 271 -/ .get A._scf_surface, .may,
  /- 274 -/ .opt O.theta_0 (.put A._azim_constraint_flag) (.putNone A._azim_constraint_flag),
  /- 276 -/ .opt O.theta_0 (block [
    /- 277 -/ .may, .put A._lags, .put A._scf_spectrum, .put A._scf_spectrum_stddev,
    /- 277 -/ .put A._azim_mask]) (block [
    /- 280 -/ .put A._lags, .put A._scf_spectrum, .put A._scf_spectrum_stddev]),
  /- 282 -/ .get A._roll_lags, .may,
  /- 284 -/ .get A._lags, .may, .put A._lags]

/-- turbustat/statistics/scf/scf.py:286-373 -/
def body.fit_plaw : Cmd :=
  block [
  /- 301 -/ .may, .get A._lags, .may,
  /- 304 -/ .get A._scf_spectrum, .may,
  /- 306 -/ .opt O.xlow_is_None (block [
    /- 317 -/ .get A._scf_spectrum, .may,
    /- 319 -/ .get A._lags, .may, .put A._xlow]) (block [
    /- 307 -/ .may, .br (.skip) (.raise),
    /- 311 -/ .may,
    /- 313 -/ .put A._xlow,
    /- 315 -/ .may]),
  /- 321 -/ .opt O.xhigh_is_None (block [
    /- 331 -/ .get A._scf_spectrum, .may,
    /- 333 -/ .get A._lags, .may, .put A._xhigh]) (block [
    /- 322 -/ .may, .br (.skip) (.raise),
    /- 325 -/ .may,
    /- 327 -/ .put A._xhigh,
    /- 329 -/ .may]),
  /- 335 -/ .may,
  /- 337 -/ .br (.skip) (.raise),
  /- 341 -/ .may,
  /- 350 -/ .get A._scf_spectrum_stddev, .may,
  /- 354 -/ .put A.fit,
  /- 356 -/ .get A.fit, .may, .put A._slope,
  /- 358 -/ .opt O.bootstrap (block [
    /- 359 -/ .get A.fit, .may,
    /- 361 -/ .put A._slope_err]) (block [
    /- 364 -/ .get A.fit, .may, .put A._slope_err]),
  /- 366 -/ .put A._bootstrap_flag,
  /- 368 -/ .opt O.verbose (block [
    /- 369 -/ .get A.fit, .may,
    /- 371 -/ .get A._bootstrap_flag, .may]) (.skip)]

/-- turbustat/statistics/scf/scf.py:376-380 -/
def body.slope : Cmd :=
  block [
  /- 380 -/ .get A._slope, .ret]

/-- turbustat/statistics/scf/scf.py:383-387 -/
def body.slope_err : Cmd :=
  block [
  /- 387 -/ .get A._slope_err, .ret]

/-- turbustat/statistics/scf/scf.py:390-394 -/
def body.xlow : Cmd :=
  block [
  /- 394 -/ .get A._xlow, .ret]

/-- turbustat/statistics/scf/scf.py:397-401 -/
def body.xhigh : Cmd :=
  block [
  /- 401 -/ .get A._xhigh, .ret]

/-- turbustat/statistics/scf/scf.py:403-428 -/
def body.fitted_model : Cmd :=
  block [
  /- 419 -/ .may, .br (.skip) (.raise),
  /- 423 -/ .may,
  /- 425 -/ .get A.fit, .may,
  /- 428 -/ .ret]

/-- turbustat/statistics/scf/scf.py:430-533 -/
def body.fit_2Dplaw : Cmd :=
  block [
  /- 459 -/ .may, .get A._lags, .may,
  /- 461 -/ .opt O.xlow_is_None (block [
    /- 466 -/ .get A._lags, .may, .put A._xlow]) (block [
    /- 463 -/ .may,
    /- 464 -/ .put A._xlow]),
  /- 468 -/ .opt O.xhigh_is_None (block [
    /- 473 -/ .get A._lags, .may, .put A._xhigh]) (block [
    /- 470 -/ .may,
    /- 471 -/ .put A._xhigh]),
  /- 475 -/ .may, .get A._xlow, .may,
  /- 476 -/ .get A._xhigh, .may,
  /- 478 -/ .get A._scf_surface, .may,
  /- 489 -/ .ifHas A._azim_mask (block [
    /- 489 -/ .opt O.use_azimmask (block [
      /- 490 -/ .get A._azim_mask, .may]) (.skip)]) (.skip),
  /- 492 -/ .may, .br (.skip) (.raise),
  /- 496 -/ .may,
  /- 496 -/ .br (block [
    /- 497 -/ .ifHas A._slope (block [
      /- 498 -/ .get A._slope, .may,
      /- 499 -/ .get A.fit, .may]) (.skip),
    /- 506 -/ .may]) (.skip),
  /- 511 -/ .get A._scf_surface, .may,
  /- 519 -/ .put A.fit2D,
  /- 520 -/ .put A._fitter,
  /- 522 -/ .may, .put A._slope2D,
  /- 523 -/ .may, .put A._slope2D_err,
  /- 525 -/ .may, .put A._theta2D,
  /- 526 -/ .may, .put A._theta2D_err,
  /- 529 -/ .may, .put A._ellip2D,
  /- 530 -/ .may, .put A._ellip2D_err,
  /- 533 -/ .put A._fit2D_flag]

/-- turbustat/statistics/scf/scf.py:536-540 -/
def body.slope2D : Cmd :=
  block [
  /- 540 -/ .get A._slope2D, .ret]

/-- turbustat/statistics/scf/scf.py:543-547 -/
def body.slope2D_err : Cmd :=
  block [
  /- 547 -/ .get A._slope2D_err, .ret]

/-- turbustat/statistics/scf/scf.py:550-554 -/
def body.theta2D : Cmd :=
  block [
  /- 554 -/ .get A._theta2D, .ret]

/-- turbustat/statistics/scf/scf.py:557-561 -/
def body.theta2D_err : Cmd :=
  block [
  /- 561 -/ .get A._theta2D_err, .ret]

/-- turbustat/statistics/scf/scf.py:564-568 -/
def body.ellip2D : Cmd :=
  block [
  /- 568 -/ .get A._ellip2D, .ret]

/-- turbustat/statistics/scf/scf.py:571-575 -/
def body.ellip2D_err : Cmd :=
  block [
  /- 575 -/ .get A._ellip2D_err, .ret]

/-- turbustat/statistics/scf/scf.py:577-747 -/
def body.plot_fit : Cmd :=
  block [
  /- 607 -/ .may,
  /- 648 -/ .opt O.show_surface (block [
    /- 650 -/ .get A._scf_surface, .may,
    /- 662 -/ .get A._lags, .may,
    /- 665 -/ .get A._xlow, .may,
    /- 666 -/ .get A._xhigh, .may,
    /- 673 -/ .may, .ifNone A._fit2D_flag (.skip) (block [
      /- 675 -/ .get A.fit2D, .may]),
    /- 678 -/ .ifNone A._azim_constraint_flag (.skip) (block [
      /- 679 -/ .get A._azim_mask, .may,
      /- 679 -/ .br (.may) (block [
        /- 680 -/ .get A._azim_mask, .may])])]) (.skip),
  /- 686 -/ .opt O.show_radial (block [
    /- 688 -/ .may, .get A._lags, .may,
    /- 691 -/ .get A._scf_spectrum, .get A._scf_spectrum_stddev, .may,
    /- 705 -/ .call M.fitted_model, .may,
    /- 708 -/ .get A._xlow, .may,
    /- 709 -/ .get A._xhigh, .may,
    /- 717 -/ .opt O.show_residual (block [
      /- 718 -/ .get A._scf_spectrum, .may, .call M.fitted_model, .may,
      /- 720 -/ .get A._scf_spectrum_stddev, .may]) (.may)]) (.skip),
  /- 739 -/ .may]

/-- turbustat/statistics/scf/scf.py:749-797 -/
def body.run : Cmd :=
  block [
  /- 786 -/ .may, .call M.compute_surface, .may,
  /- 787 -/ .call M.compute_spectrum, .may,
  /- 788 -/ .call M.fit_plaw, .may,
  /- 790 -/ .opt O.fit_2D (block [
    /- 791 -/ .may, .call M.fit_2Dplaw, .may]) (.skip),
  /- 794 -/ .opt O.verbose (block [
    /- 795 -/ .may, .call M.plot_fit, .may]) (.skip),
  /- 797 -/ .ret]

/-- turbustat/statistics/base_statistic.py:50-73 -/
def body.load_beam : Cmd :=
  .br (.ifHas A._header (block [/- 63 -/ .tryC (block [.may, .get A._header, .put A._beam]) .may]) .may) (block [/- 71 -/ .br .raise .skip, /- 73 -/ .put A._beam])

/-- turbustat/statistics/base_statistic.py:104-126 -/
def body.input_data_header : Cmd :=
  .br (block [/- 110 -/ .may, .put A._data, /- 112 -/ .may, .put A._header]) (block [/- 121 -/ .br .raise .skip, /- 125 -/ .may, .put A._data, .put A._header])

/-- The methods in the order of their numbers. -/
def methods : List Cmd := [
  body.roll_lags,
  body.roll_lags__set,
  body.scf_surface,
  body.scf_spectrum,
  body.scf_spectrum_stddev,
  body.lags,
  body.compute_surface,
  body.compute_spectrum,
  body.fit_plaw,
  body.slope,
  body.slope_err,
  body.xlow,
  body.xhigh,
  body.fitted_model,
  body.fit_2Dplaw,
  body.slope2D,
  body.slope2D_err,
  body.theta2D,
  body.theta2D_err,
  body.ellip2D,
  body.ellip2D_err,
  body.plot_fit,
  body.run,
  body.load_beam,
  body.input_data_header]

/-- turbustat/statistics/scf/scf.py:24-797 -/
def cls : Cls := ⟨body.init, methods⟩

end SCF

namespace PCA

/-! Attributes of `PCA` (turbustat/statistics/pca/pca.py:19). -/

@[reducible] def A._data : ℕ := 0
@[reducible] def A._header : ℕ := 1
@[reducible] def A.spectral_shape : ℕ := 2
@[reducible] def A._distance : ℕ := 3
@[reducible] def A._n_eigs : ℕ := 4
/-- `True` is `None` here, `False` a value.  pca.py:116, 499, 776, 1004 -/
@[reducible] def A._decomp_only : ℕ := 5
@[reducible] def A.cov_matrix : ℕ := 6
@[reducible] def A._total_variance : ℕ := 7
@[reducible] def A._var_prop : ℕ := 8
@[reducible] def A._eigvals : ℕ := 9
@[reducible] def A._eigvecs : ℕ := 10
@[reducible] def A._mean_sub : ℕ := 11
@[reducible] def A._spatial_width : ℕ := 12
@[reducible] def A._spatial_width_error : ℕ := 13
@[reducible] def A._spectral_width : ℕ := 14
@[reducible] def A._spectral_width_error : ℕ := 15
/-- `'odr'` is `None` here, `'bayes'` a value.  pca.py:509, 708 -/
@[reducible] def A._fit_method : ℕ := 16
@[reducible] def A._xlow : ℕ := 17
@[reducible] def A._xhigh : ℕ := 18
@[reducible] def A._samps : ℕ := 19
@[reducible] def A._index : ℕ := 20
@[reducible] def A._index_error_range : ℕ := 21
@[reducible] def A._intercept : ℕ := 22
@[reducible] def A._intercept_error_range : ℕ := 23
@[reducible] def A._beam : ℕ := 24

/-! Methods and properties. -/

@[reducible] def M.n_eigs : ℕ := 0
@[reducible] def M.n_eigs__set : ℕ := 1
@[reducible] def M.compute_pca : ℕ := 2
@[reducible] def M.var_proportion : ℕ := 3
@[reducible] def M.total_variance : ℕ := 4
@[reducible] def M.eigvals : ℕ := 5
@[reducible] def M.eigvecs : ℕ := 6
@[reducible] def M._valid_eigenvectors : ℕ := 7
@[reducible] def M.eigimages : ℕ := 8
@[reducible] def M.autocorr_images : ℕ := 9
@[reducible] def M.autocorr_spec : ℕ := 10
@[reducible] def M.noise_ACF : ℕ := 11
@[reducible] def M.find_spatial_widths : ℕ := 12
@[reducible] def M.spatial_width : ℕ := 13
@[reducible] def M.spatial_width_error : ℕ := 14
@[reducible] def M.find_spectral_widths : ℕ := 15
@[reducible] def M.spectral_width : ℕ := 16
@[reducible] def M.spectral_width_error : ℕ := 17
@[reducible] def M.fit_plaw : ℕ := 18
@[reducible] def M.index : ℕ := 19
@[reducible] def M.index_error_range : ℕ := 20
@[reducible] def M.gamma : ℕ := 21
@[reducible] def M.gamma_error_range : ℕ := 22
@[reducible] def M.intercept : ℕ := 23
@[reducible] def M.intercept_error_range : ℕ := 24
@[reducible] def M.model : ℕ := 25
@[reducible] def M.sonic_length : ℕ := 26
@[reducible] def M.plot_fit : ℕ := 27
@[reducible] def M.run : ℕ := 28
@[reducible] def M.load_beam : ℕ := 29
@[reducible] def M.input_data_header : ℕ := 30

/-! Facts about arguments that the methods test (`x_is_None`: `x is None`). -/

@[reducible] def O.n_eigs_is_None : ℕ := 0
@[reducible] def O.distance_is_None : ℕ := 1
@[reducible] def O.min_eigval_is_None : ℕ := 2
@[reducible] def O.mean_sub : ℕ := 3
@[reducible] def O.beam_fwhm_is_None : ℕ := 4
@[reducible] def O.brunt_beamcorrect : ℕ := 5
@[reducible] def O.xlow_is_None : ℕ := 6
@[reducible] def O.xhigh_is_None : ℕ := 7
@[reducible] def O.use_gamma : ℕ := 8
@[reducible] def O.show_cov_bar : ℕ := 9
@[reducible] def O.show_residual : ℕ := 10
@[reducible] def O.decomp_only : ℕ := 11
@[reducible] def O.verbose : ℕ := 12
/-- `fit_method` is `'odr'`. -/
@[reducible] def O.fit_method_is_odr : ℕ := 13

/-- turbustat/statistics/pca/pca.py:47-67 -/
def body.init : Cmd :=
  block [
  /- 48 -/ .may,
  /- 50 -/ .put A._data, .may, .put A._header,
  /- 52 -/ .may,
  /- 60 -/ .get A._data, .may, .put A.spectral_shape,
  /- 62 -/ .opt O.n_eigs_is_None (.skip) (.raise),
  /- 66 -/ .opt O.distance_is_None (.skip) (block [
    /- 67 -/ .opt O.distance_is_None (block [
      /- 67 -/ .may, .put A._distance]) (block [
      /- 67 -/ .may, .put A._distance])])]

/-- turbustat/statistics/pca/pca.py:70-71 -/
def body.n_eigs : Cmd :=
  block [
  /- 71 -/ .get A._n_eigs, .ret]

/-- turbustat/statistics/pca/pca.py:74-78 -/
def body.n_eigs__set : Cmd :=
  block [
  /- 75 -/ .may, .br (.raise) (.skip),
  /- 78 -/ .put A._n_eigs]

/-- turbustat/statistics/pca/pca.py:80-156 -/
def body.compute_pca : Cmd :=
  block [
  /- 115 -/ .ifHas A._decomp_only (.putNone A._decomp_only) (.putNone A._decomp_only),
  /- 120 -/ .may, .br (.opt O.min_eigval_is_None (.raise) (.skip)) (.skip),
  /- 124 -/ .get A._data, .may, .put A.cov_matrix,
  /- 127 -/ .get A.cov_matrix, .may,
  /- 132 -/ .br (block [
    /- 133 -/ .may, .call M.n_eigs__set]) (block [
    /- 135 -/ .may,
    /- 135 -/ .br (block [
      /- 136 -/ .get A.spectral_shape, .may, .call M.n_eigs__set]) (block [
      /- 137 -/ .may,
      /- 137 -/ .br (.raise) (block [
        /- 137 -/ .get A.spectral_shape, .may,
        /- 137 -/ .br (.raise) (block [
          /- 137 -/ .may, .br (.raise) (.call M.n_eigs__set)])])])]),
  /- 144 -/ .opt O.mean_sub (block [
    /- 145 -/ .may, .put A._total_variance,
    /- 146 -/ .get A._n_eigs, .get A._total_variance, .may, .put A._var_prop]) (block [
    /- 149 -/ .may, .put A._total_variance,
    /- 150 -/ .get A._n_eigs, .get A._total_variance, .may, .put A._var_prop]),
  /- 153 -/ .put A._eigvals,
  /- 154 -/ .put A._eigvecs,
  /- 156 -/ .put A._mean_sub]

/-- turbustat/statistics/pca/pca.py:159-164 -/
def body.var_proportion : Cmd :=
  block [
  /- 164 -/ .get A._var_prop, .ret]

/-- turbustat/statistics/pca/pca.py:167-171 -/
def body.total_variance : Cmd :=
  block [
  /- 171 -/ .get A._total_variance, .ret]

/-- turbustat/statistics/pca/pca.py:174-178 -/
def body.eigvals : Cmd :=
  block [
  /- 178 -/ .get A._eigvals, .ret]

/-- turbustat/statistics/pca/pca.py:181-185 -/
def body.eigvecs : Cmd :=
  block [
  /- 185 -/ .get A._eigvecs, .ret]

/-- turbustat/statistics/pca/pca.py:187-195 -/
def body._valid_eigenvectors : Cmd :=
  block [
  /- 195 -/ .get A._eigvals, .get A._data, .may, .ret]

/-- turbustat/statistics/pca/pca.py:197-245 -/
def body.eigimages : Cmd :=
  block [
  /- 214 -/ .opt O.n_eigs_is_None (block [
    /- 215 -/ .get A._n_eigs, .may]) (.skip),
  /- 217 -/ .may,
  /- 217 -/ .br (.may) (block [
    /- 219 -/ .may,
    /- 219 -/ .br (block [
      /- 223 -/ .may, .call M._valid_eigenvectors, .may]) (.skip)]),
  /- 225 -/ .may,
  /- 225 -/ .loop (block [
    /- 226 -/ .get A._data, .may,
    /- 227 -/ .loop (block [
      /- 228 -/ .get A._mean_sub, .may,
      /- 228 -/ .br (block [
        /- 229 -/ .get A._data, .may,
        /- 230 -/ .get A._eigvecs, .may]) (block [
        /- 234 -/ .get A._data, .get A._eigvecs, .may])]),
    /- 237 -/ .may]),
  /- 242 -/ .may,
  /- 242 -/ .br (block [
    /- 243 -/ .may, .ret]) (.ret)]

/-- turbustat/statistics/pca/pca.py:247-284 -/
def body.autocorr_images : Cmd :=
  block [
  /- 264 -/ .opt O.n_eigs_is_None (block [
    /- 265 -/ .get A._n_eigs, .may]) (.skip),
  /- 268 -/ .may, .call M.eigimages, .may,
  /- 281 -/ .br (block [
    /- 282 -/ .may, .ret]) (.ret)]

/-- turbustat/statistics/pca/pca.py:286-314 -/
def body.autocorr_spec : Cmd :=
  block [
  /- 302 -/ .opt O.n_eigs_is_None (block [
    /- 303 -/ .get A._n_eigs, .may]) (.skip),
  /- 305 -/ .may,
  /- 305 -/ .loop (block [
    /- 306 -/ .get A._eigvecs, .may]),
  /- 314 -/ .may, .ret]

/-- turbustat/statistics/pca/pca.py:316-337 -/
def body.noise_ACF : Cmd :=
  block [
  /- 330 -/ .opt O.n_eigs_is_None (block [
    /- 331 -/ .get A._n_eigs, .may]) (.skip),
  /- 333 -/ .may, .call M.autocorr_images, .may,
  /- 337 -/ .ret]

/-- turbustat/statistics/pca/pca.py:339-392 -/
def body.find_spatial_widths : Cmd :=
  block [
  /- 376 -/ .opt O.brunt_beamcorrect (block [
    /- 377 -/ .opt O.beam_fwhm_is_None (block [
      /- 378 -/ .get A._header, .may]) (.skip)]) (.skip),
  /- 380 -/ .get A._n_eigs, .may, .call M.autocorr_images, .may,
  /- 381 -/ .call M.noise_ACF, .may,
  /- 383 -/ .put A._spatial_width, .put A._spatial_width_error,
  /- 391 -/ .get A._spatial_width, .may, .put A._spatial_width,
  /- 392 -/ .get A._spatial_width_error, .may, .put A._spatial_width_error]

/-- turbustat/statistics/pca/pca.py:394-404 -/
def body.spatial_width : Cmd :=
  block [
  /- 404 -/ .may, .get A._spatial_width, .may, .ret]

/-- turbustat/statistics/pca/pca.py:406-418 -/
def body.spatial_width_error : Cmd :=
  block [
  /- 418 -/ .may, .get A._spatial_width_error, .may, .ret]

/-- turbustat/statistics/pca/pca.py:420-441 -/
def body.find_spectral_widths : Cmd :=
  block [
  /- 435 -/ .get A._n_eigs, .may, .call M.autocorr_spec, .may,
  /- 437 -/ .put A._spectral_width, .put A._spectral_width_error,
  /- 440 -/ .get A._spectral_width, .may, .put A._spectral_width,
  /- 441 -/ .get A._spectral_width_error, .may, .put A._spectral_width_error]

/-- turbustat/statistics/pca/pca.py:443-455 -/
def body.spectral_width : Cmd :=
  block [
  /- 455 -/ .may, .get A._spectral_width, .may, .ret]

/-- turbustat/statistics/pca/pca.py:457-470 -/
def body.spectral_width_error : Cmd :=
  block [
  /- 470 -/ .may, .get A._spectral_width_error, .may, .ret]

/-- turbustat/statistics/pca/pca.py:472-590 -/
def body.fit_plaw : Cmd :=
  block [
  /- 498 -/ .ifHas A._decomp_only (.put A._decomp_only) (.put A._decomp_only),
  /- 503 -/ .may, .br (.raise) (.skip),
  /- 509 -/ .opt O.fit_method_is_odr (.putNone A._fit_method) (.put A._fit_method),
  /- 511 -/ .may, .call M.spatial_width, .may,
  /- 514 -/ .opt O.xlow_is_None (block [
    /- 525 -/ .may,
    /- 527 -/ .call M.spatial_width, .may, .put A._xlow]) (block [
    /- 515 -/ .may, .br (.skip) (.raise),
    /- 519 -/ .may,
    /- 521 -/ .put A._xlow,
    /- 523 -/ .may]),
  /- 529 -/ .opt O.xhigh_is_None (block [
    /- 539 -/ .may,
    /- 541 -/ .call M.spatial_width, .may, .put A._xhigh]) (block [
    /- 530 -/ .may, .br (.skip) (.raise),
    /- 533 -/ .may,
    /- 535 -/ .put A._xhigh,
    /- 537 -/ .may]),
  /- 543 -/ .may,
  /- 545 -/ .br (.skip) (.raise),
  /- 550 -/ .may, .call M.spectral_width, .call M.spatial_width,
  /- 550 -/ .call M.spatial_width_error, .call M.spectral_width_error, .may,
  /- 558 -/ .call M.spectral_width, .may,
  /- 559 -/ .br (.raise) (.may),
  /- 565 -/ .may, .call M.spectral_width, .may,
  /- 566 -/ .call M.spatial_width, .may,
  /- 568 -/ .call M.spectral_width_error, .call M.spectral_width, .may,
  /- 570 -/ .call M.spatial_width_error, .call M.spatial_width, .may,
  /- 573 -/ .opt O.fit_method_is_odr (.may) (block [
    /- 579 -/ .may,
    /- 582 -/ .put A._samps]),
  /- 584 -/ .may, .put A._index,
  /- 585 -/ .may, .put A._index_error_range,
  /- 588 -/ .get A._spectral_width, .may, .put A._intercept,
  /- 589 -/ .get A._spectral_width, .may, .put A._intercept_error_range]

/-- turbustat/statistics/pca/pca.py:593-597 -/
def body.index : Cmd :=
  block [
  /- 597 -/ .get A._index, .ret]

/-- turbustat/statistics/pca/pca.py:600-604 -/
def body.index_error_range : Cmd :=
  block [
  /- 604 -/ .get A._index_error_range, .ret]

/-- turbustat/statistics/pca/pca.py:607-612 -/
def body.gamma : Cmd :=
  block [
  /- 612 -/ .get A._index, .may, .ret]

/-- turbustat/statistics/pca/pca.py:615-619 -/
def body.gamma_error_range : Cmd :=
  block [
  /- 619 -/ .get A._index_error_range, .may, .ret]

/-- turbustat/statistics/pca/pca.py:621-632 -/
def body.intercept : Cmd :=
  block [
  /- 632 -/ .may, .get A._intercept, .may, .ret]

/-- turbustat/statistics/pca/pca.py:634-645 -/
def body.intercept_error_range : Cmd :=
  block [
  /- 645 -/ .may, .get A._intercept_error_range, .may, .ret]

/-- turbustat/statistics/pca/pca.py:647-651 -/
def body.model : Cmd :=
  block [
  /- 651 -/ .get A._index, .may, .call M.intercept, .may, .ret]

/-- turbustat/statistics/pca/pca.py:653-742 -/
def body.sonic_length : Cmd :=
  block [
  /- 687 -/ .may,
  /- 689 -/ .tryC (.may) (.raise),
  /- 695 -/ .may,
  /- 699 -/ .opt O.use_gamma (block [
    /- 700 -/ .get A._index, .may,
    /- 701 -/ .get A._index_error_range, .may]) (block [
    /- 703 -/ .get A._index, .may,
    /- 704 -/ .get A._index_error_range, .may]),
  /- 706 -/ .may, .call M.intercept, .may,
  /- 708 -/ .ifNone A._fit_method (block [
    /- 710 -/ .may,
    /- 711 -/ .call M.intercept, .call M.intercept_error_range, .call M.intercept,
    /- 711 -/ .may,
    /- 715 -/ .call M.intercept, .may,
    /- 717 -/ .call M.intercept, .may]) (block [
    /- 726 -/ .get A._samps, .may]),
  /- 738 -/ .may,
  /- 742 -/ .ret]

/-- turbustat/statistics/pca/pca.py:744-930 -/
def body.plot_fit : Cmd :=
  block [
  /- 776 -/ .get A._decomp_only, .may,
  /- 783 -/ .opt O.show_cov_bar (block [
    /- 784 -/ .may,
    /- 790 -/ .get A.cov_matrix, .may,
    /- 803 -/ .opt O.n_eigs_is_None (block [
      /- 804 -/ .get A._n_eigs, .may]) (.skip),
    /- 806 -/ .get A._n_eigs, .get A._eigvals, .may]) (.skip),
  /- 776, 812 -/ .ifNone A._decomp_only (.skip) (.br (block [
    /- 816 -/ .may,
    /- 827 -/ .call M.spatial_width, .may,
    /- 828 -/ .call M.spatial_width_error, .may,
    /- 830 -/ .call M.spectral_width, .may,
    /- 831 -/ .call M.spectral_width_error, .may,
    /- 842 -/ .get A._xlow, .may,
    /- 844 -/ .get A._xhigh, .may,
    /- 859 -/ .call M.spatial_width, .call M.spatial_width, .may,
    /- 864 -/ .call M.intercept, .may,
    /- 868 -/ .get A._index, .may,
    /- 890 -/ .opt O.show_residual (block [
      /- 891 -/ .may,
      /- 896 -/ .call M.spatial_width, .may,
      /- 897 -/ .get A._index, .may]) (.skip),
    /- 921 -/ .may]) (.skip)),
  /- 924 -/ .may]

/-- turbustat/statistics/pca/pca.py:932-1036 -/
def body.run : Cmd :=
  block [
  /- 989 -/ .opt O.beam_fwhm_is_None (block [
    /- 989 -/ .opt O.brunt_beamcorrect (block [
      /- 989 -/ .opt O.decomp_only (.skip) (block [
        /- 990 -/ .tryC (block [
          /- 991 -/ .get A._header, .may]) (.raise)])]) (.skip)]) (.skip),
  /- 999 -/ .may, .call M.compute_pca, .may,
  /- 1004 -/ .opt O.decomp_only (.putNone A._decomp_only) (.put A._decomp_only),
  /- 1007 -/ .opt O.decomp_only (.skip) (block [
    /- 1008 -/ .may, .call M.find_spatial_widths, .may,
    /- 1011 -/ .call M.find_spectral_widths, .may,
    /- 1012 -/ .call M.fit_plaw, .may]),
  /- 1015 -/ .opt O.verbose (block [
    /- 1017 -/ .get A._var_prop, .may,
    /- 1019 -/ .opt O.decomp_only (.skip) (block [
      /- 1020 -/ .get A._index, .get A._index_error_range, .may,
      /- 1027 -/ .call M.sonic_length, .may]),
    /- 1032 -/ .may, .call M.plot_fit, .may]) (.skip),
  /- 1036 -/ .ret]

/-- turbustat/statistics/base_statistic.py:50-73 -/
def body.load_beam : Cmd :=
  .br (.ifHas A._header (block [/- 63 -/ .tryC (block [.may, .get A._header, .put A._beam]) .may]) .may) (block [/- 71 -/ .br .raise .skip, /- 73 -/ .put A._beam])

/-- turbustat/statistics/base_statistic.py:104-126 -/
def body.input_data_header : Cmd :=
  .br (block [/- 110 -/ .may, .put A._data, /- 112 -/ .may, .put A._header]) (block [/- 121 -/ .br .raise .skip, /- 125 -/ .may, .put A._data, .put A._header])

/-- The methods in the order of their numbers. -/
def methods : List Cmd := [
  body.n_eigs,
  body.n_eigs__set,
  body.compute_pca,
  body.var_proportion,
  body.total_variance,
  body.eigvals,
  body.eigvecs,
  body._valid_eigenvectors,
  body.eigimages,
  body.autocorr_images,
  body.autocorr_spec,
  body.noise_ACF,
  body.find_spatial_widths,
  body.spatial_width,
  body.spatial_width_error,
  body.find_spectral_widths,
  body.spectral_width,
  body.spectral_width_error,
  body.fit_plaw,
  body.index,
  body.index_error_range,
  body.gamma,
  body.gamma_error_range,
  body.intercept,
  body.intercept_error_range,
  body.model,
  body.sonic_length,
  body.plot_fit,
  body.run,
  body.load_beam,
  body.input_data_header]

/-- turbustat/statistics/pca/pca.py:19-1036 -/
def cls : Cls := ⟨body.init, methods⟩

end PCA

end Life
end TS
