import Verif.Model.Lifecycle

/-!
# Which attributes each method reads and stores: `PDF`, `Tsallis`, `StatMoments`, `Genus`, `Dendrogram_Stats`, `Bispectrum`

Every method of these classes as a `Life.Cmd`, statement by statement; the number
in front of a statement is its line in the cited file.  Simplifications: a
property that only returns an attribute is replaced by the attribute; the unit
conversions and `save_results` of the base class are `may`; consecutive statements
that touch no attribute are one `may`; repeated reads of the same attribute with
no store in between are one read.
-/

namespace TS
namespace Life

namespace PDF

/-! Attributes of `PDF` (turbustat/statistics/pdf/compare_pdf.py:15). -/

@[reducible] def A._header : ℕ := 0
@[reducible] def A.img : ℕ := 1
@[reducible] def A._data : ℕ := 2
@[reducible] def A.weights : ℕ := 3
@[reducible] def A._normalization_type : ℕ := 4
@[reducible] def A._bins : ℕ := 5
@[reducible] def A._pdf : ℕ := 6
@[reducible] def A._ecdf : ℕ := 7
/-- `False` is `None` here, `True` a value.  compare_pdf.py:82, 214, 442, 482, 490 -/
@[reducible] def A._do_fit : ℕ := 8
@[reducible] def A._ecdf_function : ℕ := 9
@[reducible] def A._fit_fixes : ℕ := 10
@[reducible] def A._model : ℕ := 11
@[reducible] def A._scipy_model : ℕ := 12
@[reducible] def A._mle_fit : ℕ := 13
@[reducible] def A._model_params : ℕ := 14
@[reducible] def A._model_stderrs : ℕ := 15
@[reducible] def A._mcmc_chain : ℕ := 16
@[reducible] def A._beam : ℕ := 17

/-! Methods and properties. -/

@[reducible] def M.make_pdf : ℕ := 0
@[reducible] def M.normalization_type : ℕ := 1
@[reducible] def M.pdf : ℕ := 2
@[reducible] def M.bins : ℕ := 3
@[reducible] def M.make_ecdf : ℕ := 4
@[reducible] def M.ecdf : ℕ := 5
@[reducible] def M.find_percentile : ℕ := 6
@[reducible] def M.find_at_percentile : ℕ := 7
@[reducible] def M.fit_pdf : ℕ := 8
@[reducible] def M.model_params : ℕ := 9
@[reducible] def M.model_stderrs : ℕ := 10
@[reducible] def M.corner_plot : ℕ := 11
@[reducible] def M.trace_plot : ℕ := 12
@[reducible] def M.plot_distrib : ℕ := 13
@[reducible] def M.run : ℕ := 14
@[reducible] def M.load_beam : ℕ := 15
@[reducible] def M.input_data_header : ℕ := 16

/-! Facts about arguments that the methods test (`x_is_None`: `x is None`). -/

@[reducible] def O.weights_is_None : ℕ := 0
@[reducible] def O.normalization_type_is_None : ℕ := 1
@[reducible] def O.bins_is_None : ℕ := 2
@[reducible] def O.fscale : ℕ := 3
@[reducible] def O.floc : ℕ := 4
@[reducible] def O.verbose : ℕ := 5
@[reducible] def O.show_ecdf : ℕ := 6
@[reducible] def O.do_fit : ℕ := 7

/-- turbustat/statistics/pdf/compare_pdf.py:44-82 -/
def body.init : Cmd :=
  block [
  /- 46 -/ .may,
  /- 49 -/ .put A._header,
  /- 51 -/ .may,
  /- 53 -/ .put A.img,
  /- 56 -/ .may,
  /- 58 -/ .put A._data,
  /- 61 -/ .opt O.weights_is_None (.skip) (block [
    /- 62 -/ .may,
    /- 64 -/ .put A.weights,
    /- 66 -/ .get A.weights, .may,
    /- 68 -/ .get A._data, .may, .put A._data]),
  /- 70 -/ .opt O.normalization_type_is_None (.put A._normalization_type) (block [
    /- 71 -/ .opt O.normalization_type_is_None (.putNone A._normalization_type) (.put A._normalization_type),
    /- 72 -/ .get A._data, .may, .put A._data]),
  /- 77 -/ .opt O.bins_is_None (.putNone A._bins) (.put A._bins),
  /- 79 -/ .putNone A._pdf,
  /- 80 -/ .putNone A._ecdf,
  /- 82 -/ .putNone A._do_fit]

/-- turbustat/statistics/pdf/compare_pdf.py:84-108 -/
def body.make_pdf : Cmd :=
  block [
  /- 94 -/ .opt O.bins_is_None (.skip) (.opt O.bins_is_None (.putNone A._bins) (.put A._bins)),
  /- 98 -/ .ifNone A._bins (block [
    /- 99 -/ .get A._data, .may, .put A._bins,
    /- 100 -/ .get A._bins, .may, .put A._bins]) (.skip),
  /- 104 -/ .get A._data, .get A._bins, .may, .put A._pdf,
  /- 108 -/ .may, .put A._bins]

/-- turbustat/statistics/pdf/compare_pdf.py:111-112 -/
def body.normalization_type : Cmd :=
  block [
  /- 112 -/ .get A._normalization_type, .ret]

/-- turbustat/statistics/pdf/compare_pdf.py:115-119 -/
def body.pdf : Cmd :=
  block [
  /- 119 -/ .get A._pdf, .ret]

/-- turbustat/statistics/pdf/compare_pdf.py:122-126 -/
def body.bins : Cmd :=
  block [
  /- 126 -/ .get A._bins, .ret]

/-- turbustat/statistics/pdf/compare_pdf.py:128-138 -/
def body.make_ecdf : Cmd :=
  block [
  /- 133 -/ .ifNone A._pdf (block [
    /- 134 -/ .may, .call M.make_pdf, .may]) (.skip),
  /- 136 -/ .get A._data, .may, .put A._ecdf_function,
  /- 138 -/ .get A._ecdf_function, .get A._bins, .may, .put A._ecdf]

/-- turbustat/statistics/pdf/compare_pdf.py:141-145 -/
def body.ecdf : Cmd :=
  block [
  /- 145 -/ .get A._ecdf, .ret]

/-- turbustat/statistics/pdf/compare_pdf.py:147-161 -/
def body.find_percentile : Cmd :=
  block [
  /- 158 -/ .ifNone A._ecdf (block [
    /- 159 -/ .may, .call M.make_ecdf, .may]) (.skip),
  /- 161 -/ .get A._ecdf_function, .may, .ret]

/-- turbustat/statistics/pdf/compare_pdf.py:163-176 -/
def body.find_at_percentile : Cmd :=
  block [
  /- 173 -/ .may, .br (.raise) (.skip),
  /- 176 -/ .get A._data, .may, .ret]

/-- turbustat/statistics/pdf/compare_pdf.py:178-335 -/
def body.fit_pdf : Cmd :=
  block [
  /- 209 -/ .may, .br (.raise) (.skip),
  /- 212 -/ .put A._fit_fixes,
  /- 214 -/ .put A._do_fit,
  /- 278 -/ .opt O.floc (block [
    /- 278 -/ .opt O.fscale (block [
      /- 279 -/ .get A._data, .may]) (block [
      /- 280 -/ .opt O.floc (block [
        /- 281 -/ .get A._data, .may]) (block [
        /- 284 -/ .opt O.fscale (block [
          /- 285 -/ .get A._data, .may]) (block [
          /- 289 -/ .get A._data, .may])])])]) (block [
    /- 280 -/ .opt O.floc (block [
      /- 281 -/ .get A._data, .may]) (block [
      /- 284 -/ .opt O.fscale (block [
        /- 285 -/ .get A._data, .may]) (block [
        /- 289 -/ .get A._data, .may])])]),
  /- 291 -/ .may,
  /- 293 -/ .get A._data, .may, .put A._model,
  /- 295 -/ .put A._scipy_model,
  /- 297 -/ .may,
  /- 297 -/ .br (block [
    /- 298 -/ .get A._model, .may,
    /- 300 -/ .put A._mle_fit,
    /- 301 -/ .may,
    /- 302 -/ .get A._data, .may,
    /- 304 -/ .put A._model_params,
    /- 305 -/ .tryC (block [
      /- 306 -/ .may, .put A._model_stderrs]) (block [
      /- 309 -/ .may,
      /- 310 -/ .call M.model_params, .may, .put A._model_stderrs])]) (block [
    /- 312 -/ .may,
    /- 312 -/ .br (block [
      /- 313 -/ .get A._model, .may,
      /- 316 -/ .put A._model_params,
      /- 317 -/ .may, .put A._model_stderrs,
      /- 319 -/ .put A._mcmc_chain]) (.skip)]),
  /- 321 -/ .opt O.verbose (block [
    /- 322 -/ .may,
    /- 322 -/ .br (block [
      /- 323 -/ .br (block [
        /- 324 -/ .may, .call M.model_params, .may]) (.may)]) (block [
      /- 329 -/ .may,
      /- 333 -/ .call M.model_params, .may,
      /- 334 -/ .call M.model_stderrs, .call M.model_stderrs, .may])]) (.skip)]

/-- turbustat/statistics/pdf/compare_pdf.py:338-344 -/
def body.model_params : Cmd :=
  block [
  /- 342 -/ .ifHas A._model_params (block [
    /- 343 -/ .get A._model_params, .ret]) (.skip),
  /- 344 -/ .raise]

/-- turbustat/statistics/pdf/compare_pdf.py:347-354 -/
def body.model_stderrs : Cmd :=
  block [
  /- 352 -/ .ifHas A._model_stderrs (block [
    /- 353 -/ .get A._model_stderrs, .ret]) (.skip),
  /- 354 -/ .raise]

/-- turbustat/statistics/pdf/compare_pdf.py:356-374 -/
def body.corner_plot : Cmd :=
  block [
  /- 365 -/ .ifHas A._mcmc_chain (.skip) (.raise),
  /- 368 -/ .tryC (.may) (.raise),
  /- 374 -/ .get A._mcmc_chain, .may]

/-- turbustat/statistics/pdf/compare_pdf.py:376-399 -/
def body.trace_plot : Cmd :=
  block [
  /- 385 -/ .ifHas A._mcmc_chain (.skip) (.raise),
  /- 388 -/ .get A._mcmc_chain, .may,
  /- 393 -/ .loop (block [
    /- 394 -/ .get A._mcmc_chain, .may]),
  /- 397 -/ .may]

/-- turbustat/statistics/pdf/compare_pdf.py:401-506 -/
def body.plot_distrib : Cmd :=
  block [
  /- 420 -/ .may,
  /- 422 -/ .get A._normalization_type, .may,
  /- 422 -/ .br (.skip) (block [
    /- 424 -/ .get A._normalization_type, .may,
    /- 424 -/ .br (.skip) (block [
      /- 426 -/ .get A._normalization_type, .may])]),
  /- 435 -/ .may,
  /- 440 -/ .get A._bins, .get A._pdf, .may,
  /- 442 -/ .ifNone A._do_fit (.skip) (block [
    /- 444 -/ .get A._bins, .may,
    /- 447 -/ .get A._fit_fixes, .may,
    /- 447 -/ .br (block [
      /- 447 -/ .get A._fit_fixes, .may,
      /- 447 -/ .br (block [
        /- 448 -/ .get A._fit_fixes, .may,
        /- 450 -/ .call M.model_params, .may]) (block [
        /- 451 -/ .get A._fit_fixes, .may,
        /- 451 -/ .br (block [
          /- 452 -/ .get A._fit_fixes, .may,
          /- 453 -/ .call M.model_params, .may,
          /- 454 -/ .call M.model_params, .may]) (block [
          /- 455 -/ .get A._fit_fixes, .may,
          /- 455 -/ .br (block [
            /- 456 -/ .may, .call M.model_params, .may,
            /- 457 -/ .get A._fit_fixes, .may,
            /- 458 -/ .call M.model_params, .may]) (block [
            /- 460 -/ .may, .call M.model_params, .may,
            /- 461 -/ .call M.model_params, .may,
            /- 462 -/ .call M.model_params, .may])])])]) (block [
      /- 451 -/ .get A._fit_fixes, .may,
      /- 451 -/ .br (block [
        /- 452 -/ .get A._fit_fixes, .may,
        /- 453 -/ .call M.model_params, .may,
        /- 454 -/ .call M.model_params, .may]) (block [
        /- 455 -/ .get A._fit_fixes, .may,
        /- 455 -/ .br (block [
          /- 456 -/ .may, .call M.model_params, .may,
          /- 457 -/ .get A._fit_fixes, .may,
          /- 458 -/ .call M.model_params, .may]) (block [
          /- 460 -/ .may, .call M.model_params, .may,
          /- 461 -/ .call M.model_params, .may,
          /- 462 -/ .call M.model_params, .may])])]),
    /- 464 -/ .get A._scipy_model, .may]),
  /- 471 -/ .may,
  /- 476 -/ .opt O.show_ecdf (block [
    /- 477 -/ .may,
    /- 480 -/ .get A._normalization_type, .may,
    /- 480 -/ .br (block [
      /- 481 -/ .get A._bins, .get A._ecdf, .may,
      /- 482 -/ .ifNone A._do_fit (.skip) (block [
        /- 483 -/ .get A._scipy_model, .may])]) (block [
      /- 489 -/ .get A._bins, .get A._ecdf, .may,
      /- 490 -/ .ifNone A._do_fit (.skip) (block [
        /- 491 -/ .get A._scipy_model, .may])]),
    /- 496 -/ .may]) (.skip),
  /- 500 -/ .may]

/-- turbustat/statistics/pdf/compare_pdf.py:508-540 -/
def body.run : Cmd :=
  block [
  /- 531 -/ .may, .call M.make_pdf, .may,
  /- 532 -/ .call M.make_ecdf, .may,
  /- 534 -/ .opt O.do_fit (block [
    /- 535 -/ .may, .call M.fit_pdf, .may]) (.skip),
  /- 537 -/ .opt O.verbose (block [
    /- 538 -/ .may, .call M.plot_distrib, .may]) (.skip),
  /- 540 -/ .ret]

/-- turbustat/statistics/base_statistic.py:50-73 -/
def body.load_beam : Cmd :=
  .br (.ifHas A._header (block [/- 63 -/ .tryC (block [.may, .get A._header, .put A._beam]) .may]) .may) (block [/- 71 -/ .br .raise .skip, /- 73 -/ .put A._beam])

/-- turbustat/statistics/base_statistic.py:104-126 -/
def body.input_data_header : Cmd :=
  .br (block [/- 110 -/ .may, .put A._data, /- 112 -/ .may, .put A._header]) (block [/- 121 -/ .br .raise .skip, /- 125 -/ .may, .put A._data, .put A._header])

/-- The methods in the order of their numbers. -/
def methods : List Cmd := [
  body.make_pdf,
  body.normalization_type,
  body.pdf,
  body.bins,
  body.make_ecdf,
  body.ecdf,
  body.find_percentile,
  body.find_at_percentile,
  body.fit_pdf,
  body.model_params,
  body.model_stderrs,
  body.corner_plot,
  body.trace_plot,
  body.plot_distrib,
  body.run,
  body.load_beam,
  body.input_data_header]

/-- turbustat/statistics/pdf/compare_pdf.py:15-540 -/
def cls : Cls := ⟨body.init, methods⟩

end PDF

namespace Tsallis

/-! Attributes of `Tsallis` (turbustat/statistics/tsallis/tsallis.py:15). -/

@[reducible] def A._distance : ℕ := 0
@[reducible] def A._data : ℕ := 1
@[reducible] def A._lags : ℕ := 2
@[reducible] def A._lag_arrays : ℕ := 3
@[reducible] def A._lag_distribs : ℕ := 4
@[reducible] def A._sigma_clip : ℕ := 5
@[reducible] def A._tsallis_params : ℕ := 6
@[reducible] def A._tsallis_stderrs : ℕ := 7
@[reducible] def A._tsallis_chisq : ℕ := 8
@[reducible] def A._header : ℕ := 9
@[reducible] def A._beam : ℕ := 10

/-! Methods and properties. -/

@[reducible] def M.lags : ℕ := 0
@[reducible] def M.lags__set : ℕ := 1
@[reducible] def M.make_tsallis : ℕ := 2
@[reducible] def M.lag_arrays : ℕ := 3
@[reducible] def M.lag_distribs : ℕ := 4
@[reducible] def M.fit_tsallis : ℕ := 5
@[reducible] def M.tsallis_params : ℕ := 6
@[reducible] def M.tsallis_stderrs : ℕ := 7
@[reducible] def M.tsallis_chisq : ℕ := 8
@[reducible] def M.tsallis_table : ℕ := 9
@[reducible] def M.plot_parameters : ℕ := 10
@[reducible] def M.plot_fit : ℕ := 11
@[reducible] def M.run : ℕ := 12
@[reducible] def M.load_beam : ℕ := 13
@[reducible] def M.input_data_header : ℕ := 14

/-! Facts about arguments that the methods test (`x_is_None`: `x is None`). -/

@[reducible] def O.distance_is_None : ℕ := 0
@[reducible] def O.lags_is_None : ℕ := 1
@[reducible] def O.num_bins_is_None : ℕ := 2
@[reducible] def O.periodic : ℕ := 3
@[reducible] def O.verbose : ℕ := 4

/-- turbustat/statistics/tsallis/tsallis.py:35-48 -/
def body.init : Cmd :=
  block [
  /- 37 -/ .may, .call M.input_data_header, .may,
  /- 39 -/ .opt O.distance_is_None (.skip) (block [
    /- 40 -/ .opt O.distance_is_None (block [
      /- 40 -/ .may, .put A._distance]) (block [
      /- 40 -/ .may, .put A._distance])]),
  /- 42 -/ .opt O.lags_is_None (block [
    /- 44 -/ .get A._data, .may,
    /- 46 -/ .call M.lags__set]) (.call M.lags__set)]

/-- turbustat/statistics/tsallis/tsallis.py:51-55 -/
def body.lags : Cmd :=
  block [
  /- 55 -/ .get A._lags, .ret]

/-- turbustat/statistics/tsallis/tsallis.py:58-83 -/
def body.lags__set : Cmd :=
  block [
  /- 60 -/ .may, .br (.skip) (.raise),
  /- 64 -/ .tryC (.may) (.raise),
  /- 70 -/ .may, .br (.raise) (.skip),
  /- 76 -/ .get A._data, .may,
  /- 78 -/ .br (.raise) (.skip),
  /- 83 -/ .put A._lags]

/-- turbustat/statistics/tsallis/tsallis.py:85-144 -/
def body.make_tsallis : Cmd :=
  block [
  /- 104 -/ .opt O.num_bins_is_None (block [
    /- 105 -/ .get A._data, .may]) (.skip),
  /- 108 -/ .get A._lags, .get A._data, .may, .put A._lag_arrays,
  /- 111 -/ .get A._lags, .may, .put A._lag_distribs,
  /- 114 -/ .may, .get A._lags, .may,
  /- 116 -/ .loop (block [
    /- 117 -/ .opt O.periodic (block [
      /- 118 -/ .get A._data, .may]) (block [
      /- 120 -/ .get A._data, .may]),
    /- 121 -/ .may,
    /- 142 -/ .get A._lag_arrays, .may,
    /- 143 -/ .get A._lag_distribs, .may])]

/-- turbustat/statistics/tsallis/tsallis.py:147-151 -/
def body.lag_arrays : Cmd :=
  block [
  /- 151 -/ .get A._lag_arrays, .ret]

/-- turbustat/statistics/tsallis/tsallis.py:154-159 -/
def body.lag_distribs : Cmd :=
  block [
  /- 159 -/ .get A._lag_distribs, .ret]

/-- turbustat/statistics/tsallis/tsallis.py:161-198 -/
def body.fit_tsallis : Cmd :=
  block [
  /- 172 -/ .ifHas A._lag_distribs (.skip) (.raise),
  /- 176 -/ .put A._sigma_clip,
  /- 178 -/ .get A._lags, .may, .put A._tsallis_params,
  /- 179 -/ .get A._lags, .may, .put A._tsallis_stderrs,
  /- 180 -/ .get A._lags, .may, .put A._tsallis_chisq,
  /- 182 -/ .get A._lag_distribs, .may,
  /- 182 -/ .loop (block [
    /- 183 -/ .may,
    /- 196 -/ .get A._tsallis_params, .may,
    /- 197 -/ .get A._tsallis_stderrs, .may,
    /- 198 -/ .get A._tsallis_chisq, .may])]

/-- turbustat/statistics/tsallis/tsallis.py:201-205 -/
def body.tsallis_params : Cmd :=
  block [
  /- 205 -/ .get A._tsallis_params, .ret]

/-- turbustat/statistics/tsallis/tsallis.py:208-212 -/
def body.tsallis_stderrs : Cmd :=
  block [
  /- 212 -/ .get A._tsallis_stderrs, .ret]

/-- turbustat/statistics/tsallis/tsallis.py:215-219 -/
def body.tsallis_chisq : Cmd :=
  block [
  /- 219 -/ .get A._tsallis_chisq, .ret]

/-- turbustat/statistics/tsallis/tsallis.py:222-234 -/
def body.tsallis_table : Cmd :=
  block [
  /- 228 -/ .get A._lags, .get A._tsallis_params, .get A._tsallis_stderrs,
  /- 228 -/ .get A._tsallis_chisq, .may,
  /- 234 -/ .ret]

/-- turbustat/statistics/tsallis/tsallis.py:236-275 -/
def body.plot_parameters : Cmd :=
  block [
  /- 247 -/ .may,
  /- 251 -/ .get A._lags, .may, .call M.tsallis_table, .call M.tsallis_table, .may,
  /- 258 -/ .get A._lags, .may, .call M.tsallis_table, .call M.tsallis_table, .may,
  /- 265 -/ .get A._lags, .may, .call M.tsallis_table, .call M.tsallis_table, .may]

/-- turbustat/statistics/tsallis/tsallis.py:277-320 -/
def body.plot_fit : Cmd :=
  block [
  /- 288 -/ .may,
  /- 293 -/ .get A._lags, .may,
  /- 295 -/ .get A._lag_distribs, .get A._lag_arrays, .get A._tsallis_params, .may,
  /- 295 -/ .loop (block [
    /- 301 -/ .may,
    /- 308 -/ .ifNone A._sigma_clip (.skip) (block [
      /- 309 -/ .get A._sigma_clip, .may]),
    /- 314 -/ .may]),
  /- 316 -/ .may]

/-- turbustat/statistics/tsallis/tsallis.py:322-353 -/
def body.run : Cmd :=
  block [
  /- 344 -/ .may, .call M.make_tsallis, .may,
  /- 345 -/ .call M.fit_tsallis, .may,
  /- 347 -/ .opt O.verbose (block [
    /- 349 -/ .may, .call M.tsallis_table, .may,
    /- 351 -/ .call M.plot_fit, .may]) (.skip),
  /- 353 -/ .ret]

/-- turbustat/statistics/base_statistic.py:50-73 -/
def body.load_beam : Cmd :=
  .br (.ifHas A._header (block [/- 63 -/ .tryC (block [.may, .get A._header, .put A._beam]) .may]) .may) (block [/- 71 -/ .br .raise .skip, /- 73 -/ .put A._beam])

/-- turbustat/statistics/base_statistic.py:104-126 -/
def body.input_data_header : Cmd :=
  .br (block [/- 110 -/ .may, .put A._data, /- 112 -/ .may, .put A._header]) (block [/- 121 -/ .br .raise .skip, /- 125 -/ .may, .put A._data, .put A._header])

/-- The methods in the order of their numbers. -/
def methods : List Cmd := [
  body.lags,
  body.lags__set,
  body.make_tsallis,
  body.lag_arrays,
  body.lag_distribs,
  body.fit_tsallis,
  body.tsallis_params,
  body.tsallis_stderrs,
  body.tsallis_chisq,
  body.tsallis_table,
  body.plot_parameters,
  body.plot_fit,
  body.run,
  body.load_beam,
  body.input_data_header]

/-- turbustat/statistics/tsallis/tsallis.py:15-353 -/
def cls : Cls := ⟨body.init, methods⟩

end Tsallis

namespace StatMoments

/-! Attributes of `StatMoments` (turbustat/statistics/stat_moments/highstatmoments.py:17). -/

@[reducible] def A._data : ℕ := 0
@[reducible] def A.weights : ℕ := 1
@[reducible] def A._distance : ℕ := 2
@[reducible] def A.nbins : ℕ := 3
@[reducible] def A._radius : ℕ := 4
@[reducible] def A.mean : ℕ := 5
@[reducible] def A.variance : ℕ := 6
@[reducible] def A.skewness : ℕ := 7
@[reducible] def A.kurtosis : ℕ := 8
@[reducible] def A._mean_array : ℕ := 9
@[reducible] def A._variance_array : ℕ := 10
@[reducible] def A._skewness_array : ℕ := 11
@[reducible] def A._kurtosis_array : ℕ := 12
@[reducible] def A._mean_hist : ℕ := 13
@[reducible] def A._variance_hist : ℕ := 14
@[reducible] def A._skewness_hist : ℕ := 15
@[reducible] def A._kurtosis_hist : ℕ := 16
@[reducible] def A._header : ℕ := 17
@[reducible] def A._beam : ℕ := 18

/-! Methods and properties. -/

@[reducible] def M.radius : ℕ := 0
@[reducible] def M.radius__set : ℕ := 1
@[reducible] def M.array_moments : ℕ := 2
@[reducible] def M.compute_spatial_distrib : ℕ := 3
@[reducible] def M.mean_array : ℕ := 4
@[reducible] def M.variance_array : ℕ := 5
@[reducible] def M.skewness_array : ℕ := 6
@[reducible] def M.kurtosis_array : ℕ := 7
@[reducible] def M.mean_extrema : ℕ := 8
@[reducible] def M.variance_extrema : ℕ := 9
@[reducible] def M.skewness_extrema : ℕ := 10
@[reducible] def M.kurtosis_extrema : ℕ := 11
@[reducible] def M.make_spatial_histograms : ℕ := 12
@[reducible] def M.mean_hist : ℕ := 13
@[reducible] def M.variance_hist : ℕ := 14
@[reducible] def M.skewness_hist : ℕ := 15
@[reducible] def M.kurtosis_hist : ℕ := 16
@[reducible] def M.plot_histograms : ℕ := 17
@[reducible] def M.plot_maps : ℕ := 18
@[reducible] def M.run : ℕ := 19
@[reducible] def M.load_beam : ℕ := 20
@[reducible] def M.input_data_header : ℕ := 21

/-! Facts about arguments that the methods test (`x_is_None`: `x is None`). -/

@[reducible] def O.weights_is_None : ℕ := 0
@[reducible] def O.distance_is_None : ℕ := 1
@[reducible] def O.nbins_is_None : ℕ := 2
@[reducible] def O.radius_is_None : ℕ := 3
@[reducible] def O.periodic : ℕ := 4
@[reducible] def O.mean_bins_is_None : ℕ := 5
@[reducible] def O.variance_bins_is_None : ℕ := 6
@[reducible] def O.skewness_bins_is_None : ℕ := 7
@[reducible] def O.kurtosis_bins_is_None : ℕ := 8
@[reducible] def O.verbose : ℕ := 9

/-- turbustat/statistics/stat_moments/highstatmoments.py:45-66 -/
def body.init : Cmd :=
  block [
  /- 47 -/ .may,
  /- 49 -/ .call M.input_data_header, .may,
  /- 51 -/ .opt O.weights_is_None (block [
    /- 52 -/ .get A._data, .may, .put A.weights]) (block [
    /- 54 -/ .may, .put A.weights]),
  /- 56 -/ .opt O.distance_is_None (.skip) (block [
    /- 57 -/ .opt O.distance_is_None (block [
      /- 57 -/ .may, .put A._distance]) (block [
      /- 57 -/ .may, .put A._distance])]),
  /- 59 -/ .call M.radius__set,
  /- 61 -/ .opt O.nbins_is_None (block [
    /- 62 -/ .get A._data, .may, .put A.nbins]) (.opt O.nbins_is_None (.putNone A.nbins) (.put A.nbins)),
  /- 66 -/ .get A.nbins, .may, .put A.nbins]

/-- turbustat/statistics/stat_moments/highstatmoments.py:69-70 -/
def body.radius : Cmd :=
  block [
  /- 70 -/ .get A._radius, .ret]

/-- turbustat/statistics/stat_moments/highstatmoments.py:73-94 -/
def body.radius__set : Cmd :=
  block [
  /- 75 -/ .may, .br (.skip) (.raise),
  /- 79 -/ .tryC (.may) (.raise),
  /- 85 -/ .may, .br (.raise) (.skip),
  /- 90 -/ .get A._data, .may, .br (.raise) (.skip),
  /- 94 -/ .put A._radius]

/-- turbustat/statistics/stat_moments/highstatmoments.py:96-101 -/
def body.array_moments : Cmd :=
  block [
  /- 100 -/ .get A._data, .get A.weights, .may, .put A.mean, .put A.variance,
  /- 100 -/ .put A.skewness, .put A.kurtosis]

/-- turbustat/statistics/stat_moments/highstatmoments.py:103-186 -/
def body.compute_spatial_distrib : Cmd :=
  block [
  /- 123 -/ .may, .br (.raise) (.skip),
  /- 127 -/ .get A._data, .may, .put A._mean_array,
  /- 128 -/ .get A._data, .may, .put A._variance_array,
  /- 129 -/ .get A._data, .may, .put A._skewness_array,
  /- 130 -/ .get A._data, .may, .put A._kurtosis_array,
  /- 133 -/ .opt O.radius_is_None (.skip) (.call M.radius__set),
  /- 138 -/ .may, .get A._radius, .may,
  /- 140 -/ .opt O.periodic (block [
    /- 141 -/ .get A._data, .may,
    /- 142 -/ .get A.weights, .may]) (block [
    /- 144 -/ .get A._data, .may,
    /- 145 -/ .get A.weights, .may]),
  /- 147 -/ .may,
  /- 157 -/ .loop (block [
    /- 158 -/ .may,
    /- 168 -/ .br (block [
      /- 169 -/ .may, .get A._mean_array, .may,
      /- 170 -/ .get A._variance_array, .may,
      /- 171 -/ .get A._skewness_array, .may,
      /- 172 -/ .get A._kurtosis_array, .may]) (block [
      /- 175 -/ .may,
      /- 180 -/ .get A._mean_array, .may,
      /- 181 -/ .get A._variance_array, .may,
      /- 182 -/ .get A._skewness_array, .may,
      /- 183 -/ .get A._kurtosis_array, .may]),
    /- 185 -/ .may])]

/-- turbustat/statistics/stat_moments/highstatmoments.py:189-193 -/
def body.mean_array : Cmd :=
  block [
  /- 193 -/ .get A._mean_array, .ret]

/-- turbustat/statistics/stat_moments/highstatmoments.py:196-200 -/
def body.variance_array : Cmd :=
  block [
  /- 200 -/ .get A._variance_array, .ret]

/-- turbustat/statistics/stat_moments/highstatmoments.py:203-207 -/
def body.skewness_array : Cmd :=
  block [
  /- 207 -/ .get A._skewness_array, .ret]

/-- turbustat/statistics/stat_moments/highstatmoments.py:210-214 -/
def body.kurtosis_array : Cmd :=
  block [
  /- 214 -/ .get A._kurtosis_array, .ret]

/-- turbustat/statistics/stat_moments/highstatmoments.py:217-221 -/
def body.mean_extrema : Cmd :=
  block [
  /- 221 -/ .get A._mean_array, .may, .ret]

/-- turbustat/statistics/stat_moments/highstatmoments.py:224-228 -/
def body.variance_extrema : Cmd :=
  block [
  /- 228 -/ .get A._variance_array, .may, .ret]

/-- turbustat/statistics/stat_moments/highstatmoments.py:231-235 -/
def body.skewness_extrema : Cmd :=
  block [
  /- 235 -/ .get A._skewness_array, .may, .ret]

/-- turbustat/statistics/stat_moments/highstatmoments.py:238-242 -/
def body.kurtosis_extrema : Cmd :=
  block [
  /- 242 -/ .get A._kurtosis_array, .may, .ret]

/-- turbustat/statistics/stat_moments/highstatmoments.py:244-297 -/
def body.make_spatial_histograms : Cmd :=
  block [
  /- 265 -/ .opt O.mean_bins_is_None (block [
    /- 266 -/ .get A.nbins, .may]) (.skip),
  /- 267 -/ .get A._mean_array, .may,
  /- 271 -/ .put A._mean_hist,
  /- 274 -/ .opt O.variance_bins_is_None (block [
    /- 275 -/ .get A.nbins, .may]) (.skip),
  /- 276 -/ .get A._variance_array, .may,
  /- 280 -/ .put A._variance_hist,
  /- 283 -/ .opt O.skewness_bins_is_None (block [
    /- 284 -/ .get A.nbins, .may]) (.skip),
  /- 285 -/ .get A._skewness_array, .may,
  /- 289 -/ .put A._skewness_hist,
  /- 291 -/ .opt O.kurtosis_bins_is_None (block [
    /- 292 -/ .get A.nbins, .may]) (.skip),
  /- 293 -/ .get A._kurtosis_array, .may,
  /- 297 -/ .put A._kurtosis_hist]

/-- turbustat/statistics/stat_moments/highstatmoments.py:300-305 -/
def body.mean_hist : Cmd :=
  block [
  /- 305 -/ .get A._mean_hist, .ret]

/-- turbustat/statistics/stat_moments/highstatmoments.py:308-313 -/
def body.variance_hist : Cmd :=
  block [
  /- 313 -/ .get A._variance_hist, .ret]

/-- turbustat/statistics/stat_moments/highstatmoments.py:316-321 -/
def body.skewness_hist : Cmd :=
  block [
  /- 321 -/ .get A._skewness_hist, .ret]

/-- turbustat/statistics/stat_moments/highstatmoments.py:324-329 -/
def body.kurtosis_hist : Cmd :=
  block [
  /- 329 -/ .get A._kurtosis_hist, .ret]

/-- turbustat/statistics/stat_moments/highstatmoments.py:331-395 -/
def body.plot_histograms : Cmd :=
  block [
  /- 344 -/ .ifHas A._mean_hist (.skip) (.raise),
  /- 348 -/ .may,
  /- 356 -/ .get A._mean_hist, .may,
  /- 365 -/ .get A._variance_hist, .may,
  /- 373 -/ .get A._skewness_hist, .may,
  /- 382 -/ .get A._kurtosis_hist, .may]

/-- turbustat/statistics/stat_moments/highstatmoments.py:397-444 -/
def body.plot_maps : Cmd :=
  block [
  /- 411 -/ .may,
  /- 414 -/ .get A._mean_array, .may,
  /- 418 -/ .get A._data, .may,
  /- 420 -/ .get A._variance_array, .may,
  /- 426 -/ .get A._skewness_array, .may,
  /- 432 -/ .get A._kurtosis_array, .may,
  /- 436 -/ .get A._data, .may]

/-- turbustat/statistics/stat_moments/highstatmoments.py:446-478 -/
def body.run : Cmd :=
  block [
  /- 470 -/ .may, .call M.array_moments, .may,
  /- 471 -/ .call M.compute_spatial_distrib, .may,
  /- 473 -/ .call M.make_spatial_histograms, .may,
  /- 475 -/ .opt O.verbose (block [
    /- 476 -/ .may, .call M.plot_maps, .may]) (.skip),
  /- 478 -/ .ret]

/-- turbustat/statistics/base_statistic.py:50-73 -/
def body.load_beam : Cmd :=
  .br (.ifHas A._header (block [/- 63 -/ .tryC (block [.may, .get A._header, .put A._beam]) .may]) .may) (block [/- 71 -/ .br .raise .skip, /- 73 -/ .put A._beam])

/-- turbustat/statistics/base_statistic.py:104-126 -/
def body.input_data_header : Cmd :=
  .br (block [/- 110 -/ .may, .put A._data, /- 112 -/ .may, .put A._header]) (block [/- 121 -/ .br .raise .skip, /- 125 -/ .may, .put A._data, .put A._header])

/-- The methods in the order of their numbers. -/
def methods : List Cmd := [
  body.radius,
  body.radius__set,
  body.array_moments,
  body.compute_spatial_distrib,
  body.mean_array,
  body.variance_array,
  body.skewness_array,
  body.kurtosis_array,
  body.mean_extrema,
  body.variance_extrema,
  body.skewness_extrema,
  body.kurtosis_extrema,
  body.make_spatial_histograms,
  body.mean_hist,
  body.variance_hist,
  body.skewness_hist,
  body.kurtosis_hist,
  body.plot_histograms,
  body.plot_maps,
  body.run,
  body.load_beam,
  body.input_data_header]

/-- turbustat/statistics/stat_moments/highstatmoments.py:17-478 -/
def cls : Cls := ⟨body.init, methods⟩

end StatMoments

namespace Genus

/-! Attributes of `Genus` (turbustat/statistics/genus/genus.py:17). -/

@[reducible] def A._data : ℕ := 0
@[reducible] def A._header : ℕ := 1
@[reducible] def A._distance : ℕ := 2
@[reducible] def A._thresholds : ℕ := 3
@[reducible] def A._enable_smoothing : ℕ := 4
@[reducible] def A._smoothing_radii : ℕ := 5
@[reducible] def A._smoothed_images : ℕ := 6
@[reducible] def A._smoothed_means : ℕ := 7
@[reducible] def A._smoothed_stds : ℕ := 8
@[reducible] def A._genus_stats : ℕ := 9
@[reducible] def A._beam : ℕ := 10

/-! Methods and properties. -/

@[reducible] def M.thresholds : ℕ := 0
@[reducible] def M.smoothing_radii : ℕ := 1
@[reducible] def M.smoothing_radii__set : ℕ := 2
@[reducible] def M.smoothed_images : ℕ := 3
@[reducible] def M.smoothed_means : ℕ := 4
@[reducible] def M.smoothed_stds : ℕ := 5
@[reducible] def M.make_genus_curve : ℕ := 6
@[reducible] def M.genus_stats : ℕ := 7
@[reducible] def M.make_genus_stats_table : ℕ := 8
@[reducible] def M.plot_fit : ℕ := 9
@[reducible] def M.run : ℕ := 10
@[reducible] def M.load_beam : ℕ := 11
@[reducible] def M.input_data_header : ℕ := 12

/-! Facts about arguments that the methods test (`x_is_None`: `x is None`). -/

@[reducible] def O.distance_is_None : ℕ := 0
@[reducible] def O.min_value_is_None : ℕ := 1
@[reducible] def O.max_value_is_None : ℕ := 2
@[reducible] def O.thresholds_is_None : ℕ := 3
@[reducible] def O.smoothing_radii_is_None : ℕ := 4
@[reducible] def O.enable_smoothing : ℕ := 5
@[reducible] def O.keep_smoothed_images : ℕ := 6
@[reducible] def O.use_beam : ℕ := 7
@[reducible] def O.match_kernel : ℕ := 8
@[reducible] def O.standardize : ℕ := 9
@[reducible] def O.verbose : ℕ := 10

/-- turbustat/statistics/genus/genus.py:75-168 -/
def body.init : Cmd :=
  block [
  /- 81 -/ .may,
  /- 83 -/ .br (block [
    /- 85 -/ .may, .put A._data,
    /- 86 -/ .may, .put A._header]) (block [
    /- 89 -/ .may, .put A._data, .may, .put A._header]),
  /- 91 -/ .opt O.distance_is_None (.skip) (block [
    /- 92 -/ .opt O.distance_is_None (block [
      /- 92 -/ .may, .put A._distance]) (block [
      /- 92 -/ .may, .put A._distance])]),
  /- 94 -/ .opt O.thresholds_is_None (block [
    /- 113 -/ .opt O.min_value_is_None (block [
      /- 115 -/ .may,
      /- 115 -/ .br (block [
        /- 116 -/ .get A._data, .may]) (block [
        /- 118 -/ .get A._data, .may]),
      /- 120 -/ .may,
      /- 120 -/ .br (.skip) (block [
        /- 120 -/ .get A._data, .may,
        /- 120 -/ .br (block [
          /- 121 -/ .get A._data, .may]) (.skip)])]) (.skip),
    /- 123 -/ .get A._data, .may,
    /- 123 -/ .br (block [
      /- 124 -/ .may, .br (.skip) (.raise),
      /- 128 -/ .get A._data, .may, .br (.skip) (.raise),
      /- 132 -/ .get A._data, .may]) (.skip),
    /- 134 -/ .opt O.max_value_is_None (block [
      /- 136 -/ .may,
      /- 136 -/ .br (block [
        /- 137 -/ .get A._data, .may]) (block [
        /- 139 -/ .get A._data, .may]),
      /- 141 -/ .may,
      /- 141 -/ .br (.skip) (block [
        /- 141 -/ .get A._data, .may,
        /- 141 -/ .br (block [
          /- 142 -/ .get A._data, .may]) (.skip)])]) (.skip),
    /- 144 -/ .may,
    /- 144 -/ .br (block [
      /- 144 -/ .get A._data, .may,
      /- 144 -/ .br (block [
        /- 145 -/ .may, .br (.skip) (.raise),
        /- 149 -/ .get A._data, .may, .br (.skip) (.raise),
        /- 153 -/ .get A._data, .may]) (.skip)]) (.skip),
    /- 155 -/ .may, .put A._thresholds]) (block [
    /- 96 -/ .get A._data, .may,
    /- 96 -/ .br (block [
      /- 97 -/ .may, .br (.skip) (.raise),
      /- 101 -/ .get A._data, .may, .br (.skip) (.raise),
      /- 105 -/ .get A._data, .may]) (.skip),
    /- 109 -/ .put A._thresholds]),
  /- 157 -/ .put A._enable_smoothing,
  /- 159 -/ .opt O.enable_smoothing (block [
    /- 160 -/ .opt O.smoothing_radii_is_None (block [
      /- 161 -/ .may, .call M.smoothing_radii__set]) (block [
      /- 163 -/ .may,
      /- 163 -/ .br (block [
        /- 164 -/ .may, .call M.smoothing_radii__set]) (.call M.smoothing_radii__set)])]) (.call M.smoothing_radii__set)]

/-- turbustat/statistics/genus/genus.py:171-175 -/
def body.thresholds : Cmd :=
  block [
  /- 175 -/ .get A._thresholds, .ret]

/-- turbustat/statistics/genus/genus.py:178-182 -/
def body.smoothing_radii : Cmd :=
  block [
  /- 182 -/ .get A._smoothing_radii, .ret]

/-- turbustat/statistics/genus/genus.py:185-201 -/
def body.smoothing_radii__set : Cmd :=
  block [
  /- 188 -/ .get A._enable_smoothing, .may,
  /- 188 -/ .br (block [
    /- 190 -/ .may, .br (.raise) (.skip),
    /- 194 -/ .get A._data, .may, .br (.raise) (.skip),
    /- 198 -/ .put A._smoothing_radii]) (.put A._smoothing_radii)]

/-- turbustat/statistics/genus/genus.py:205-214 -/
def body.smoothed_images : Cmd :=
  block [
  /- 210 -/ .ifHas A._smoothed_images (.skip) (.raise),
  /- 214 -/ .get A._smoothed_images, .ret]

/-- turbustat/statistics/genus/genus.py:217-222 -/
def body.smoothed_means : Cmd :=
  block [
  /- 222 -/ .get A._smoothed_means, .ret]

/-- turbustat/statistics/genus/genus.py:225-230 -/
def body.smoothed_stds : Cmd :=
  block [
  /- 230 -/ .get A._smoothed_stds, .ret]

/-- turbustat/statistics/genus/genus.py:233-340 -/
def body.make_genus_curve : Cmd :=
  block [
  /- 268 -/ .opt O.keep_smoothed_images (.putNone A._smoothed_images) (.skip),
  /- 271 -/ .opt O.use_beam (block [
    /- 272 -/ .get A._header, .may]) (.may),
  /- 287 -/ .get A._smoothing_radii, .get A._thresholds, .may, .put A._genus_stats,
  /- 290 -/ .get A._smoothing_radii, .may, .put A._smoothed_means,
  /- 291 -/ .get A._smoothing_radii, .may, .put A._smoothed_stds,
  /- 293 -/ .get A._data, .may,
  /- 293 -/ .br (block [
    /- 294 -/ .get A._smoothed_means, .get A._data, .may, .put A._smoothed_means,
    /- 295 -/ .get A._smoothed_stds, .get A._data, .may, .put A._smoothed_stds]) (.skip),
  /- 297 -/ .may,
  /- 299 -/ .get A._smoothing_radii, .may,
  /- 299 -/ .loop (block [
    /- 302 -/ .may,
    /- 302 -/ .br (block [
      /- 304 -/ .get A._data, .may]) (block [
      /- 307 -/ .opt O.match_kernel (block [
        /- 308 -/ .get A._data, .may]) (.may),
      /- 314 -/ .get A._data, .may]),
    /- 317 -/ .may, .get A._smoothed_means, .may,
    /- 318 -/ .get A._smoothed_stds, .may,
    /- 320 -/ .opt O.keep_smoothed_images (block [
      /- 321 -/ .get A._smoothed_images, .may]) (.skip),
    /- 323 -/ .get A._thresholds, .may,
    /- 323 -/ .loop (block [
      /- 324 -/ .may,
      /- 340 -/ .get A._genus_stats, .may])])]

/-- turbustat/statistics/genus/genus.py:343-348 -/
def body.genus_stats : Cmd :=
  block [
  /- 348 -/ .get A._genus_stats, .ret]

/-- turbustat/statistics/genus/genus.py:350-393 -/
def body.make_genus_stats_table : Cmd :=
  block [
  /- 355 -/ .may,
  /- 359 -/ .get A._smoothing_radii, .may,
  /- 359 -/ .loop (block [
    /- 361 -/ .may,
    /- 362 -/ .get A._thresholds, .may,
    /- 363 -/ .get A._genus_stats, .may,
    /- 365 -/ .get A._smoothed_means, .may,
    /- 366 -/ .br (block [
      /- 367 -/ .get A._thresholds, .may]) (block [
      /- 369 -/ .get A._thresholds, .may]),
    /- 371 -/ .may,
    /- 373 -/ .get A._smoothed_stds, .may,
    /- 374 -/ .br (block [
      /- 375 -/ .get A._thresholds, .may]) (block [
      /- 377 -/ .get A._thresholds, .may]),
    /- 379 -/ .may,
    /- 383 -/ .br (block [
      /- 384 -/ .get A._thresholds, .may]) (block [
      /- 386 -/ .get A._thresholds, .may]),
    /- 388 -/ .may]),
  /- 393 -/ .ret]

/-- turbustat/statistics/genus/genus.py:395-454 -/
def body.plot_fit : Cmd :=
  block [
  /- 408 -/ .may,
  /- 410 -/ .get A._smoothing_radii, .may,
  /- 413 -/ .loop (block [
    /- 414 -/ .may,
    /- 419 -/ .get A._smoothing_radii, .may,
    /- 419 -/ .br (block [
      /- 420 -/ .get A._smoothing_radii, .may]) (.skip),
    /- 424 -/ .may,
    /- 428 -/ .opt O.standardize (block [
      /- 429 -/ .get A._thresholds, .get A._smoothed_means, .get A._smoothed_stds, .may]) (block [
      /- 431 -/ .get A._thresholds, .may]),
    /- 433 -/ .get A._genus_stats, .may]),
  /- 448 -/ .may]

/-- turbustat/statistics/genus/genus.py:456-479 -/
def body.run : Cmd :=
  block [
  /- 473 -/ .may, .call M.make_genus_curve, .may,
  /- 475 -/ .opt O.verbose (block [
    /- 476 -/ .may, .call M.plot_fit, .may]) (.skip),
  /- 479 -/ .ret]

/-- turbustat/statistics/base_statistic.py:50-73 -/
def body.load_beam : Cmd :=
  .br (.ifHas A._header (block [/- 63 -/ .tryC (block [.may, .get A._header, .put A._beam]) .may]) .may) (block [/- 71 -/ .br .raise .skip, /- 73 -/ .put A._beam])

/-- turbustat/statistics/base_statistic.py:104-126 -/
def body.input_data_header : Cmd :=
  .br (block [/- 110 -/ .may, .put A._data, /- 112 -/ .may, .put A._header]) (block [/- 121 -/ .br .raise .skip, /- 125 -/ .may, .put A._data, .put A._header])

/-- The methods in the order of their numbers. -/
def methods : List Cmd := [
  body.thresholds,
  body.smoothing_radii,
  body.smoothing_radii__set,
  body.smoothed_images,
  body.smoothed_means,
  body.smoothed_stds,
  body.make_genus_curve,
  body.genus_stats,
  body.make_genus_stats_table,
  body.plot_fit,
  body.run,
  body.load_beam,
  body.input_data_header]

/-- turbustat/statistics/genus/genus.py:17-479 -/
def cls : Cls := ⟨body.init, methods⟩

end Genus

namespace Dendrogram_Stats

/-! Attributes of `Dendrogram_Stats` (turbustat/statistics/dendrograms/dendro_stats.py:34). -/

@[reducible] def A.dendro_params : ℕ := 0
@[reducible] def A._min_deltas : ℕ := 1
@[reducible] def A._data : ℕ := 2
@[reducible] def A._numfeatures : ℕ := 3
@[reducible] def A._values : ℕ := 4
@[reducible] def A._hists : ℕ := 5
@[reducible] def A.break_pos : ℕ := 6
@[reducible] def A._fitvals : ℕ := 7
@[reducible] def A._model : ℕ := 8
@[reducible] def A._tail_slope : ℕ := 9
@[reducible] def A._tail_slope_err : ℕ := 10
@[reducible] def A._header : ℕ := 11
@[reducible] def A._beam : ℕ := 12

/-! Methods and properties. -/

@[reducible] def M.min_deltas : ℕ := 0
@[reducible] def M.min_deltas__set : ℕ := 1
@[reducible] def M.autoset_min_deltas : ℕ := 2
@[reducible] def M.compute_dendro : ℕ := 3
@[reducible] def M.numfeatures : ℕ := 4
@[reducible] def M.values : ℕ := 5
@[reducible] def M.make_hists : ℕ := 6
@[reducible] def M.hists : ℕ := 7
@[reducible] def M.fit_numfeat : ℕ := 8
@[reducible] def M.model : ℕ := 9
@[reducible] def M.fitvals : ℕ := 10
@[reducible] def M.tail_slope : ℕ := 11
@[reducible] def M.tail_slope_err : ℕ := 12
@[reducible] def M.plot_fit : ℕ := 13
@[reducible] def M.run : ℕ := 14
@[reducible] def M.load_beam : ℕ := 15
@[reducible] def M.input_data_header : ℕ := 16

/-! Facts about arguments that the methods test (`x_is_None`: `x is None`). -/

@[reducible] def O.dendro_params_is_None : ℕ := 0
@[reducible] def O.value_is_None : ℕ := 1
@[reducible] def O.periodic_bounds : ℕ := 2
@[reducible] def O.dendro_obj_is_None : ℕ := 3
@[reducible] def O.show_progress : ℕ := 4
@[reducible] def O.verbose : ℕ := 5
@[reducible] def O.show_hists : ℕ := 6
@[reducible] def O.make_hists : ℕ := 7

/-- turbustat/statistics/dendrograms/dendro_stats.py:61-84 -/
def body.init : Cmd :=
  block [
  /- 63 -/ .may,
  /- 65 -/ .br (.skip) (.raise),
  /- 69 -/ .may, .call M.input_data_header, .may,
  /- 71 -/ .opt O.dendro_params_is_None (.put A.dendro_params) (.opt O.dendro_params_is_None (.putNone A.dendro_params) (.put A.dendro_params)),
  /- 78 -/ .may,
  /- 78 -/ .br (block [
    /- 79 -/ .may,
    /- 79 -/ .br (block [
      /- 80 -/ .may, .call M.autoset_min_deltas, .may]) (.raise)]) (.call M.min_deltas__set)]

/-- turbustat/statistics/dendrograms/dendro_stats.py:87-91 -/
def body.min_deltas : Cmd :=
  block [
  /- 91 -/ .get A._min_deltas, .ret]

/-- turbustat/statistics/dendrograms/dendro_stats.py:94-107 -/
def body.min_deltas__set : Cmd :=
  block [
  /- 96 -/ .get A.dendro_params, .may,
  /- 96 -/ .br (block [
    /- 96 -/ .opt O.value_is_None (block [
      /- 97 -/ .get A.dendro_params, .may, .put A._min_deltas]) (block [
      /- 100 -/ .may, .br (.skip) (.raise),
      /- 104 -/ .may,
      /- 104 -/ .br (.put A._min_deltas) (block [
        /- 105 -/ .may, .put A._min_deltas])])]) (block [
    /- 100 -/ .may, .br (.skip) (.raise),
    /- 104 -/ .may,
    /- 104 -/ .br (.put A._min_deltas) (block [
      /- 105 -/ .may, .put A._min_deltas])])]

/-- turbustat/statistics/dendrograms/dendro_stats.py:109-129 -/
def body.autoset_min_deltas : Cmd :=
  block [
  /- 122 -/ .get A.dendro_params, .may,
  /- 127 -/ .get A._data, .may,
  /- 129 -/ .call M.min_deltas__set]

/-- turbustat/statistics/dendrograms/dendro_stats.py:131-194 -/
def body.compute_dendro : Cmd :=
  block [
  /- 154 -/ .get A._min_deltas, .may, .put A._numfeatures,
  /- 155 -/ .putNone A._values,
  /- 157 -/ .opt O.dendro_obj_is_None (block [
    /- 158 -/ .opt O.periodic_bounds (block [
      /- 160 -/ .get A._data, .may]) (.skip),
    /- 169 -/ .get A._data, .get A._min_deltas, .get A.dendro_params, .may]) (.skip),
  /- 176 -/ .may, .get A._numfeatures, .may,
  /- 177 -/ .get A._values, .may,
  /- 180 -/ .get A._min_deltas, .may,
  /- 180 -/ .br (block [
    /- 183 -/ .opt O.show_progress (block [
      /- 184 -/ .may,
      /- 185 -/ .get A._min_deltas, .may]) (.skip),
    /- 187 -/ .get A._min_deltas, .may,
    /- 187 -/ .loop (block [
      /- 188 -/ .may,
      /- 189 -/ .get A._numfeatures, .may,
      /- 190 -/ .get A._values, .may])]) (.skip)]

/-- turbustat/statistics/dendrograms/dendro_stats.py:197-201 -/
def body.numfeatures : Cmd :=
  block [
  /- 201 -/ .get A._numfeatures, .ret]

/-- turbustat/statistics/dendrograms/dendro_stats.py:204-209 -/
def body.values : Cmd :=
  block [
  /- 209 -/ .get A._values, .ret]

/-- turbustat/statistics/dendrograms/dendro_stats.py:211-241 -/
def body.make_hists : Cmd :=
  block [
  /- 225 -/ .get A._values, .may,
  /- 225 -/ .loop (block [
    /- 227 -/ .may,
    /- 227 -/ .br (block [
      /- 228 -/ .may,
      /- 229 -/ .stop]) (.skip),
    /- 231 -/ .may]),
  /- 241 -/ .put A._hists]

/-- turbustat/statistics/dendrograms/dendro_stats.py:244-250 -/
def body.hists : Cmd :=
  block [
  /- 250 -/ .get A._hists, .ret]

/-- turbustat/statistics/dendrograms/dendro_stats.py:252-296 -/
def body.fit_numfeat : Cmd :=
  block [
  /- 266 -/ .get A._numfeatures, .may, .br (.raise) (.skip),
  /- 270 -/ .get A._numfeatures, .may,
  /- 271 -/ .get A._min_deltas, .may,
  /- 275 -/ .put A.break_pos,
  /- 278 -/ .may, .br (.raise) (.skip),
  /- 283 -/ .may, .put A._fitvals,
  /- 286 -/ .get A._fitvals, .may,
  /- 288 -/ .put A._model,
  /- 290 -/ .opt O.verbose (block [
    /- 291 -/ .get A._model, .may]) (.skip),
  /- 293 -/ .get A._model, .may,
  /- 295 -/ .put A._tail_slope,
  /- 296 -/ .may, .put A._tail_slope_err]

/-- turbustat/statistics/dendrograms/dendro_stats.py:299-303 -/
def body.model : Cmd :=
  block [
  /- 303 -/ .get A._model, .ret]

/-- turbustat/statistics/dendrograms/dendro_stats.py:306-311 -/
def body.fitvals : Cmd :=
  block [
  /- 311 -/ .get A._fitvals, .ret]

/-- turbustat/statistics/dendrograms/dendro_stats.py:314-318 -/
def body.tail_slope : Cmd :=
  block [
  /- 318 -/ .get A._tail_slope, .ret]

/-- turbustat/statistics/dendrograms/dendro_stats.py:321-325 -/
def body.tail_slope_err : Cmd :=
  block [
  /- 325 -/ .get A._tail_slope_err, .ret]

/-- turbustat/statistics/dendrograms/dendro_stats.py:347-404 -/
def body.plot_fit : Cmd :=
  block [
  /- 367 -/ .may,
  /- 377 -/ .get A._fitvals, .may,
  /- 378 -/ .get A._model, .may,
  /- 382 -/ .opt O.show_hists (block [
    /- 383 -/ .may,
    /- 385 -/ .ifHas A._hists (.skip) (.raise),
    /- 389 -/ .get A._hists, .may,
    /- 389 -/ .loop (block [
      /- 390 -/ .may, .br (.stop) (.skip),
      /- 392 -/ .may])]) (.skip),
  /- 398 -/ .may]

/-- turbustat/statistics/dendrograms/dendro_stats.py:406-452 -/
def body.run : Cmd :=
  block [
  /- 441 -/ .may, .call M.compute_dendro, .may,
  /- 443 -/ .call M.fit_numfeat, .may,
  /- 445 -/ .opt O.make_hists (block [
    /- 446 -/ .may, .call M.make_hists, .may]) (.skip),
  /- 448 -/ .opt O.verbose (block [
    /- 449 -/ .may, .call M.plot_fit, .may]) (.skip),
  /- 451 -/ .may]

/-- turbustat/statistics/base_statistic.py:50-73 -/
def body.load_beam : Cmd :=
  .br (.ifHas A._header (block [/- 63 -/ .tryC (block [.may, .get A._header, .put A._beam]) .may]) .may) (block [/- 71 -/ .br .raise .skip, /- 73 -/ .put A._beam])

/-- turbustat/statistics/base_statistic.py:104-126 -/
def body.input_data_header : Cmd :=
  .br (block [/- 110 -/ .may, .put A._data, /- 112 -/ .may, .put A._header]) (block [/- 121 -/ .br .raise .skip, /- 125 -/ .may, .put A._data, .put A._header])

/-- The methods in the order of their numbers. -/
def methods : List Cmd := [
  body.min_deltas,
  body.min_deltas__set,
  body.autoset_min_deltas,
  body.compute_dendro,
  body.numfeatures,
  body.values,
  body.make_hists,
  body.hists,
  body.fit_numfeat,
  body.model,
  body.fitvals,
  body.tail_slope,
  body.tail_slope_err,
  body.plot_fit,
  body.run,
  body.load_beam,
  body.input_data_header]

/-- turbustat/statistics/dendrograms/dendro_stats.py:34-452 -/
def cls : Cls := ⟨body.init, methods⟩

end Dendrogram_Stats

namespace Bispectrum

/-! Attributes of `Bispectrum` (turbustat/statistics/pspec_bispec/bispec.py:24). -/

@[reducible] def A._header : ℕ := 0
@[reducible] def A._data : ℕ := 1
@[reducible] def A.shape : ℕ := 2
@[reducible] def A._bispectrum : ℕ := 3
@[reducible] def A._bicoherence : ℕ := 4
@[reducible] def A._tracker : ℕ := 5
@[reducible] def A._bispectrum_amp : ℕ := 6
@[reducible] def A._beam : ℕ := 7

/-! Methods and properties. -/

@[reducible] def M.compute_bispectrum : ℕ := 0
@[reducible] def M.bispectrum : ℕ := 1
@[reducible] def M.bispectrum_logamp : ℕ := 2
@[reducible] def M.bicoherence : ℕ := 3
@[reducible] def M.tracker : ℕ := 4
@[reducible] def M.azimuthal_slice : ℕ := 5
@[reducible] def M.radial_slice : ℕ := 6
@[reducible] def M.plot_surface : ℕ := 7
@[reducible] def M.run : ℕ := 8
@[reducible] def M.load_beam : ℕ := 9
@[reducible] def M.input_data_header : ℕ := 10

/-! Facts about arguments that the methods test (`x_is_None`: `x is None`). -/

@[reducible] def O.mean_subtract : ℕ := 0
@[reducible] def O.return_masks : ℕ := 1
@[reducible] def O.show_bicoh : ℕ := 2
@[reducible] def O.verbose : ℕ := 3

/-- turbustat/statistics/pspec_bispec/bispec.py:50-62 -/
def body.init : Cmd :=
  block [
  /- 53 -/ .may, .put A._header,
  /- 55 -/ .may, .put A._data,
  /- 56 -/ .get A._data, .may, .put A.shape,
  /- 59 -/ .get A._data, .may,
  /- 60 -/ .br (block [
    /- 61 -/ .get A._data, .may, .put A._data,
    /- 62 -/ .get A._data, .may]) (.skip)]

/-- turbustat/statistics/pspec_bispec/bispec.py:64-165 -/
def body.compute_bispectrum : Cmd :=
  block [
  /- 93 -/ .opt O.mean_subtract (block [
    /- 94 -/ .get A._data, .may]) (block [
    /- 96 -/ .get A._data, .may]),
  /- 98 -/ .may,
  /- 115 -/ .get A.shape, .may,
  /- 117 -/ .put A._bispectrum,
  /- 118 -/ .may, .put A._bicoherence,
  /- 119 -/ .get A.shape, .may, .put A._tracker,
  /- 121 -/ .get A._bispectrum, .may,
  /- 130 -/ .loop (block [
    /- 131 -/ .may,
    /- 152 -/ .get A._bispectrum, .may,
    /- 157 -/ .get A._tracker, .may]),
  /- 164 -/ .get A._bispectrum, .may, .put A._bicoherence,
  /- 165 -/ .get A._bispectrum, .may, .put A._bispectrum_amp]

/-- turbustat/statistics/pspec_bispec/bispec.py:168-172 -/
def body.bispectrum : Cmd :=
  block [
  /- 172 -/ .get A._bispectrum, .ret]

/-- turbustat/statistics/pspec_bispec/bispec.py:175-179 -/
def body.bispectrum_logamp : Cmd :=
  block [
  /- 179 -/ .get A._bispectrum_amp, .ret]

/-- turbustat/statistics/pspec_bispec/bispec.py:182-186 -/
def body.bicoherence : Cmd :=
  block [
  /- 186 -/ .get A._bicoherence, .ret]

/-- turbustat/statistics/pspec_bispec/bispec.py:189-193 -/
def body.tracker : Cmd :=
  block [
  /- 193 -/ .get A._tracker, .ret]

/-- turbustat/statistics/pspec_bispec/bispec.py:195-295 -/
def body.azimuthal_slice : Cmd :=
  block [
  /- 226 -/ .may,
  /- 226 -/ .br (block [
    /- 227 -/ .get A._bispectrum, .may]) (block [
    /- 228 -/ .may,
    /- 228 -/ .br (block [
      /- 229 -/ .get A._bispectrum_amp, .may]) (block [
      /- 230 -/ .may,
      /- 230 -/ .br (block [
        /- 231 -/ .get A._bicoherence, .may]) (.raise)])]),
  /- 237 -/ .may,
  /- 239 -/ .br (block [
    /- 240 -/ .may,
    /- 242 -/ .br (.raise) (.skip)]) (.may),
  /- 247 -/ .may,
  /- 250 -/ .br (block [
    /- 252 -/ .may, .br (.may) (.raise)]) (.raise),
  /- 257 -/ .get A._bispectrum, .may,
  /- 292 -/ .opt O.return_masks (.ret) (.skip),
  /- 295 -/ .ret]

/-- turbustat/statistics/pspec_bispec/bispec.py:297-404 -/
def body.radial_slice : Cmd :=
  block [
  /- 327 -/ .may,
  /- 327 -/ .br (block [
    /- 328 -/ .get A._bispectrum, .may]) (block [
    /- 329 -/ .may,
    /- 329 -/ .br (block [
      /- 330 -/ .get A._bispectrum_amp, .may]) (block [
      /- 331 -/ .may,
      /- 331 -/ .br (block [
        /- 332 -/ .get A._bicoherence, .may]) (.raise)])]),
  /- 338 -/ .may,
  /- 343 -/ .br (.raise) (block [
    /- 345 -/ .may, .br (.raise) (.may)]),
  /- 353 -/ .may,
  /- 353 -/ .br (block [
    /- 354 -/ .may,
    /- 356 -/ .br (.raise) (.skip)]) (.may),
  /- 363 -/ .may,
  /- 366 -/ .get A._bispectrum, .may,
  /- 401 -/ .opt O.return_masks (.ret) (.skip),
  /- 404 -/ .ret]

/-- turbustat/statistics/pspec_bispec/bispec.py:406-459 -/
def body.plot_surface : Cmd :=
  block [
  /- 423 -/ .may,
  /- 430 -/ .get A._bispectrum_amp, .may,
  /- 441 -/ .opt O.show_bicoh (block [
    /- 442 -/ .may,
    /- 443 -/ .get A._bicoherence, .may]) (.skip),
  /- 453 -/ .may]

/-- turbustat/statistics/pspec_bispec/bispec.py:461-502 -/
def body.run : Cmd :=
  block [
  /- 492 -/ .may, .call M.compute_bispectrum, .may,
  /- 499 -/ .opt O.verbose (block [
    /- 500 -/ .may, .call M.plot_surface, .may]) (.skip),
  /- 502 -/ .ret]

/-- turbustat/statistics/base_statistic.py:50-73 -/
def body.load_beam : Cmd :=
  .br (.ifHas A._header (block [/- 63 -/ .tryC (block [.may, .get A._header, .put A._beam]) .may]) .may) (block [/- 71 -/ .br .raise .skip, /- 73 -/ .put A._beam])

/-- turbustat/statistics/base_statistic.py:104-126 -/
def body.input_data_header : Cmd :=
  .br (block [/- 110 -/ .may, .put A._data, /- 112 -/ .may, .put A._header]) (block [/- 121 -/ .br .raise .skip, /- 125 -/ .may, .put A._data, .put A._header])

/-- The methods in the order of their numbers. -/
def methods : List Cmd := [
  body.compute_bispectrum,
  body.bispectrum,
  body.bispectrum_logamp,
  body.bicoherence,
  body.tracker,
  body.azimuthal_slice,
  body.radial_slice,
  body.plot_surface,
  body.run,
  body.load_beam,
  body.input_data_header]

/-- turbustat/statistics/pspec_bispec/bispec.py:24-502 -/
def cls : Cls := ⟨body.init, methods⟩

end Bispectrum

end Life
end TS
