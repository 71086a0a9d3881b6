import Verif.Model.Lifecycle

/-!
# Which attributes each method reads and stores: `PowerSpectrum`, `VCA`, `MVC`, `VCS`

Every method of these classes as a `Life.Cmd`, statement by statement; the number
in front of a statement is its line in the cited file.  Simplifications: a
property that only returns an attribute is replaced by the attribute; the unit
conversions and `save_results` of the base class are `may`; consecutive statements
that touch no attribute are one `may`; repeated reads of the same attribute with
no store in between are one read.
-/

namespace TS
namespace Life

namespace PowerSpectrum

/-! Attributes of `PowerSpectrum` (turbustat/statistics/pspec_bispec/pspec.py:17). -/

@[reducible] def A._data : ℕ := 0
@[reducible] def A.weighted_data : ℕ := 1
@[reducible] def A._ps1D_stddev : ℕ := 2
@[reducible] def A._distance : ℕ := 3
@[reducible] def A._ps2D : ℕ := 4
@[reducible] def A._ps1D : ℕ := 5
@[reducible] def A._freqs : ℕ := 6
@[reducible] def A._beam : ℕ := 7
@[reducible] def A._beam_pow : ℕ := 8
@[reducible] def A._azim_constraint_flag : ℕ := 9
@[reducible] def A._azim_mask : ℕ := 10
@[reducible] def A._bootstrap_flag : ℕ := 11
@[reducible] def A.low_cut : ℕ := 12
@[reducible] def A.high_cut : ℕ := 13
@[reducible] def A._brk : ℕ := 14
@[reducible] def A._slope : ℕ := 15
@[reducible] def A._slope_err : ℕ := 16
@[reducible] def A._brk_err : ℕ := 17
@[reducible] def A.fit : ℕ := 18
@[reducible] def A._model : ℕ := 19
@[reducible] def A.centroid : ℕ := 20
@[reducible] def A.fit2D : ℕ := 21
@[reducible] def A._fitter : ℕ := 22
@[reducible] def A._slope2D : ℕ := 23
@[reducible] def A._slope2D_err : ℕ := 24
@[reducible] def A._theta2D : ℕ := 25
@[reducible] def A._theta2D_err : ℕ := 26
@[reducible] def A._ellip2D : ℕ := 27
@[reducible] def A._ellip2D_err : ℕ := 28
@[reducible] def A._header : ℕ := 29
/-- Whether `_slope` holds an array (a value here) or a number (`None` here): not an attribute of the code, which asks
`isinstance(self.slope, np.ndarray)`.  base_pspec2.py:255, 292, 655 -/
@[reducible] def A.slope_is_array : ℕ := 30

/-! Methods and properties. -/

@[reducible] def M.ps2D : ℕ := 0
@[reducible] def M.ps1D : ℕ := 1
@[reducible] def M.ps1D_stddev : ℕ := 2
@[reducible] def M.freqs : ℕ := 3
@[reducible] def M.wavenumbers : ℕ := 4
@[reducible] def M.compute_beam_pspec : ℕ := 5
@[reducible] def M.compute_radial_pspec : ℕ := 6
@[reducible] def M.fit_pspec : ℕ := 7
@[reducible] def M.slope : ℕ := 8
@[reducible] def M.slope_err : ℕ := 9
@[reducible] def M.brk : ℕ := 10
@[reducible] def M.brk_err : ℕ := 11
@[reducible] def M.apodizing_kernel : ℕ := 12
@[reducible] def M.fit_2Dpspec : ℕ := 13
@[reducible] def M.slope2D : ℕ := 14
@[reducible] def M.slope2D_err : ℕ := 15
@[reducible] def M.theta2D : ℕ := 16
@[reducible] def M.theta2D_err : ℕ := 17
@[reducible] def M.ellip2D : ℕ := 18
@[reducible] def M.ellip2D_err : ℕ := 19
@[reducible] def M.plot_fit : ℕ := 20
@[reducible] def M.compute_pspec : ℕ := 21
@[reducible] def M.run : ℕ := 22
@[reducible] def M.load_beam : ℕ := 23
@[reducible] def M.input_data_header : ℕ := 24

/-! Facts about arguments that the methods test (`x_is_None`: `x is None`). -/

@[reducible] def O.weights_is_None : ℕ := 0
@[reducible] def O.distance_is_None : ℕ := 1
@[reducible] def O.low_cut_is_None : ℕ := 2
@[reducible] def O.high_cut_is_None : ℕ := 3
@[reducible] def O.fit_unbinned : ℕ := 4
@[reducible] def O.weighted_fit : ℕ := 5
@[reducible] def O.bootstrap : ℕ := 6
@[reducible] def O.brk_is_None : ℕ := 7
@[reducible] def O.use_azimmask : ℕ := 8
@[reducible] def O.use_wavenumber : ℕ := 9
@[reducible] def O.show_residual : ℕ := 10
@[reducible] def O.show_2D : ℕ := 11
@[reducible] def O.fillin_errs : ℕ := 12
@[reducible] def O.apodize_kernel_is_None : ℕ := 13
@[reducible] def O.beam_correct : ℕ := 14
@[reducible] def O.fit_2D : ℕ := 15
@[reducible] def O.verbose : ℕ := 16

/-- turbustat/statistics/pspec_bispec/pspec.py:38-67 -/
def body.init : Cmd :=
  block [
  /- 40 -/ .may,
  /- 44 -/ .call M.input_data_header, .may,
  /- 46 -/ .get A._data, .may,
  /- 46 -/ .br (block [
    /- 47 -/ .get A._data, .may, .put A._data,
    /- 48 -/ .get A._data, .may]) (.skip),
  /- 50 -/ .opt O.weights_is_None (block [
    /- 51 -/ .get A._data, .may]) (block [
    /- 54 -/ .get A._data, .may]),
  /- 60 -/ .get A._data, .may, .put A.weighted_data,
  /- 62 -/ .putNone A._ps1D_stddev,
  /- 64 -/ .may, .call M.load_beam, .may,
  /- 66 -/ .opt O.distance_is_None (.skip) (block [
    /- 67 -/ .opt O.distance_is_None (block [
      /- 67 -/ .may, .put A._distance]) (block [
      /- 67 -/ .may, .put A._distance])])]

/-- turbustat/statistics/base_pspec2.py:26-30 -/
def body.ps2D : Cmd :=
  block [
  /- 30 -/ .get A._ps2D, .may, .ret]

/-- turbustat/statistics/base_pspec2.py:33-37 -/
def body.ps1D : Cmd :=
  block [
  /- 37 -/ .get A._ps1D, .ret]

/-- turbustat/statistics/base_pspec2.py:40-45 -/
def body.ps1D_stddev : Cmd :=
  block [
  /- 45 -/ .get A._ps1D_stddev, .ret]

/-- turbustat/statistics/base_pspec2.py:48-52 -/
def body.freqs : Cmd :=
  block [
  /- 52 -/ .get A._freqs, .ret]

/-- turbustat/statistics/base_pspec2.py:55-56 -/
def body.wavenumbers : Cmd :=
  block [
  /- 56 -/ .get A._freqs, .get A._ps2D, .may, .ret]

/-- turbustat/statistics/base_pspec2.py:58-75 -/
def body.compute_beam_pspec : Cmd :=
  block [
  /- 62 -/ .ifHas A._beam (.skip) (.raise),
  /- 66 -/ .get A._beam, .may, .get A._ps2D, .may,
  /- 72 -/ .put A._beam_pow,
  /- 75 -/ .may, .get A._beam_pow, .may]

/-- turbustat/statistics/base_pspec2.py:77-107 -/
def body.compute_radial_pspec : Cmd :=
  block [
  /- 91 -/ .may,
  /- 96 -/ .get A._ps2D, .may,
  /- 99 -/ .put A._azim_constraint_flag,
  /- 101 -/ .br (block [
    /- 102 -/ .put A._freqs, .put A._ps1D, .put A._ps1D_stddev, .put A._azim_mask]) (block [
    /- 104 -/ .put A._freqs, .put A._ps1D, .put A._ps1D_stddev]),
  /- 107 -/ .get A._freqs, .may, .put A._freqs]

/-- turbustat/statistics/base_pspec2.py:109-300 -/
def body.fit_pspec : Cmd :=
  block [
  /- 156 -/ .put A._bootstrap_flag,
  /- 158 -/ .opt O.fit_unbinned (block [
    /- 159 -/ .get A._ps2D, .may,
    /- 164 -/ .opt O.low_cut_is_None (block [
      /- 167 -/ .get A._ps2D, .may, .put A.low_cut]) (block [
      /- 169 -/ .may, .put A.low_cut]),
    /- 171 -/ .opt O.high_cut_is_None (block [
      /- 173 -/ .may, .put A.high_cut]) (block [
      /- 175 -/ .may, .put A.high_cut]),
    /- 178 -/ .get A.low_cut, .get A.high_cut, .may,
    /- 184 -/ .get A._ps2D, .may]) (block [
    /- 188 -/ .opt O.low_cut_is_None (block [
      /- 191 -/ .get A._ps2D, .may, .put A.low_cut]) (block [
      /- 193 -/ .may, .put A.low_cut]),
    /- 195 -/ .opt O.high_cut_is_None (block [
      /- 196 -/ .get A._freqs, .may, .put A.high_cut]) (block [
      /- 198 -/ .may, .put A.high_cut]),
    /- 200 -/ .get A._freqs, .get A.low_cut, .get A.high_cut, .may,
    /- 203 -/ .get A._ps1D, .may]),
  /- 208 -/ .opt O.weighted_fit (block [
    /- 209 -/ .opt O.fit_unbinned (.raise) (.skip),
    /- 214 -/ .get A._ps1D_stddev, .get A._freqs, .get A.low_cut, .get A.high_cut,
    /- 214 -/ .may]) (.skip),
  /- 226 -/ .opt O.brk_is_None (block [
    /- 279 -/ .putNone A._brk,
    /- 280 -/ .putNone A._brk_err]) (block [
    /- 228 -/ .may,
    /- 240 -/ .br (block [
      /- 243 -/ .may,
      /- 243 -/ .br (block [
        /- 244 -/ .may,
        /- 247 -/ .putNone A._brk]) (block [
        /- 249 -/ .may,
        /- 253 -/ .put A._brk,
        /- 255 -/ .may, .put A._slope, .put A.slope_is_array,
        /- 257 -/ .opt O.bootstrap (block [
          /- 258 -/ .may,
          /- 261 -/ .put A._slope_err,
          /- 262 -/ .get A._brk, .may, .put A._brk_err]) (block [
          /- 266 -/ .may, .put A._slope_err,
          /- 267 -/ .get A._brk, .may, .put A._brk_err]),
        /- 270 -/ .may, .put A.fit,
        /- 271 -/ .put A._model])]) (block [
      /- 274 -/ .putNone A._brk,
      /- 276 -/ .may])]),
  /- 282 -/ .ifNone A._brk (block [
    /- 283 -/ .may,
    /- 290 -/ .put A.fit,
    /- 292 -/ .get A.fit, .may, .put A._slope, .putNone A.slope_is_array,
    /- 294 -/ .opt O.bootstrap (block [
      /- 295 -/ .get A.fit, .may,
      /- 297 -/ .put A._slope_err]) (block [
      /- 300 -/ .get A.fit, .may, .put A._slope_err])]) (.skip)]

/-- turbustat/statistics/base_pspec2.py:303-307 -/
def body.slope : Cmd :=
  block [
  /- 307 -/ .get A._slope, .ret]

/-- turbustat/statistics/base_pspec2.py:310-314 -/
def body.slope_err : Cmd :=
  block [
  /- 314 -/ .get A._slope_err, .ret]

/-- turbustat/statistics/base_pspec2.py:317-321 -/
def body.brk : Cmd :=
  block [
  /- 321 -/ .get A._brk, .ret]

/-- turbustat/statistics/base_pspec2.py:324-328 -/
def body.brk_err : Cmd :=
  block [
  /- 328 -/ .get A._brk_err, .ret]

/-- turbustat/statistics/base_pspec2.py:330-366 -/
def body.apodizing_kernel : Cmd :=
  block [
  /- 341 -/ .ifNone A._data (block [
    /- 345 -/ .get A.centroid, .may]) (block [
    /- 342 -/ .get A._data, .may]),
  /- 348 -/ .may,
  /- 354 -/ .br (block [
    /- 355 -/ .may, .ret]) (block [
    /- 356 -/ .may,
    /- 356 -/ .br (block [
      /- 357 -/ .may, .ret]) (block [
      /- 358 -/ .may,
      /- 358 -/ .br (block [
        /- 359 -/ .may, .ret]) (block [
        /- 360 -/ .may,
        /- 360 -/ .br (block [
          /- 361 -/ .may, .ret]) (.raise)])])]),
  /- 366 -/ .ret]

/-- turbustat/statistics/base_pspec2.py:368-486 -/
def body.fit_2Dpspec : Cmd :=
  block [
  /- 409 -/ .opt O.low_cut_is_None (block [
    /- 412 -/ .get A._ps2D, .may, .put A.low_cut]) (block [
    /- 414 -/ .may, .put A.low_cut]),
  /- 416 -/ .opt O.high_cut_is_None (block [
    /- 417 -/ .get A._freqs, .may, .put A.high_cut]) (block [
    /- 419 -/ .may, .put A.high_cut]),
  /- 421 -/ .get A._ps2D, .may,
  /- 425 -/ .get A.low_cut, .get A.high_cut, .may,
  /- 427 -/ .ifHas A._azim_mask (block [
    /- 427 -/ .opt O.use_azimmask (block [
      /- 428 -/ .get A._azim_mask, .may]) (.skip)]) (.skip),
  /- 430 -/ .may, .br (.skip) (.raise),
  /- 434 -/ .may,
  /- 434 -/ .br (block [
    /- 435 -/ .ifHas A._slope (block [
      /- 436 -/ .get A._slope, .may,
      /- 436 -/ .br (block [
        /- 437 -/ .get A._slope, .may]) (block [
        /- 439 -/ .get A._slope, .may]),
      /- 440 -/ .get A.fit, .may]) (block [
      /- 444 -/ .get A._ps2D, .may]),
    /- 447 -/ .may]) (.skip),
  /- 452 -/ .get A._ps2D, .may,
  /- 466 -/ .put A.fit2D,
  /- 467 -/ .put A._fitter,
  /- 469 -/ .may, .put A._slope2D,
  /- 470 -/ .may, .put A._slope2D_err,
  /- 472 -/ .may, .put A._theta2D,
  /- 473 -/ .may, .put A._theta2D_err,
  /- 476 -/ .may, .put A._ellip2D,
  /- 477 -/ .may, .put A._ellip2D_err,
  /- 482 -/ .get A._ellip2D, .may]

/-- turbustat/statistics/base_pspec2.py:489-493 -/
def body.slope2D : Cmd :=
  block [
  /- 493 -/ .get A._slope2D, .ret]

/-- turbustat/statistics/base_pspec2.py:496-500 -/
def body.slope2D_err : Cmd :=
  block [
  /- 500 -/ .get A._slope2D_err, .ret]

/-- turbustat/statistics/base_pspec2.py:503-507 -/
def body.theta2D : Cmd :=
  block [
  /- 507 -/ .get A._theta2D, .ret]

/-- turbustat/statistics/base_pspec2.py:510-514 -/
def body.theta2D_err : Cmd :=
  block [
  /- 514 -/ .get A._theta2D_err, .ret]

/-- turbustat/statistics/base_pspec2.py:517-521 -/
def body.ellip2D : Cmd :=
  block [
  /- 521 -/ .get A._ellip2D, .ret]

/-- turbustat/statistics/base_pspec2.py:524-528 -/
def body.ellip2D_err : Cmd :=
  block [
  /- 528 -/ .get A._ellip2D_err, .ret]

/-- turbustat/statistics/base_pspec2.py:530-766 -/
def body.plot_fit : Cmd :=
  block [
  /- 569 -/ .may,
  /- 622 -/ .opt O.show_2D (block [
    /- 623 -/ .get A._ps2D, .may,
    /- 627 -/ .get A.low_cut, .get A.high_cut, .may,
    /- 645 -/ .ifHas A.fit2D (block [
      /- 646 -/ .get A.fit2D, .may]) (.skip),
    /- 648 -/ .ifHas A._azim_mask (block [
      /- 649 -/ .get A._azim_mask, .may]) (.skip)]) (.skip),
  /- 651 -/ .get A._freqs, .get A.low_cut, .get A.high_cut, .may,
  /- 654 -/ .opt O.show_residual (block [
    /- 655 -/ .get A._slope, .may,
    /- 655 -/ .ifNone A.slope_is_array (block [
      /- 660 -/ .get A._ps1D, .get A.fit, .get A._freqs, .may]) (block [
      /- 657 -/ .get A._ps1D, .get A._model, .get A._freqs, .may])]) (.skip),
  /- 663 -/ .get A._ps1D, .may,
  /- 666 -/ .opt O.use_wavenumber (block [
    /- 667 -/ .get A._freqs, .get A._ps2D, .may]) (block [
    /- 669 -/ .get A._freqs, .may]),
  /- 671 -/ .may,
  /- 674 -/ .get A._ps1D, .get A._ps1D_stddev, .get A._freqs, .get A.high_cut, .may,
  /- 680 -/ .opt O.fillin_errs (block [
    /- 682 -/ .get A._ps1D, .may]) (block [
    /- 702 -/ .get A._ps1D, .may]),
  /- 717 -/ .may,
  /- 719 -/ .get A.fit, .may,
  /- 736 -/ .get A.low_cut, .may,
  /- 737 -/ .get A.high_cut, .may,
  /- 739 -/ .get A._ps2D, .may]

/-- turbustat/statistics/pspec_bispec/pspec.py:69-119 -/
def body.compute_pspec : Cmd :=
  block [
  /- 98 -/ .opt O.apodize_kernel_is_None (block [
    /- 104 -/ .get A.weighted_data, .may]) (block [
    /- 99 -/ .may, .call M.apodizing_kernel, .may,
    /- 102 -/ .get A.weighted_data, .may]),
  /- 106 -/ .may,
  /- 113 -/ .put A._ps2D,
  /- 115 -/ .opt O.beam_correct (block [
    /- 116 -/ .may, .call M.compute_beam_pspec, .may]) (.skip),
  /- 118 -/ .opt O.beam_correct (block [
    /- 119 -/ .get A._ps2D, .get A._beam_pow, .may, .put A._ps2D]) (.skip)]

/-- turbustat/statistics/pspec_bispec/pspec.py:121-216 -/
def body.run : Cmd :=
  block [
  /- 180 -/ .may,
  /- 187 -/ .call M.compute_pspec, .may,
  /- 193 -/ .call M.compute_radial_pspec, .may,
  /- 195 -/ .call M.fit_pspec, .may,
  /- 199 -/ .opt O.fit_2D (block [
    /- 200 -/ .may, .call M.fit_2Dpspec, .may]) (.skip),
  /- 203 -/ .opt O.verbose (block [
    /- 204 -/ .get A.fit, .may,
    /- 205 -/ .get A._bootstrap_flag, .may,
    /- 209 -/ .call M.plot_fit, .may]) (.skip),
  /- 216 -/ .ret]

/-- turbustat/statistics/base_statistic.py:50-73 -/
def body.load_beam : Cmd :=
  .br (.ifHas A._header (block [/- 63 -/ .tryC (block [.may, .get A._header, .put A._beam]) .may]) .may) (block [/- 71 -/ .br .raise .skip, /- 73 -/ .put A._beam])

/-- turbustat/statistics/base_statistic.py:104-126 -/
def body.input_data_header : Cmd :=
  .br (block [/- 110 -/ .may, .put A._data, /- 112 -/ .may, .put A._header]) (block [/- 121 -/ .br .raise .skip, /- 125 -/ .may, .put A._data, .put A._header])

/-- The methods in the order of their numbers. -/
def methods : List Cmd := [
  body.ps2D,
  body.ps1D,
  body.ps1D_stddev,
  body.freqs,
  body.wavenumbers,
  body.compute_beam_pspec,
  body.compute_radial_pspec,
  body.fit_pspec,
  body.slope,
  body.slope_err,
  body.brk,
  body.brk_err,
  body.apodizing_kernel,
  body.fit_2Dpspec,
  body.slope2D,
  body.slope2D_err,
  body.theta2D,
  body.theta2D_err,
  body.ellip2D,
  body.ellip2D_err,
  body.plot_fit,
  body.compute_pspec,
  body.run,
  body.load_beam,
  body.input_data_header]

/-- turbustat/statistics/pspec_bispec/pspec.py:17-216 -/
def cls : Cls := ⟨body.init, methods⟩

end PowerSpectrum

namespace VCA

/-! Attributes of `VCA` (turbustat/statistics/vca_vcs/vca.py:18). -/

@[reducible] def A._data : ℕ := 0
@[reducible] def A._header : ℕ := 1
@[reducible] def A._distance : ℕ := 2
@[reducible] def A._ps1D_stddev : ℕ := 3
@[reducible] def A._ps2D : ℕ := 4
@[reducible] def A._ps1D : ℕ := 5
@[reducible] def A._freqs : ℕ := 6
@[reducible] def A._beam : ℕ := 7
@[reducible] def A._beam_pow : ℕ := 8
@[reducible] def A._azim_constraint_flag : ℕ := 9
@[reducible] def A._azim_mask : ℕ := 10
@[reducible] def A._bootstrap_flag : ℕ := 11
@[reducible] def A.low_cut : ℕ := 12
@[reducible] def A.high_cut : ℕ := 13
@[reducible] def A._brk : ℕ := 14
@[reducible] def A._slope : ℕ := 15
@[reducible] def A._slope_err : ℕ := 16
@[reducible] def A._brk_err : ℕ := 17
@[reducible] def A.fit : ℕ := 18
@[reducible] def A._model : ℕ := 19
@[reducible] def A.centroid : ℕ := 20
@[reducible] def A.fit2D : ℕ := 21
@[reducible] def A._fitter : ℕ := 22
@[reducible] def A._slope2D : ℕ := 23
@[reducible] def A._slope2D_err : ℕ := 24
@[reducible] def A._theta2D : ℕ := 25
@[reducible] def A._theta2D_err : ℕ := 26
@[reducible] def A._ellip2D : ℕ := 27
@[reducible] def A._ellip2D_err : ℕ := 28
/-- Whether `_slope` holds an array (a value here) or a number (`None` here): not an attribute of the code, which asks
`isinstance(self.slope, np.ndarray)`.  base_pspec2.py:255, 292, 655 -/
@[reducible] def A.slope_is_array : ℕ := 29

/-! Methods and properties. -/

@[reducible] def M.ps2D : ℕ := 0
@[reducible] def M.ps1D : ℕ := 1
@[reducible] def M.ps1D_stddev : ℕ := 2
@[reducible] def M.freqs : ℕ := 3
@[reducible] def M.wavenumbers : ℕ := 4
@[reducible] def M.compute_beam_pspec : ℕ := 5
@[reducible] def M.compute_radial_pspec : ℕ := 6
@[reducible] def M.fit_pspec : ℕ := 7
@[reducible] def M.slope : ℕ := 8
@[reducible] def M.slope_err : ℕ := 9
@[reducible] def M.brk : ℕ := 10
@[reducible] def M.brk_err : ℕ := 11
@[reducible] def M.apodizing_kernel : ℕ := 12
@[reducible] def M.fit_2Dpspec : ℕ := 13
@[reducible] def M.slope2D : ℕ := 14
@[reducible] def M.slope2D_err : ℕ := 15
@[reducible] def M.theta2D : ℕ := 16
@[reducible] def M.theta2D_err : ℕ := 17
@[reducible] def M.ellip2D : ℕ := 18
@[reducible] def M.ellip2D_err : ℕ := 19
@[reducible] def M.plot_fit : ℕ := 20
@[reducible] def M.compute_pspec : ℕ := 21
@[reducible] def M.run : ℕ := 22
@[reducible] def M.load_beam : ℕ := 23
@[reducible] def M.input_data_header : ℕ := 24

/-! Facts about arguments that the methods test (`x_is_None`: `x is None`). -/

@[reducible] def O.channel_width_is_None : ℕ := 0
@[reducible] def O.distance_is_None : ℕ := 1
@[reducible] def O.low_cut_is_None : ℕ := 2
@[reducible] def O.high_cut_is_None : ℕ := 3
@[reducible] def O.fit_unbinned : ℕ := 4
@[reducible] def O.weighted_fit : ℕ := 5
@[reducible] def O.bootstrap : ℕ := 6
@[reducible] def O.brk_is_None : ℕ := 7
@[reducible] def O.use_azimmask : ℕ := 8
@[reducible] def O.use_wavenumber : ℕ := 9
@[reducible] def O.show_residual : ℕ := 10
@[reducible] def O.show_2D : ℕ := 11
@[reducible] def O.fillin_errs : ℕ := 12
@[reducible] def O.apodize_kernel_is_None : ℕ := 13
@[reducible] def O.beam_correct : ℕ := 14
@[reducible] def O.fit_2D : ℕ := 15
@[reducible] def O.verbose : ℕ := 16

/-- turbustat/statistics/vca_vcs/vca.py:46-72 -/
def body.init : Cmd :=
  block [
  /- 48 -/ .may,
  /- 50 -/ .call M.input_data_header, .may,
  /- 53 -/ .opt O.channel_width_is_None (.skip) (block [
    /- 54 -/ .get A._data, .get A._header, .may,
    /- 60 -/ .call M.input_data_header, .may]),
  /- 62 -/ .get A._data, .may,
  /- 63 -/ .br (block [
    /- 64 -/ .get A._data, .may, .put A._data,
    /- 65 -/ .get A._data, .may]) (.skip),
  /- 67 -/ .opt O.distance_is_None (.skip) (block [
    /- 68 -/ .opt O.distance_is_None (block [
      /- 68 -/ .may, .put A._distance]) (block [
      /- 68 -/ .may, .put A._distance])]),
  /- 70 -/ .putNone A._ps1D_stddev,
  /- 72 -/ .may, .call M.load_beam, .may]

/-- turbustat/statistics/base_pspec2.py:26-30 -/
def body.ps2D : Cmd :=
  block [
  /- 30 -/ .get A._ps2D, .may, .ret]

/-- turbustat/statistics/base_pspec2.py:33-37 -/
def body.ps1D : Cmd :=
  block [
  /- 37 -/ .get A._ps1D, .ret]

/-- turbustat/statistics/base_pspec2.py:40-45 -/
def body.ps1D_stddev : Cmd :=
  block [
  /- 45 -/ .get A._ps1D_stddev, .ret]

/-- turbustat/statistics/base_pspec2.py:48-52 -/
def body.freqs : Cmd :=
  block [
  /- 52 -/ .get A._freqs, .ret]

/-- turbustat/statistics/base_pspec2.py:55-56 -/
def body.wavenumbers : Cmd :=
  block [
  /- 56 -/ .get A._freqs, .get A._ps2D, .may, .ret]

/-- turbustat/statistics/base_pspec2.py:58-75 -/
def body.compute_beam_pspec : Cmd :=
  block [
  /- 62 -/ .ifHas A._beam (.skip) (.raise),
  /- 66 -/ .get A._beam, .may, .get A._ps2D, .may,
  /- 72 -/ .put A._beam_pow,
  /- 75 -/ .may, .get A._beam_pow, .may]

/-- turbustat/statistics/base_pspec2.py:77-107 -/
def body.compute_radial_pspec : Cmd :=
  block [
  /- 91 -/ .may,
  /- 96 -/ .get A._ps2D, .may,
  /- 99 -/ .put A._azim_constraint_flag,
  /- 101 -/ .br (block [
    /- 102 -/ .put A._freqs, .put A._ps1D, .put A._ps1D_stddev, .put A._azim_mask]) (block [
    /- 104 -/ .put A._freqs, .put A._ps1D, .put A._ps1D_stddev]),
  /- 107 -/ .get A._freqs, .may, .put A._freqs]

/-- turbustat/statistics/base_pspec2.py:109-300 -/
def body.fit_pspec : Cmd :=
  block [
  /- 156 -/ .put A._bootstrap_flag,
  /- 158 -/ .opt O.fit_unbinned (block [
    /- 159 -/ .get A._ps2D, .may,
    /- 164 -/ .opt O.low_cut_is_None (block [
      /- 167 -/ .get A._ps2D, .may, .put A.low_cut]) (block [
      /- 169 -/ .may, .put A.low_cut]),
    /- 171 -/ .opt O.high_cut_is_None (block [
      /- 173 -/ .may, .put A.high_cut]) (block [
      /- 175 -/ .may, .put A.high_cut]),
    /- 178 -/ .get A.low_cut, .get A.high_cut, .may,
    /- 184 -/ .get A._ps2D, .may]) (block [
    /- 188 -/ .opt O.low_cut_is_None (block [
      /- 191 -/ .get A._ps2D, .may, .put A.low_cut]) (block [
      /- 193 -/ .may, .put A.low_cut]),
    /- 195 -/ .opt O.high_cut_is_None (block [
      /- 196 -/ .get A._freqs, .may, .put A.high_cut]) (block [
      /- 198 -/ .may, .put A.high_cut]),
    /- 200 -/ .get A._freqs, .get A.low_cut, .get A.high_cut, .may,
    /- 203 -/ .get A._ps1D, .may]),
  /- 208 -/ .opt O.weighted_fit (block [
    /- 209 -/ .opt O.fit_unbinned (.raise) (.skip),
    /- 214 -/ .get A._ps1D_stddev, .get A._freqs, .get A.low_cut, .get A.high_cut,
    /- 214 -/ .may]) (.skip),
  /- 226 -/ .opt O.brk_is_None (block [
    /- 279 -/ .putNone A._brk,
    /- 280 -/ .putNone A._brk_err]) (block [
    /- 228 -/ .may,
    /- 240 -/ .br (block [
      /- 243 -/ .may,
      /- 243 -/ .br (block [
        /- 244 -/ .may,
        /- 247 -/ .putNone A._brk]) (block [
        /- 249 -/ .may,
        /- 253 -/ .put A._brk,
        /- 255 -/ .may, .put A._slope, .put A.slope_is_array,
        /- 257 -/ .opt O.bootstrap (block [
          /- 258 -/ .may,
          /- 261 -/ .put A._slope_err,
          /- 262 -/ .get A._brk, .may, .put A._brk_err]) (block [
          /- 266 -/ .may, .put A._slope_err,
          /- 267 -/ .get A._brk, .may, .put A._brk_err]),
        /- 270 -/ .may, .put A.fit,
        /- 271 -/ .put A._model])]) (block [
      /- 274 -/ .putNone A._brk,
      /- 276 -/ .may])]),
  /- 282 -/ .ifNone A._brk (block [
    /- 283 -/ .may,
    /- 290 -/ .put A.fit,
    /- 292 -/ .get A.fit, .may, .put A._slope, .putNone A.slope_is_array,
    /- 294 -/ .opt O.bootstrap (block [
      /- 295 -/ .get A.fit, .may,
      /- 297 -/ .put A._slope_err]) (block [
      /- 300 -/ .get A.fit, .may, .put A._slope_err])]) (.skip)]

/-- turbustat/statistics/base_pspec2.py:303-307 -/
def body.slope : Cmd :=
  block [
  /- 307 -/ .get A._slope, .ret]

/-- turbustat/statistics/base_pspec2.py:310-314 -/
def body.slope_err : Cmd :=
  block [
  /- 314 -/ .get A._slope_err, .ret]

/-- turbustat/statistics/base_pspec2.py:317-321 -/
def body.brk : Cmd :=
  block [
  /- 321 -/ .get A._brk, .ret]

/-- turbustat/statistics/base_pspec2.py:324-328 -/
def body.brk_err : Cmd :=
  block [
  /- 328 -/ .get A._brk_err, .ret]

/-- turbustat/statistics/base_pspec2.py:330-366 -/
def body.apodizing_kernel : Cmd :=
  block [
  /- 341 -/ .ifNone A._data (block [
    /- 345 -/ .get A.centroid, .may]) (block [
    /- 342 -/ .get A._data, .may]),
  /- 348 -/ .may,
  /- 354 -/ .br (block [
    /- 355 -/ .may, .ret]) (block [
    /- 356 -/ .may,
    /- 356 -/ .br (block [
      /- 357 -/ .may, .ret]) (block [
      /- 358 -/ .may,
      /- 358 -/ .br (block [
        /- 359 -/ .may, .ret]) (block [
        /- 360 -/ .may,
        /- 360 -/ .br (block [
          /- 361 -/ .may, .ret]) (.raise)])])]),
  /- 366 -/ .ret]

/-- turbustat/statistics/base_pspec2.py:368-486 -/
def body.fit_2Dpspec : Cmd :=
  block [
  /- 409 -/ .opt O.low_cut_is_None (block [
    /- 412 -/ .get A._ps2D, .may, .put A.low_cut]) (block [
    /- 414 -/ .may, .put A.low_cut]),
  /- 416 -/ .opt O.high_cut_is_None (block [
    /- 417 -/ .get A._freqs, .may, .put A.high_cut]) (block [
    /- 419 -/ .may, .put A.high_cut]),
  /- 421 -/ .get A._ps2D, .may,
  /- 425 -/ .get A.low_cut, .get A.high_cut, .may,
  /- 427 -/ .ifHas A._azim_mask (block [
    /- 427 -/ .opt O.use_azimmask (block [
      /- 428 -/ .get A._azim_mask, .may]) (.skip)]) (.skip),
  /- 430 -/ .may, .br (.skip) (.raise),
  /- 434 -/ .may,
  /- 434 -/ .br (block [
    /- 435 -/ .ifHas A._slope (block [
      /- 436 -/ .get A._slope, .may,
      /- 436 -/ .br (block [
        /- 437 -/ .get A._slope, .may]) (block [
        /- 439 -/ .get A._slope, .may]),
      /- 440 -/ .get A.fit, .may]) (block [
      /- 444 -/ .get A._ps2D, .may]),
    /- 447 -/ .may]) (.skip),
  /- 452 -/ .get A._ps2D, .may,
  /- 466 -/ .put A.fit2D,
  /- 467 -/ .put A._fitter,
  /- 469 -/ .may, .put A._slope2D,
  /- 470 -/ .may, .put A._slope2D_err,
  /- 472 -/ .may, .put A._theta2D,
  /- 473 -/ .may, .put A._theta2D_err,
  /- 476 -/ .may, .put A._ellip2D,
  /- 477 -/ .may, .put A._ellip2D_err,
  /- 482 -/ .get A._ellip2D, .may]

/-- turbustat/statistics/base_pspec2.py:489-493 -/
def body.slope2D : Cmd :=
  block [
  /- 493 -/ .get A._slope2D, .ret]

/-- turbustat/statistics/base_pspec2.py:496-500 -/
def body.slope2D_err : Cmd :=
  block [
  /- 500 -/ .get A._slope2D_err, .ret]

/-- turbustat/statistics/base_pspec2.py:503-507 -/
def body.theta2D : Cmd :=
  block [
  /- 507 -/ .get A._theta2D, .ret]

/-- turbustat/statistics/base_pspec2.py:510-514 -/
def body.theta2D_err : Cmd :=
  block [
  /- 514 -/ .get A._theta2D_err, .ret]

/-- turbustat/statistics/base_pspec2.py:517-521 -/
def body.ellip2D : Cmd :=
  block [
  /- 521 -/ .get A._ellip2D, .ret]

/-- turbustat/statistics/base_pspec2.py:524-528 -/
def body.ellip2D_err : Cmd :=
  block [
  /- 528 -/ .get A._ellip2D_err, .ret]

/-- turbustat/statistics/base_pspec2.py:530-766 -/
def body.plot_fit : Cmd :=
  block [
  /- 569 -/ .may,
  /- 622 -/ .opt O.show_2D (block [
    /- 623 -/ .get A._ps2D, .may,
    /- 627 -/ .get A.low_cut, .get A.high_cut, .may,
    /- 645 -/ .ifHas A.fit2D (block [
      /- 646 -/ .get A.fit2D, .may]) (.skip),
    /- 648 -/ .ifHas A._azim_mask (block [
      /- 649 -/ .get A._azim_mask, .may]) (.skip)]) (.skip),
  /- 651 -/ .get A._freqs, .get A.low_cut, .get A.high_cut, .may,
  /- 654 -/ .opt O.show_residual (block [
    /- 655 -/ .get A._slope, .may,
    /- 655 -/ .ifNone A.slope_is_array (block [
      /- 660 -/ .get A._ps1D, .get A.fit, .get A._freqs, .may]) (block [
      /- 657 -/ .get A._ps1D, .get A._model, .get A._freqs, .may])]) (.skip),
  /- 663 -/ .get A._ps1D, .may,
  /- 666 -/ .opt O.use_wavenumber (block [
    /- 667 -/ .get A._freqs, .get A._ps2D, .may]) (block [
    /- 669 -/ .get A._freqs, .may]),
  /- 671 -/ .may,
  /- 674 -/ .get A._ps1D, .get A._ps1D_stddev, .get A._freqs, .get A.high_cut, .may,
  /- 680 -/ .opt O.fillin_errs (block [
    /- 682 -/ .get A._ps1D, .may]) (block [
    /- 702 -/ .get A._ps1D, .may]),
  /- 717 -/ .may,
  /- 719 -/ .get A.fit, .may,
  /- 736 -/ .get A.low_cut, .may,
  /- 737 -/ .get A.high_cut, .may,
  /- 739 -/ .get A._ps2D, .may]

/-- turbustat/statistics/vca_vcs/vca.py:74-124 -/
def body.compute_pspec : Cmd :=
  block [
  /- 103 -/ .opt O.apodize_kernel_is_None (block [
    /- 109 -/ .get A._data, .may]) (block [
    /- 104 -/ .may, .call M.apodizing_kernel, .may,
    /- 107 -/ .get A._data, .may]),
  /- 111 -/ .may,
  /- 118 -/ .put A._ps2D,
  /- 120 -/ .opt O.beam_correct (block [
    /- 121 -/ .may, .call M.compute_beam_pspec, .may]) (.skip),
  /- 123 -/ .opt O.beam_correct (block [
    /- 124 -/ .get A._ps2D, .get A._beam_pow, .may, .put A._ps2D]) (.skip)]

/-- turbustat/statistics/vca_vcs/vca.py:126-221 -/
def body.run : Cmd :=
  block [
  /- 186 -/ .may,
  /- 193 -/ .call M.compute_pspec, .may,
  /- 199 -/ .call M.compute_radial_pspec, .may,
  /- 200 -/ .call M.fit_pspec, .may,
  /- 203 -/ .opt O.fit_2D (block [
    /- 204 -/ .may, .call M.fit_2Dpspec, .may]) (.skip),
  /- 207 -/ .opt O.verbose (block [
    /- 209 -/ .get A.fit, .may,
    /- 210 -/ .get A._bootstrap_flag, .may,
    /- 214 -/ .call M.plot_fit, .may]) (.skip),
  /- 221 -/ .ret]

/-- turbustat/statistics/base_statistic.py:50-73 -/
def body.load_beam : Cmd :=
  .br (.ifHas A._header (block [/- 63 -/ .tryC (block [.may, .get A._header, .put A._beam]) .may]) .may) (block [/- 71 -/ .br .raise .skip, /- 73 -/ .put A._beam])

/-- turbustat/statistics/base_statistic.py:104-126 -/
def body.input_data_header : Cmd :=
  .br (block [/- 110 -/ .may, .put A._data, /- 112 -/ .may, .put A._header]) (block [/- 121 -/ .br .raise .skip, /- 125 -/ .may, .put A._data, .put A._header])

/-- The methods in the order of their numbers. -/
def methods : List Cmd := [
  body.ps2D,
  body.ps1D,
  body.ps1D_stddev,
  body.freqs,
  body.wavenumbers,
  body.compute_beam_pspec,
  body.compute_radial_pspec,
  body.fit_pspec,
  body.slope,
  body.slope_err,
  body.brk,
  body.brk_err,
  body.apodizing_kernel,
  body.fit_2Dpspec,
  body.slope2D,
  body.slope2D_err,
  body.theta2D,
  body.theta2D_err,
  body.ellip2D,
  body.ellip2D_err,
  body.plot_fit,
  body.compute_pspec,
  body.run,
  body.load_beam,
  body.input_data_header]

/-- turbustat/statistics/vca_vcs/vca.py:18-221 -/
def cls : Cls := ⟨body.init, methods⟩

end VCA

namespace MVC

/-! Attributes of `MVC` (turbustat/statistics/mvc/mvc.py:23). -/

@[reducible] def A._centroid : ℕ := 0
@[reducible] def A._header : ℕ := 1
@[reducible] def A._data : ℕ := 2
@[reducible] def A._distance : ℕ := 3
@[reducible] def A._moment0 : ℕ := 4
@[reducible] def A._linewidth : ℕ := 5
@[reducible] def A.shape : ℕ := 6
@[reducible] def A._ps2D : ℕ := 7
@[reducible] def A._ps1D : ℕ := 8
@[reducible] def A._ps1D_stddev : ℕ := 9
@[reducible] def A._freqs : ℕ := 10
@[reducible] def A._beam : ℕ := 11
@[reducible] def A._beam_pow : ℕ := 12
@[reducible] def A._azim_constraint_flag : ℕ := 13
@[reducible] def A._azim_mask : ℕ := 14
@[reducible] def A._bootstrap_flag : ℕ := 15
@[reducible] def A.low_cut : ℕ := 16
@[reducible] def A.high_cut : ℕ := 17
@[reducible] def A._brk : ℕ := 18
@[reducible] def A._slope : ℕ := 19
@[reducible] def A._slope_err : ℕ := 20
@[reducible] def A._brk_err : ℕ := 21
@[reducible] def A.fit : ℕ := 22
@[reducible] def A._model : ℕ := 23
@[reducible] def A.fit2D : ℕ := 24
@[reducible] def A._fitter : ℕ := 25
@[reducible] def A._slope2D : ℕ := 26
@[reducible] def A._slope2D_err : ℕ := 27
@[reducible] def A._theta2D : ℕ := 28
@[reducible] def A._theta2D_err : ℕ := 29
@[reducible] def A._ellip2D : ℕ := 30
@[reducible] def A._ellip2D_err : ℕ := 31
/-- Whether `_slope` holds an array (a value here) or a number (`None` here): not an attribute of the code, which asks
`isinstance(self.slope, np.ndarray)`.  base_pspec2.py:255, 292, 655 -/
@[reducible] def A.slope_is_array : ℕ := 32

/-! Methods and properties. -/

@[reducible] def M.ps2D : ℕ := 0
@[reducible] def M.ps1D : ℕ := 1
@[reducible] def M.ps1D_stddev : ℕ := 2
@[reducible] def M.freqs : ℕ := 3
@[reducible] def M.wavenumbers : ℕ := 4
@[reducible] def M.compute_beam_pspec : ℕ := 5
@[reducible] def M.compute_radial_pspec : ℕ := 6
@[reducible] def M.fit_pspec : ℕ := 7
@[reducible] def M.slope : ℕ := 8
@[reducible] def M.slope_err : ℕ := 9
@[reducible] def M.brk : ℕ := 10
@[reducible] def M.brk_err : ℕ := 11
@[reducible] def M.apodizing_kernel : ℕ := 12
@[reducible] def M.fit_2Dpspec : ℕ := 13
@[reducible] def M.slope2D : ℕ := 14
@[reducible] def M.slope2D_err : ℕ := 15
@[reducible] def M.theta2D : ℕ := 16
@[reducible] def M.theta2D_err : ℕ := 17
@[reducible] def M.ellip2D : ℕ := 18
@[reducible] def M.ellip2D_err : ℕ := 19
@[reducible] def M.plot_fit : ℕ := 20
@[reducible] def M.centroid : ℕ := 21
@[reducible] def M.moment0 : ℕ := 22
@[reducible] def M.linewidth : ℕ := 23
@[reducible] def M.compute_pspec : ℕ := 24
@[reducible] def M.save_results : ℕ := 25
@[reducible] def M.run : ℕ := 26
@[reducible] def M.load_beam : ℕ := 27
@[reducible] def M.input_data_header : ℕ := 28

/-! Facts about arguments that the methods test (`x_is_None`: `x is None`). -/

@[reducible] def O.header_is_None : ℕ := 0
@[reducible] def O.distance_is_None : ℕ := 1
@[reducible] def O.low_cut_is_None : ℕ := 2
@[reducible] def O.high_cut_is_None : ℕ := 3
@[reducible] def O.fit_unbinned : ℕ := 4
@[reducible] def O.weighted_fit : ℕ := 5
@[reducible] def O.bootstrap : ℕ := 6
@[reducible] def O.brk_is_None : ℕ := 7
@[reducible] def O.use_azimmask : ℕ := 8
@[reducible] def O.use_wavenumber : ℕ := 9
@[reducible] def O.show_residual : ℕ := 10
@[reducible] def O.show_2D : ℕ := 11
@[reducible] def O.fillin_errs : ℕ := 12
@[reducible] def O.apodize_kernel_is_None : ℕ := 13
@[reducible] def O.beam_correct : ℕ := 14
@[reducible] def O.fit_2D : ℕ := 15
@[reducible] def O.verbose : ℕ := 16

/-- turbustat/statistics/mvc/mvc.py:45-96 -/
def body.init : Cmd :=
  block [
  /- 52 -/ .opt O.header_is_None (block [
    /- 53 -/ .tryC (block [
      /- 54 -/ .may, .put A._centroid, .may, .put A._header]) (block [
      /- 57 -/ .may,
      /- 59 -/ .put A._centroid])]) (block [
    /- 62 -/ .may, .put A._centroid,
    /- 63 -/ .opt O.header_is_None (block [
      /- 63 -/ .may, .put A._header]) (block [
      /- 63 -/ .may, .put A._header])]),
  /- 65 -/ .get A._centroid, .may, .put A._data,
  /- 67 -/ .opt O.distance_is_None (.skip) (block [
    /- 68 -/ .opt O.distance_is_None (block [
      /- 68 -/ .may, .put A._distance]) (block [
      /- 68 -/ .may, .put A._distance])]),
  /- 70 -/ .may, .put A._moment0,
  /- 71 -/ .may, .put A._linewidth,
  /- 73 -/ .get A._centroid, .get A._moment0, .may,
  /- 74 -/ .get A._linewidth, .may,
  /- 75 -/ .br (.raise) (.skip),
  /- 79 -/ .get A._centroid, .may, .put A.shape,
  /- 82 -/ .get A._centroid, .get A._moment0, .may,
  /- 84 -/ .get A._linewidth, .may,
  /- 87 -/ .br (block [
    /- 89 -/ .get A._centroid, .may, .put A._centroid,
    /- 90 -/ .get A._centroid, .may,
    /- 91 -/ .get A._moment0, .may, .put A._moment0,
    /- 92 -/ .get A._moment0, .may,
    /- 93 -/ .get A._linewidth, .may, .put A._linewidth,
    /- 94 -/ .get A._linewidth, .may]) (.skip),
  /- 96 -/ .may, .call M.load_beam, .may]

/-- turbustat/statistics/base_pspec2.py:26-30 -/
def body.ps2D : Cmd :=
  block [
  /- 30 -/ .get A._ps2D, .may, .ret]

/-- turbustat/statistics/base_pspec2.py:33-37 -/
def body.ps1D : Cmd :=
  block [
  /- 37 -/ .get A._ps1D, .ret]

/-- turbustat/statistics/base_pspec2.py:40-45 -/
def body.ps1D_stddev : Cmd :=
  block [
  /- 45 -/ .get A._ps1D_stddev, .ret]

/-- turbustat/statistics/base_pspec2.py:48-52 -/
def body.freqs : Cmd :=
  block [
  /- 52 -/ .get A._freqs, .ret]

/-- turbustat/statistics/base_pspec2.py:55-56 -/
def body.wavenumbers : Cmd :=
  block [
  /- 56 -/ .get A._freqs, .get A._ps2D, .may, .ret]

/-- turbustat/statistics/base_pspec2.py:58-75 -/
def body.compute_beam_pspec : Cmd :=
  block [
  /- 62 -/ .ifHas A._beam (.skip) (.raise),
  /- 66 -/ .get A._beam, .may, .get A._ps2D, .may,
  /- 72 -/ .put A._beam_pow,
  /- 75 -/ .may, .get A._beam_pow, .may]

/-- turbustat/statistics/base_pspec2.py:77-107 -/
def body.compute_radial_pspec : Cmd :=
  block [
  /- 91 -/ .may,
  /- 96 -/ .get A._ps2D, .may,
  /- 99 -/ .put A._azim_constraint_flag,
  /- 101 -/ .br (block [
    /- 102 -/ .put A._freqs, .put A._ps1D, .put A._ps1D_stddev, .put A._azim_mask]) (block [
    /- 104 -/ .put A._freqs, .put A._ps1D, .put A._ps1D_stddev]),
  /- 107 -/ .get A._freqs, .may, .put A._freqs]

/-- turbustat/statistics/base_pspec2.py:109-300 -/
def body.fit_pspec : Cmd :=
  block [
  /- 156 -/ .put A._bootstrap_flag,
  /- 158 -/ .opt O.fit_unbinned (block [
    /- 159 -/ .get A._ps2D, .may,
    /- 164 -/ .opt O.low_cut_is_None (block [
      /- 167 -/ .get A._ps2D, .may, .put A.low_cut]) (block [
      /- 169 -/ .may, .put A.low_cut]),
    /- 171 -/ .opt O.high_cut_is_None (block [
      /- 173 -/ .may, .put A.high_cut]) (block [
      /- 175 -/ .may, .put A.high_cut]),
    /- 178 -/ .get A.low_cut, .get A.high_cut, .may,
    /- 184 -/ .get A._ps2D, .may]) (block [
    /- 188 -/ .opt O.low_cut_is_None (block [
      /- 191 -/ .get A._ps2D, .may, .put A.low_cut]) (block [
      /- 193 -/ .may, .put A.low_cut]),
    /- 195 -/ .opt O.high_cut_is_None (block [
      /- 196 -/ .get A._freqs, .may, .put A.high_cut]) (block [
      /- 198 -/ .may, .put A.high_cut]),
    /- 200 -/ .get A._freqs, .get A.low_cut, .get A.high_cut, .may,
    /- 203 -/ .get A._ps1D, .may]),
  /- 208 -/ .opt O.weighted_fit (block [
    /- 209 -/ .opt O.fit_unbinned (.raise) (.skip),
    /- 214 -/ .get A._ps1D_stddev, .get A._freqs, .get A.low_cut, .get A.high_cut,
    /- 214 -/ .may]) (.skip),
  /- 226 -/ .opt O.brk_is_None (block [
    /- 279 -/ .putNone A._brk,
    /- 280 -/ .putNone A._brk_err]) (block [
    /- 228 -/ .may,
    /- 240 -/ .br (block [
      /- 243 -/ .may,
      /- 243 -/ .br (block [
        /- 244 -/ .may,
        /- 247 -/ .putNone A._brk]) (block [
        /- 249 -/ .may,
        /- 253 -/ .put A._brk,
        /- 255 -/ .may, .put A._slope, .put A.slope_is_array,
        /- 257 -/ .opt O.bootstrap (block [
          /- 258 -/ .may,
          /- 261 -/ .put A._slope_err,
          /- 262 -/ .get A._brk, .may, .put A._brk_err]) (block [
          /- 266 -/ .may, .put A._slope_err,
          /- 267 -/ .get A._brk, .may, .put A._brk_err]),
        /- 270 -/ .may, .put A.fit,
        /- 271 -/ .put A._model])]) (block [
      /- 274 -/ .putNone A._brk,
      /- 276 -/ .may])]),
  /- 282 -/ .ifNone A._brk (block [
    /- 283 -/ .may,
    /- 290 -/ .put A.fit,
    /- 292 -/ .get A.fit, .may, .put A._slope, .putNone A.slope_is_array,
    /- 294 -/ .opt O.bootstrap (block [
      /- 295 -/ .get A.fit, .may,
      /- 297 -/ .put A._slope_err]) (block [
      /- 300 -/ .get A.fit, .may, .put A._slope_err])]) (.skip)]

/-- turbustat/statistics/base_pspec2.py:303-307 -/
def body.slope : Cmd :=
  block [
  /- 307 -/ .get A._slope, .ret]

/-- turbustat/statistics/base_pspec2.py:310-314 -/
def body.slope_err : Cmd :=
  block [
  /- 314 -/ .get A._slope_err, .ret]

/-- turbustat/statistics/base_pspec2.py:317-321 -/
def body.brk : Cmd :=
  block [
  /- 321 -/ .get A._brk, .ret]

/-- turbustat/statistics/base_pspec2.py:324-328 -/
def body.brk_err : Cmd :=
  block [
  /- 328 -/ .get A._brk_err, .ret]

/-- turbustat/statistics/base_pspec2.py:330-366 -/
def body.apodizing_kernel : Cmd :=
  block [
  /- 341 -/ .ifNone A._data (block [
    /- 345 -/ .get A._centroid, .may]) (block [
    /- 342 -/ .get A._data, .may]),
  /- 348 -/ .may,
  /- 354 -/ .br (block [
    /- 355 -/ .may, .ret]) (block [
    /- 356 -/ .may,
    /- 356 -/ .br (block [
      /- 357 -/ .may, .ret]) (block [
      /- 358 -/ .may,
      /- 358 -/ .br (block [
        /- 359 -/ .may, .ret]) (block [
        /- 360 -/ .may,
        /- 360 -/ .br (block [
          /- 361 -/ .may, .ret]) (.raise)])])]),
  /- 366 -/ .ret]

/-- turbustat/statistics/base_pspec2.py:368-486 -/
def body.fit_2Dpspec : Cmd :=
  block [
  /- 409 -/ .opt O.low_cut_is_None (block [
    /- 412 -/ .get A._ps2D, .may, .put A.low_cut]) (block [
    /- 414 -/ .may, .put A.low_cut]),
  /- 416 -/ .opt O.high_cut_is_None (block [
    /- 417 -/ .get A._freqs, .may, .put A.high_cut]) (block [
    /- 419 -/ .may, .put A.high_cut]),
  /- 421 -/ .get A._ps2D, .may,
  /- 425 -/ .get A.low_cut, .get A.high_cut, .may,
  /- 427 -/ .ifHas A._azim_mask (block [
    /- 427 -/ .opt O.use_azimmask (block [
      /- 428 -/ .get A._azim_mask, .may]) (.skip)]) (.skip),
  /- 430 -/ .may, .br (.skip) (.raise),
  /- 434 -/ .may,
  /- 434 -/ .br (block [
    /- 435 -/ .ifHas A._slope (block [
      /- 436 -/ .get A._slope, .may,
      /- 436 -/ .br (block [
        /- 437 -/ .get A._slope, .may]) (block [
        /- 439 -/ .get A._slope, .may]),
      /- 440 -/ .get A.fit, .may]) (block [
      /- 444 -/ .get A._ps2D, .may]),
    /- 447 -/ .may]) (.skip),
  /- 452 -/ .get A._ps2D, .may,
  /- 466 -/ .put A.fit2D,
  /- 467 -/ .put A._fitter,
  /- 469 -/ .may, .put A._slope2D,
  /- 470 -/ .may, .put A._slope2D_err,
  /- 472 -/ .may, .put A._theta2D,
  /- 473 -/ .may, .put A._theta2D_err,
  /- 476 -/ .may, .put A._ellip2D,
  /- 477 -/ .may, .put A._ellip2D_err,
  /- 482 -/ .get A._ellip2D, .may]

/-- turbustat/statistics/base_pspec2.py:489-493 -/
def body.slope2D : Cmd :=
  block [
  /- 493 -/ .get A._slope2D, .ret]

/-- turbustat/statistics/base_pspec2.py:496-500 -/
def body.slope2D_err : Cmd :=
  block [
  /- 500 -/ .get A._slope2D_err, .ret]

/-- turbustat/statistics/base_pspec2.py:503-507 -/
def body.theta2D : Cmd :=
  block [
  /- 507 -/ .get A._theta2D, .ret]

/-- turbustat/statistics/base_pspec2.py:510-514 -/
def body.theta2D_err : Cmd :=
  block [
  /- 514 -/ .get A._theta2D_err, .ret]

/-- turbustat/statistics/base_pspec2.py:517-521 -/
def body.ellip2D : Cmd :=
  block [
  /- 521 -/ .get A._ellip2D, .ret]

/-- turbustat/statistics/base_pspec2.py:524-528 -/
def body.ellip2D_err : Cmd :=
  block [
  /- 528 -/ .get A._ellip2D_err, .ret]

/-- turbustat/statistics/base_pspec2.py:530-766 -/
def body.plot_fit : Cmd :=
  block [
  /- 569 -/ .may,
  /- 622 -/ .opt O.show_2D (block [
    /- 623 -/ .get A._ps2D, .may,
    /- 627 -/ .get A.low_cut, .get A.high_cut, .may,
    /- 645 -/ .ifHas A.fit2D (block [
      /- 646 -/ .get A.fit2D, .may]) (.skip),
    /- 648 -/ .ifHas A._azim_mask (block [
      /- 649 -/ .get A._azim_mask, .may]) (.skip)]) (.skip),
  /- 651 -/ .get A._freqs, .get A.low_cut, .get A.high_cut, .may,
  /- 654 -/ .opt O.show_residual (block [
    /- 655 -/ .get A._slope, .may,
    /- 655 -/ .ifNone A.slope_is_array (block [
      /- 660 -/ .get A._ps1D, .get A.fit, .get A._freqs, .may]) (block [
      /- 657 -/ .get A._ps1D, .get A._model, .get A._freqs, .may])]) (.skip),
  /- 663 -/ .get A._ps1D, .may,
  /- 666 -/ .opt O.use_wavenumber (block [
    /- 667 -/ .get A._freqs, .get A._ps2D, .may]) (block [
    /- 669 -/ .get A._freqs, .may]),
  /- 671 -/ .may,
  /- 674 -/ .get A._ps1D, .get A._ps1D_stddev, .get A._freqs, .get A.high_cut, .may,
  /- 680 -/ .opt O.fillin_errs (block [
    /- 682 -/ .get A._ps1D, .may]) (block [
    /- 702 -/ .get A._ps1D, .may]),
  /- 717 -/ .may,
  /- 719 -/ .get A.fit, .may,
  /- 736 -/ .get A.low_cut, .may,
  /- 737 -/ .get A.high_cut, .may,
  /- 739 -/ .get A._ps2D, .may]

/-- turbustat/statistics/mvc/mvc.py:99-103 -/
def body.centroid : Cmd :=
  block [
  /- 103 -/ .get A._centroid, .ret]

/-- turbustat/statistics/mvc/mvc.py:106-110 -/
def body.moment0 : Cmd :=
  block [
  /- 110 -/ .get A._moment0, .ret]

/-- turbustat/statistics/mvc/mvc.py:113-117 -/
def body.linewidth : Cmd :=
  block [
  /- 117 -/ .get A._linewidth, .ret]

/-- turbustat/statistics/mvc/mvc.py:119-198 -/
def body.compute_pspec : Cmd :=
  block [
  /- 158 -/ .opt O.apodize_kernel_is_None (block [
    /- 167 -/ .get A._centroid, .get A._moment0, .may,
    /- 168 -/ .get A._linewidth, .may]) (block [
    /- 159 -/ .may, .call M.apodizing_kernel, .may,
    /- 162 -/ .get A._centroid, .get A._moment0, .may,
    /- 163 -/ .get A._linewidth, .may]),
  /- 171 -/ .may,
  /- 192 -/ .put A._ps2D,
  /- 194 -/ .opt O.beam_correct (block [
    /- 195 -/ .may, .call M.compute_beam_pspec, .may]) (.skip),
  /- 197 -/ .opt O.beam_correct (block [
    /- 198 -/ .get A._ps2D, .get A._beam_pow, .may, .put A._ps2D]) (.skip)]

/-- turbustat/statistics/mvc/mvc.py:200-225 -/
def body.save_results : Cmd :=
  .may

/-- turbustat/statistics/mvc/mvc.py:227-307 -/
def body.run : Cmd :=
  block [
  /- 276 -/ .may,
  /- 279 -/ .call M.compute_pspec, .may,
  /- 285 -/ .call M.compute_radial_pspec, .may,
  /- 286 -/ .call M.fit_pspec, .may,
  /- 290 -/ .opt O.fit_2D (block [
    /- 291 -/ .may, .call M.fit_2Dpspec, .may]) (.skip),
  /- 294 -/ .opt O.verbose (block [
    /- 295 -/ .get A.fit, .may,
    /- 296 -/ .get A._bootstrap_flag, .may,
    /- 300 -/ .call M.plot_fit, .may]) (.skip),
  /- 307 -/ .ret]

/-- turbustat/statistics/base_statistic.py:50-73 -/
def body.load_beam : Cmd :=
  .br (.ifHas A._header (block [/- 63 -/ .tryC (block [.may, .get A._header, .put A._beam]) .may]) .may) (block [/- 71 -/ .br .raise .skip, /- 73 -/ .put A._beam])

/-- turbustat/statistics/base_statistic.py:104-126 -/
def body.input_data_header : Cmd :=
  .br (block [/- 110 -/ .may, .put A._data, /- 112 -/ .may, .put A._header]) (block [/- 121 -/ .br .raise .skip, /- 125 -/ .may, .put A._data, .put A._header])

/-- The methods in the order of their numbers. -/
def methods : List Cmd := [
  body.ps2D,
  body.ps1D,
  body.ps1D_stddev,
  body.freqs,
  body.wavenumbers,
  body.compute_beam_pspec,
  body.compute_radial_pspec,
  body.fit_pspec,
  body.slope,
  body.slope_err,
  body.brk,
  body.brk_err,
  body.apodizing_kernel,
  body.fit_2Dpspec,
  body.slope2D,
  body.slope2D_err,
  body.theta2D,
  body.theta2D_err,
  body.ellip2D,
  body.ellip2D_err,
  body.plot_fit,
  body.centroid,
  body.moment0,
  body.linewidth,
  body.compute_pspec,
  body.save_results,
  body.run,
  body.load_beam,
  body.input_data_header]

/-- turbustat/statistics/mvc/mvc.py:23-307 -/
def cls : Cls := ⟨body.init, methods⟩

end MVC

namespace VCS

/-! Attributes of `VCS` (turbustat/statistics/vca_vcs/vcs.py:16). -/

@[reducible] def A._has_nan_flag : ℕ := 0
@[reducible] def A._data : ℕ := 1
@[reducible] def A.vel_channels : ℕ := 2
@[reducible] def A.freqs : ℕ := 3
@[reducible] def A._ps1D : ℕ := 4
@[reducible] def A.low_cut : ℕ := 5
@[reducible] def A.high_cut : ℕ := 6
@[reducible] def A.fit : ℕ := 7
@[reducible] def A._slope_errs : ℕ := 8
@[reducible] def A._slope : ℕ := 9
@[reducible] def A._bootstrap_flag : ℕ := 10
@[reducible] def A._header : ℕ := 11
@[reducible] def A._beam : ℕ := 12

/-! Methods and properties. -/

@[reducible] def M.compute_pspec : ℕ := 0
@[reducible] def M.ps1D : ℕ := 1
@[reducible] def M.fit_pspec : ℕ := 2
@[reducible] def M.slope : ℕ := 3
@[reducible] def M.slope_err : ℕ := 4
@[reducible] def M.brk : ℕ := 5
@[reducible] def M.brk_err : ℕ := 6
@[reducible] def M.plot_fit : ℕ := 7
@[reducible] def M.run : ℕ := 8
@[reducible] def M.load_beam : ℕ := 9
@[reducible] def M.input_data_header : ℕ := 10

/-! Facts about arguments that the methods test (`x_is_None`: `x is None`). -/

@[reducible] def O.low_cut_is_None : ℕ := 0
@[reducible] def O.high_cut_is_None : ℕ := 1
@[reducible] def O.breaks_is_None : ℕ := 2
@[reducible] def O.bootstrap : ℕ := 3
@[reducible] def O.show_residual : ℕ := 4
@[reducible] def O.verbose : ℕ := 5

/-- turbustat/statistics/vca_vcs/vcs.py:33-49 -/
def body.init : Cmd :=
  block [
  /- 34 -/ .may,
  /- 36 -/ .call M.input_data_header, .may,
  /- 38 -/ .put A._has_nan_flag,
  /- 40 -/ .get A._data, .may,
  /- 41 -/ .br (block [
    /- 42 -/ .get A._data, .may, .put A._data,
    /- 43 -/ .get A._data, .may,
    /- 44 -/ .put A._has_nan_flag]) (.skip),
  /- 46 -/ .get A._data, .may, .put A.vel_channels,
  /- 48 -/ .get A._data, .may, .put A.freqs]

/-- turbustat/statistics/vca_vcs/vcs.py:51-82 -/
def body.compute_pspec : Cmd :=
  block [
  /- 67 -/ .get A._has_nan_flag, .may,
  /- 67 -/ .br (block [
    /- 69 -/ .get A._data, .may]) (block [
    /- 71 -/ .get A._data, .may]),
  /- 74 -/ .may,
  /- 77 -/ .get A._data, .may,
  /- 82 -/ .put A._ps1D]

/-- turbustat/statistics/vca_vcs/vcs.py:85-89 -/
def body.ps1D : Cmd :=
  block [
  /- 89 -/ .get A._ps1D, .ret]

/-- turbustat/statistics/vca_vcs/vcs.py:91-221 -/
def body.fit_pspec : Cmd :=
  block [
  /- 123 -/ .opt O.low_cut_is_None (block [
    /- 126 -/ .get A._data, .may, .put A.low_cut]) (block [
    /- 128 -/ .may, .put A.low_cut]),
  /- 131 -/ .opt O.high_cut_is_None (block [
    /- 133 -/ .get A.freqs, .may, .put A.high_cut]) (block [
    /- 135 -/ .may, .put A.high_cut]),
  /- 141 -/ .get A.freqs, .may,
  /- 143 -/ .get A._ps1D, .may,
  /- 145 -/ .get A.low_cut, .get A.high_cut, .may,
  /- 150 -/ .opt O.breaks_is_None (block [
    /- 151 -/ .may,
    /- 174 -/ .br (.raise) (.skip),
    /- 179 -/ .may,
    /- 187 -/ .loop (block [
      /- 188 -/ .may, .put A.fit,
      /- 190 -/ .get A.fit, .may,
      /- 192 -/ .br (block [
        /- 194 -/ .may,
        /- 195 -/ .stop]) (.skip),
      /- 196 -/ .may,
      /- 197 -/ .br (block [
        /- 198 -/ .may,
        /- 200 -/ .stop]) (.skip)])]) (.skip),
  /- 204 -/ .may,
  /- 208 -/ .put A.fit,
  /- 209 -/ .get A.fit, .may,
  /- 211 -/ .opt O.bootstrap (block [
    /- 212 -/ .get A.fit, .may,
    /- 215 -/ .put A._slope_errs]) (block [
    /- 217 -/ .get A.fit, .may, .put A._slope_errs]),
  /- 219 -/ .get A.fit, .may, .put A._slope,
  /- 221 -/ .put A._bootstrap_flag]

/-- turbustat/statistics/vca_vcs/vcs.py:224-228 -/
def body.slope : Cmd :=
  block [
  /- 228 -/ .get A._slope, .ret]

/-- turbustat/statistics/vca_vcs/vcs.py:231-235 -/
def body.slope_err : Cmd :=
  block [
  /- 235 -/ .get A._slope_errs, .ret]

/-- turbustat/statistics/vca_vcs/vcs.py:238-242 -/
def body.brk : Cmd :=
  block [
  /- 242 -/ .get A.fit, .may, .ret]

/-- turbustat/statistics/vca_vcs/vcs.py:245-249 -/
def body.brk_err : Cmd :=
  block [
  /- 249 -/ .get A.fit, .may, .ret]

/-- turbustat/statistics/vca_vcs/vcs.py:251-346 -/
def body.plot_fit : Cmd :=
  block [
  /- 274 -/ .may,
  /- 296 -/ .get A.freqs, .may,
  /- 298 -/ .get A._ps1D, .may,
  /- 300 -/ .get A.low_cut, .get A.high_cut, .may,
  /- 305 -/ .get A.fit, .may,
  /- 325 -/ .opt O.show_residual (block [
    /- 326 -/ .get A.fit, .may]) (.may),
  /- 338 -/ .may]

/-- turbustat/statistics/vca_vcs/vcs.py:348-391 -/
def body.run : Cmd :=
  block [
  /- 374 -/ .may,
  /- 376 -/ .call M.compute_pspec, .may,
  /- 379 -/ .call M.fit_pspec, .may,
  /- 381 -/ .opt O.verbose (block [
    /- 383 -/ .may,
    /- 383 -/ .br (.skip) (block [
      /- 384 -/ .get A.fit, .may,
      /- 385 -/ .get A._bootstrap_flag, .may]),
    /- 389 -/ .may, .call M.plot_fit, .may]) (.skip),
  /- 391 -/ .ret]

/-- turbustat/statistics/base_statistic.py:50-73 -/
def body.load_beam : Cmd :=
  .br (.ifHas A._header (block [/- 63 -/ .tryC (block [.may, .get A._header, .put A._beam]) .may]) .may) (block [/- 71 -/ .br .raise .skip, /- 73 -/ .put A._beam])

/-- turbustat/statistics/base_statistic.py:104-126 -/
def body.input_data_header : Cmd :=
  .br (block [/- 110 -/ .may, .put A._data, /- 112 -/ .may, .put A._header]) (block [/- 121 -/ .br .raise .skip, /- 125 -/ .may, .put A._data, .put A._header])

/-- The methods in the order of their numbers. -/
def methods : List Cmd := [
  body.compute_pspec,
  body.ps1D,
  body.fit_pspec,
  body.slope,
  body.slope_err,
  body.brk,
  body.brk_err,
  body.plot_fit,
  body.run,
  body.load_beam,
  body.input_data_header]

/-- turbustat/statistics/vca_vcs/vcs.py:16-391 -/
def cls : Cls := ⟨body.init, methods⟩

end VCS

end Life
end TS
