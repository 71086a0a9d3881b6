import Verif.Spec.Lifecycle
import Verif.Model.LifecycleSpectra
import Verif.Model.LifecycleScales
import Verif.Model.LifecycleCounts

/-!
# Which step makes which result

For each statistic: the results a user reads, the attribute behind each, the
methods that may make it (`makers`) and the calls certain to make it when they
complete (`steps`; `yes` and `no` are facts about the arguments of that call).

* `results`: read as the plain attribute, and a value once made;
* `derived`: the getter computes something from the attribute;
* `optional`: may be `None` or an empty list when made (no break was fitted, the
  arrays were not kept);
* `placeholders`: the constructor stores `None` first;
* `order`: after these steps, this method finds every attribute it needs, except
  those listed;
* `readers`: methods that change nothing.
-/

namespace TS
namespace Life

/-- The table of one statistic. -/
structure Table where
  results : List Result
  derived : List Result
  optional : List Result
  placeholders : List Result
  order : List (List Step × ℕ × List ℕ)
  readers : List ℕ

/-- What the table of a statistic says. -/
structure Table.Holds (C : Cls) (T : Table) : Prop where
  /-- The constructor finds every attribute it needs. -/
  init : InitNeverMisses C
  /-- A result raises the `AttributeError` before it is made, and is a value
  after. -/
  results : ∀ r ∈ T.results, NotBefore C r ∧ ReadyAfter C r
  derived : ∀ r ∈ T.derived, NotBeforeFails C r ∧ ReadyAfter C r
  optional : ∀ r ∈ T.optional, NotBeforeFails C r ∧ PresentAfter C r
  placeholders : ∀ r ∈ T.placeholders, ReadyAfter C r
  order : ∀ u ∈ T.order, UsableAfter C u.1 u.2.1 u.2.2
  readers : ∀ m ∈ T.readers, OnlyReads C m

section
open PowerSpectrum

/-- Results of `PowerSpectrum`. -/
def PowerSpectrum.table : Table where
  results := [
    { prop := M.ps1D, attr := A._ps1D, makers := [M.compute_radial_pspec, M.run],
      steps := [{ m := M.compute_radial_pspec }, { m := M.run }] },
    { prop := M.freqs, attr := A._freqs, makers := [M.compute_radial_pspec, M.run],
      steps := [{ m := M.compute_radial_pspec }, { m := M.run }] },
    { prop := M.slope, attr := A._slope, makers := [M.fit_pspec, M.run],
      steps := [{ m := M.fit_pspec }, { m := M.run }] },
    { prop := M.slope_err, attr := A._slope_err, makers := [M.fit_pspec, M.run],
      steps := [{ m := M.fit_pspec }, { m := M.run }] },
    { prop := M.slope2D, attr := A._slope2D, makers := [M.fit_2Dpspec, M.run],
      steps := [{ m := M.fit_2Dpspec }, { m := M.run, yes := [O.fit_2D] }] },
    { prop := M.slope2D_err, attr := A._slope2D_err, makers := [M.fit_2Dpspec, M.run],
      steps := [{ m := M.fit_2Dpspec }, { m := M.run, yes := [O.fit_2D] }] },
    { prop := M.theta2D, attr := A._theta2D, makers := [M.fit_2Dpspec, M.run],
      steps := [{ m := M.fit_2Dpspec }, { m := M.run, yes := [O.fit_2D] }] },
    { prop := M.theta2D_err, attr := A._theta2D_err, makers := [M.fit_2Dpspec, M.run],
      steps := [{ m := M.fit_2Dpspec }, { m := M.run, yes := [O.fit_2D] }] },
    { prop := M.ellip2D, attr := A._ellip2D, makers := [M.fit_2Dpspec, M.run],
      steps := [{ m := M.fit_2Dpspec }, { m := M.run, yes := [O.fit_2D] }] },
    { prop := M.ellip2D_err, attr := A._ellip2D_err, makers := [M.fit_2Dpspec, M.run],
      steps := [{ m := M.fit_2Dpspec }, { m := M.run, yes := [O.fit_2D] }] }]
  derived := [
    { prop := M.ps2D, attr := A._ps2D, makers := [M.compute_pspec, M.run],
      steps := [{ m := M.compute_pspec }, { m := M.run }] },
    { prop := M.wavenumbers, attr := A._freqs, makers := [M.compute_radial_pspec, M.run],
      steps := [{ m := M.compute_radial_pspec }, { m := M.run }] }]
  optional := [
    { prop := M.brk, attr := A._brk, makers := [M.fit_pspec, M.run],
      steps := [{ m := M.fit_pspec }, { m := M.run }] },
    { prop := M.brk_err, attr := A._brk_err, makers := [M.fit_pspec, M.run],
      steps := [{ m := M.fit_pspec, yes := [O.brk_is_None] }] }]
  placeholders := [
    { prop := M.ps1D_stddev, attr := A._ps1D_stddev, makers := [M.compute_radial_pspec, M.run],
      steps := [{ m := M.compute_radial_pspec }, { m := M.run }] }]
  order := [
    ([], M.compute_pspec, []),
    ([{ m := M.compute_pspec }], M.compute_radial_pspec, []),
    ([{ m := M.compute_pspec }], M.compute_beam_pspec, []),
    ([{ m := M.compute_pspec }, { m := M.compute_radial_pspec }], M.fit_pspec, []),
    ([{ m := M.compute_pspec }, { m := M.compute_radial_pspec }, { m := M.fit_pspec }], M.fit_2Dpspec, []),
    ([{ m := M.compute_pspec }, { m := M.compute_radial_pspec }, { m := M.fit_pspec }], M.plot_fit, [A._model]),
    ([{ m := M.run }], M.plot_fit, [A._model]),
    ([{ m := M.run, yes := [O.fit_2D] }], M.plot_fit, [A._model]),
    ([{ m := M.run }], M.fit_2Dpspec, [])]
  readers := [
    M.ps2D, M.ps1D, M.ps1D_stddev, M.freqs, M.wavenumbers, M.slope, M.slope_err, M.brk,
    M.brk_err, M.apodizing_kernel, M.slope2D, M.slope2D_err, M.theta2D, M.theta2D_err,
    M.ellip2D, M.ellip2D_err, M.plot_fit]

end

section
open VCA

/-- Results of `VCA`. -/
def VCA.table : Table where
  results := [
    { prop := M.ps1D, attr := A._ps1D, makers := [M.compute_radial_pspec, M.run],
      steps := [{ m := M.compute_radial_pspec }, { m := M.run }] },
    { prop := M.freqs, attr := A._freqs, makers := [M.compute_radial_pspec, M.run],
      steps := [{ m := M.compute_radial_pspec }, { m := M.run }] },
    { prop := M.slope, attr := A._slope, makers := [M.fit_pspec, M.run],
      steps := [{ m := M.fit_pspec }, { m := M.run }] },
    { prop := M.slope_err, attr := A._slope_err, makers := [M.fit_pspec, M.run],
      steps := [{ m := M.fit_pspec }, { m := M.run }] },
    { prop := M.slope2D, attr := A._slope2D, makers := [M.fit_2Dpspec, M.run],
      steps := [{ m := M.fit_2Dpspec }, { m := M.run, yes := [O.fit_2D] }] },
    { prop := M.slope2D_err, attr := A._slope2D_err, makers := [M.fit_2Dpspec, M.run],
      steps := [{ m := M.fit_2Dpspec }, { m := M.run, yes := [O.fit_2D] }] },
    { prop := M.theta2D, attr := A._theta2D, makers := [M.fit_2Dpspec, M.run],
      steps := [{ m := M.fit_2Dpspec }, { m := M.run, yes := [O.fit_2D] }] },
    { prop := M.theta2D_err, attr := A._theta2D_err, makers := [M.fit_2Dpspec, M.run],
      steps := [{ m := M.fit_2Dpspec }, { m := M.run, yes := [O.fit_2D] }] },
    { prop := M.ellip2D, attr := A._ellip2D, makers := [M.fit_2Dpspec, M.run],
      steps := [{ m := M.fit_2Dpspec }, { m := M.run, yes := [O.fit_2D] }] },
    { prop := M.ellip2D_err, attr := A._ellip2D_err, makers := [M.fit_2Dpspec, M.run],
      steps := [{ m := M.fit_2Dpspec }, { m := M.run, yes := [O.fit_2D] }] }]
  derived := [
    { prop := M.ps2D, attr := A._ps2D, makers := [M.compute_pspec, M.run],
      steps := [{ m := M.compute_pspec }, { m := M.run }] },
    { prop := M.wavenumbers, attr := A._freqs, makers := [M.compute_radial_pspec, M.run],
      steps := [{ m := M.compute_radial_pspec }, { m := M.run }] }]
  optional := [
    { prop := M.brk, attr := A._brk, makers := [M.fit_pspec, M.run],
      steps := [{ m := M.fit_pspec }, { m := M.run }] },
    { prop := M.brk_err, attr := A._brk_err, makers := [M.fit_pspec, M.run],
      steps := [{ m := M.fit_pspec, yes := [O.brk_is_None] }] }]
  placeholders := [
    { prop := M.ps1D_stddev, attr := A._ps1D_stddev, makers := [M.compute_radial_pspec, M.run],
      steps := [{ m := M.compute_radial_pspec }, { m := M.run }] }]
  order := [
    ([], M.compute_pspec, []),
    ([{ m := M.compute_pspec }], M.compute_radial_pspec, []),
    ([{ m := M.compute_pspec }], M.compute_beam_pspec, []),
    ([{ m := M.compute_pspec }, { m := M.compute_radial_pspec }], M.fit_pspec, []),
    ([{ m := M.compute_pspec }, { m := M.compute_radial_pspec }, { m := M.fit_pspec }], M.fit_2Dpspec, []),
    ([{ m := M.compute_pspec }, { m := M.compute_radial_pspec }, { m := M.fit_pspec }], M.plot_fit, [A._model]),
    ([{ m := M.run }], M.plot_fit, [A._model]),
    ([{ m := M.run, yes := [O.fit_2D] }], M.plot_fit, [A._model]),
    ([{ m := M.run }], M.fit_2Dpspec, [])]
  readers := [
    M.ps2D, M.ps1D, M.ps1D_stddev, M.freqs, M.wavenumbers, M.slope, M.slope_err, M.brk,
    M.brk_err, M.apodizing_kernel, M.slope2D, M.slope2D_err, M.theta2D, M.theta2D_err,
    M.ellip2D, M.ellip2D_err, M.plot_fit]

end

section
open MVC

/-- Results of `MVC`. -/
def MVC.table : Table where
  results := [
    { prop := M.ps1D, attr := A._ps1D, makers := [M.compute_radial_pspec, M.run],
      steps := [{ m := M.compute_radial_pspec }, { m := M.run }] },
    { prop := M.freqs, attr := A._freqs, makers := [M.compute_radial_pspec, M.run],
      steps := [{ m := M.compute_radial_pspec }, { m := M.run }] },
    { prop := M.slope, attr := A._slope, makers := [M.fit_pspec, M.run],
      steps := [{ m := M.fit_pspec }, { m := M.run }] },
    { prop := M.slope_err, attr := A._slope_err, makers := [M.fit_pspec, M.run],
      steps := [{ m := M.fit_pspec }, { m := M.run }] },
    { prop := M.slope2D, attr := A._slope2D, makers := [M.fit_2Dpspec, M.run],
      steps := [{ m := M.fit_2Dpspec }, { m := M.run, yes := [O.fit_2D] }] },
    { prop := M.slope2D_err, attr := A._slope2D_err, makers := [M.fit_2Dpspec, M.run],
      steps := [{ m := M.fit_2Dpspec }, { m := M.run, yes := [O.fit_2D] }] },
    { prop := M.theta2D, attr := A._theta2D, makers := [M.fit_2Dpspec, M.run],
      steps := [{ m := M.fit_2Dpspec }, { m := M.run, yes := [O.fit_2D] }] },
    { prop := M.theta2D_err, attr := A._theta2D_err, makers := [M.fit_2Dpspec, M.run],
      steps := [{ m := M.fit_2Dpspec }, { m := M.run, yes := [O.fit_2D] }] },
    { prop := M.ellip2D, attr := A._ellip2D, makers := [M.fit_2Dpspec, M.run],
      steps := [{ m := M.fit_2Dpspec }, { m := M.run, yes := [O.fit_2D] }] },
    { prop := M.ellip2D_err, attr := A._ellip2D_err, makers := [M.fit_2Dpspec, M.run],
      steps := [{ m := M.fit_2Dpspec }, { m := M.run, yes := [O.fit_2D] }] },
    { prop := M.ps1D_stddev, attr := A._ps1D_stddev, makers := [M.compute_radial_pspec, M.run],
      steps := [{ m := M.compute_radial_pspec }, { m := M.run }] }]
  derived := [
    { prop := M.ps2D, attr := A._ps2D, makers := [M.compute_pspec, M.run],
      steps := [{ m := M.compute_pspec }, { m := M.run }] },
    { prop := M.wavenumbers, attr := A._freqs, makers := [M.compute_radial_pspec, M.run],
      steps := [{ m := M.compute_radial_pspec }, { m := M.run }] }]
  optional := [
    { prop := M.brk, attr := A._brk, makers := [M.fit_pspec, M.run],
      steps := [{ m := M.fit_pspec }, { m := M.run }] },
    { prop := M.brk_err, attr := A._brk_err, makers := [M.fit_pspec, M.run],
      steps := [{ m := M.fit_pspec, yes := [O.brk_is_None] }] }]
  placeholders := []
  order := [
    ([], M.compute_pspec, []),
    ([{ m := M.compute_pspec }], M.compute_radial_pspec, []),
    ([{ m := M.compute_pspec }], M.compute_beam_pspec, []),
    ([{ m := M.compute_pspec }, { m := M.compute_radial_pspec }], M.fit_pspec, []),
    ([{ m := M.compute_pspec }, { m := M.compute_radial_pspec }, { m := M.fit_pspec }], M.fit_2Dpspec, []),
    ([{ m := M.compute_pspec }, { m := M.compute_radial_pspec }, { m := M.fit_pspec }], M.plot_fit, [A._model]),
    ([{ m := M.run }], M.plot_fit, [A._model]),
    ([{ m := M.run, yes := [O.fit_2D] }], M.plot_fit, [A._model]),
    ([{ m := M.run }], M.fit_2Dpspec, [])]
  readers := [
    M.ps2D, M.ps1D, M.ps1D_stddev, M.freqs, M.wavenumbers, M.slope, M.slope_err, M.brk,
    M.brk_err, M.apodizing_kernel, M.slope2D, M.slope2D_err, M.theta2D, M.theta2D_err,
    M.ellip2D, M.ellip2D_err, M.plot_fit, M.centroid, M.moment0, M.linewidth, M.save_results]

end

section
open VCS

/-- Results of `VCS`. -/
def VCS.table : Table where
  results := [
    { prop := M.ps1D, attr := A._ps1D, makers := [M.compute_pspec, M.run],
      steps := [{ m := M.compute_pspec }, { m := M.run }] },
    { prop := M.slope, attr := A._slope, makers := [M.fit_pspec, M.run],
      steps := [{ m := M.fit_pspec }, { m := M.run }] },
    { prop := M.slope_err, attr := A._slope_errs, makers := [M.fit_pspec, M.run],
      steps := [{ m := M.fit_pspec }, { m := M.run }] }]
  derived := [
    { prop := M.brk, attr := A.fit, makers := [M.fit_pspec, M.run],
      steps := [{ m := M.fit_pspec }, { m := M.run }] },
    { prop := M.brk_err, attr := A.fit, makers := [M.fit_pspec, M.run],
      steps := [{ m := M.fit_pspec }, { m := M.run }] }]
  optional := []
  placeholders := []
  order := [
    ([], M.compute_pspec, []),
    ([{ m := M.compute_pspec }], M.fit_pspec, []),
    ([{ m := M.compute_pspec }, { m := M.fit_pspec }], M.plot_fit, []),
    ([], M.run, []),
    ([{ m := M.run }], M.plot_fit, [])]
  readers := [
    M.ps1D, M.slope, M.slope_err, M.brk, M.brk_err, M.plot_fit]

end

section
open Wavelet

/-- Results of `Wavelet`. -/
def Wavelet.table : Table where
  results := [
    { prop := M.values, attr := A._values, makers := [M.compute_transform, M.run],
      steps := [{ m := M.compute_transform }, { m := M.run }] },
    { prop := M.stddev, attr := A._stddev, makers := [M.compute_transform, M.run],
      steps := [{ m := M.compute_transform }, { m := M.run }] },
    { prop := M.slope, attr := A._slope, makers := [M.fit_transform, M.run],
      steps := [{ m := M.fit_transform }, { m := M.run }] },
    { prop := M.slope_err, attr := A._slope_err, makers := [M.fit_transform, M.run],
      steps := [{ m := M.fit_transform }, { m := M.run }] },
    { prop := M.fit_range, attr := A._fit_range, makers := [M.fit_transform, M.run],
      steps := [{ m := M.fit_transform }, { m := M.run }] }]
  derived := [
    { prop := M.fitted_model, attr := A._model, makers := [M.fit_transform, M.run],
      steps := [{ m := M.fit_transform }, { m := M.run }] }]
  optional := [
    { prop := M.Wf, attr := A._Wf, makers := [M.compute_transform, M.run],
      steps := [{ m := M.compute_transform }, { m := M.run }] },
    { prop := M.brk, attr := A._brk, makers := [M.fit_transform, M.run],
      steps := [{ m := M.fit_transform }, { m := M.run }] },
    { prop := M.brk_err, attr := A._brk_err, makers := [M.fit_transform, M.run],
      steps := [] }]
  placeholders := []
  order := [
    ([], M.compute_transform, []),
    ([{ m := M.compute_transform }], M.fit_transform, []),
    ([{ m := M.compute_transform }, { m := M.fit_transform }], M.plot_transform, []),
    ([{ m := M.fit_transform }], M.fitted_model, []),
    ([], M.run, []),
    ([{ m := M.run }], M.plot_transform, [])]
  readers := [
    M.scales, M.Wf, M.values, M.stddev, M.slope, M.slope_err, M.brk, M.brk_err, M.fit_range,
    M.fitted_model, M.plot_transform]

end

section
open DeltaVariance

/-- Results of `DeltaVariance`. -/
def DeltaVariance.table : Table where
  results := [
    { prop := M.delta_var, attr := A._delta_var, makers := [M.compute_deltavar, M.run],
      steps := [{ m := M.compute_deltavar }, { m := M.run }] },
    { prop := M.delta_var_error, attr := A._delta_var_error, makers := [M.compute_deltavar, M.run],
      steps := [{ m := M.compute_deltavar }, { m := M.run }] },
    { prop := M.slope, attr := A._slope, makers := [M.fit_plaw, M.run],
      steps := [{ m := M.fit_plaw }, { m := M.run }] },
    { prop := M.slope_err, attr := A._slope_err, makers := [M.fit_plaw, M.run],
      steps := [{ m := M.fit_plaw }, { m := M.run }] },
    { prop := M.fit_range, attr := A._fit_range, makers := [M.fit_plaw, M.run],
      steps := [{ m := M.fit_plaw }, { m := M.run }] }]
  derived := [
    { prop := M.fitted_model, attr := A._model, makers := [M.fit_plaw, M.run],
      steps := [{ m := M.fit_plaw }, { m := M.run }] }]
  optional := [
    { prop := M.brk, attr := A._brk, makers := [M.fit_plaw, M.run],
      steps := [{ m := M.fit_plaw }, { m := M.run }] },
    { prop := M.brk_err, attr := A._brk_err, makers := [M.fit_plaw, M.run],
      steps := [] }]
  placeholders := []
  order := [
    ([], M.compute_deltavar, []),
    ([{ m := M.compute_deltavar }], M.fit_plaw, []),
    ([{ m := M.compute_deltavar }, { m := M.fit_plaw }], M.plot_fit, []),
    ([{ m := M.fit_plaw }], M.fitted_model, []),
    ([], M.run, []),
    ([{ m := M.run }], M.plot_fit, [])]
  readers := [
    M.lags, M.weights, M.convolve_arrays, M.convolve_weights, M.delta_var, M.delta_var_error,
    M.brk, M.brk_err, M.slope, M.slope_err, M.fit_range, M.fitted_model, M.plot_fit]

end

section
open SCF

/-- Results of `SCF`. -/
def SCF.table : Table where
  results := [
    { prop := M.scf_spectrum, attr := A._scf_spectrum, makers := [M.compute_spectrum, M.run],
      steps := [{ m := M.compute_spectrum }, { m := M.run }] },
    { prop := M.lags, attr := A._lags, makers := [M.compute_spectrum, M.run],
      steps := [{ m := M.compute_spectrum }, { m := M.run }] },
    { prop := M.slope, attr := A._slope, makers := [M.fit_plaw, M.run],
      steps := [{ m := M.fit_plaw }, { m := M.run }] },
    { prop := M.slope_err, attr := A._slope_err, makers := [M.fit_plaw, M.run],
      steps := [{ m := M.fit_plaw }, { m := M.run }] },
    { prop := M.xlow, attr := A._xlow, makers := [M.fit_plaw, M.fit_2Dplaw, M.run],
      steps := [{ m := M.fit_plaw }, { m := M.fit_2Dplaw }, { m := M.run }] },
    { prop := M.xhigh, attr := A._xhigh, makers := [M.fit_plaw, M.fit_2Dplaw, M.run],
      steps := [{ m := M.fit_plaw }, { m := M.fit_2Dplaw }, { m := M.run }] },
    { prop := M.slope2D, attr := A._slope2D, makers := [M.fit_2Dplaw, M.run],
      steps := [{ m := M.fit_2Dplaw }, { m := M.run, yes := [O.fit_2D] }] },
    { prop := M.slope2D_err, attr := A._slope2D_err, makers := [M.fit_2Dplaw, M.run],
      steps := [{ m := M.fit_2Dplaw }, { m := M.run, yes := [O.fit_2D] }] },
    { prop := M.theta2D, attr := A._theta2D, makers := [M.fit_2Dplaw, M.run],
      steps := [{ m := M.fit_2Dplaw }, { m := M.run, yes := [O.fit_2D] }] },
    { prop := M.theta2D_err, attr := A._theta2D_err, makers := [M.fit_2Dplaw, M.run],
      steps := [{ m := M.fit_2Dplaw }, { m := M.run, yes := [O.fit_2D] }] },
    { prop := M.ellip2D, attr := A._ellip2D, makers := [M.fit_2Dplaw, M.run],
      steps := [{ m := M.fit_2Dplaw }, { m := M.run, yes := [O.fit_2D] }] },
    { prop := M.ellip2D_err, attr := A._ellip2D_err, makers := [M.fit_2Dplaw, M.run],
      steps := [{ m := M.fit_2Dplaw }, { m := M.run, yes := [O.fit_2D] }] }]
  derived := [
    { prop := M.fitted_model, attr := A.fit, makers := [M.fit_plaw, M.run],
      steps := [{ m := M.fit_plaw }, { m := M.run }] }]
  optional := []
  placeholders := [
    { prop := M.scf_surface, attr := A._scf_surface, makers := [M.compute_surface, M.compute_spectrum, M.run],
      steps := [{ m := M.compute_surface }, { m := M.compute_spectrum }, { m := M.run }] },
    { prop := M.scf_spectrum_stddev, attr := A._scf_spectrum_stddev, makers := [M.compute_spectrum, M.run],
      steps := [{ m := M.compute_spectrum }, { m := M.run }] }]
  order := [
    ([], M.compute_surface, []),
    ([], M.compute_spectrum, []),
    ([{ m := M.compute_spectrum }], M.fit_plaw, []),
    ([{ m := M.compute_spectrum }, { m := M.fit_plaw }], M.fit_2Dplaw, []),
    ([{ m := M.compute_spectrum }, { m := M.fit_plaw }, { m := M.fit_2Dplaw }], M.plot_fit, [A._azim_mask]),
    ([{ m := M.compute_spectrum }, { m := M.fit_plaw }], M.plot_fit, [A._azim_mask, A.fit2D]),
    ([{ m := M.run, yes := [O.fit_2D] }], M.plot_fit, [A._azim_mask])]
  readers := [
    M.roll_lags, M.scf_surface, M.scf_spectrum, M.scf_spectrum_stddev, M.lags, M.slope,
    M.slope_err, M.xlow, M.xhigh, M.fitted_model, M.slope2D, M.slope2D_err, M.theta2D,
    M.theta2D_err, M.ellip2D, M.ellip2D_err, M.plot_fit]

end

section
open PCA

/-- Results of `PCA`. -/
def PCA.table : Table where
  results := [
    { prop := M.n_eigs, attr := A._n_eigs, makers := [M.n_eigs__set, M.compute_pca, M.run],
      steps := [{ m := M.n_eigs__set }, { m := M.compute_pca }, { m := M.run }] },
    { prop := M.var_proportion, attr := A._var_prop, makers := [M.compute_pca, M.run],
      steps := [{ m := M.compute_pca }, { m := M.run }] },
    { prop := M.total_variance, attr := A._total_variance, makers := [M.compute_pca, M.run],
      steps := [{ m := M.compute_pca }, { m := M.run }] },
    { prop := M.eigvals, attr := A._eigvals, makers := [M.compute_pca, M.run],
      steps := [{ m := M.compute_pca }, { m := M.run }] },
    { prop := M.eigvecs, attr := A._eigvecs, makers := [M.compute_pca, M.run],
      steps := [{ m := M.compute_pca }, { m := M.run }] },
    { prop := M.index, attr := A._index, makers := [M.fit_plaw, M.run],
      steps := [{ m := M.fit_plaw }, { m := M.run, no := [O.decomp_only] }] },
    { prop := M.index_error_range, attr := A._index_error_range, makers := [M.fit_plaw, M.run],
      steps := [{ m := M.fit_plaw }, { m := M.run, no := [O.decomp_only] }] }]
  derived := [
    { prop := M.spatial_width, attr := A._spatial_width, makers := [M.find_spatial_widths, M.run],
      steps := [{ m := M.find_spatial_widths }, { m := M.run, no := [O.decomp_only] }] },
    { prop := M.spatial_width_error, attr := A._spatial_width_error, makers := [M.find_spatial_widths, M.run],
      steps := [{ m := M.find_spatial_widths }, { m := M.run, no := [O.decomp_only] }] },
    { prop := M.spectral_width, attr := A._spectral_width, makers := [M.find_spectral_widths, M.run],
      steps := [{ m := M.find_spectral_widths }, { m := M.run, no := [O.decomp_only] }] },
    { prop := M.spectral_width_error, attr := A._spectral_width_error, makers := [M.find_spectral_widths, M.run],
      steps := [{ m := M.find_spectral_widths }, { m := M.run, no := [O.decomp_only] }] },
    { prop := M.intercept, attr := A._intercept, makers := [M.fit_plaw, M.run],
      steps := [{ m := M.fit_plaw }, { m := M.run, no := [O.decomp_only] }] },
    { prop := M.intercept_error_range, attr := A._intercept_error_range, makers := [M.fit_plaw, M.run],
      steps := [{ m := M.fit_plaw }, { m := M.run, no := [O.decomp_only] }] },
    { prop := M.gamma, attr := A._index, makers := [M.fit_plaw, M.run],
      steps := [{ m := M.fit_plaw }, { m := M.run, no := [O.decomp_only] }] },
    { prop := M.gamma_error_range, attr := A._index_error_range, makers := [M.fit_plaw, M.run],
      steps := [{ m := M.fit_plaw }, { m := M.run, no := [O.decomp_only] }] },
    { prop := M.model, attr := A._index, makers := [M.fit_plaw, M.run],
      steps := [{ m := M.fit_plaw }, { m := M.run, no := [O.decomp_only] }] }]
  optional := []
  placeholders := []
  order := [
    ([], M.compute_pca, []),
    ([{ m := M.compute_pca }], M.eigimages, []),
    ([{ m := M.compute_pca }], M.autocorr_images, []),
    ([{ m := M.compute_pca }], M.autocorr_spec, []),
    ([{ m := M.compute_pca }], M.noise_ACF, []),
    ([{ m := M.compute_pca }], M.find_spatial_widths, []),
    ([{ m := M.compute_pca }], M.find_spectral_widths, []),
    ([{ m := M.find_spatial_widths }, { m := M.find_spectral_widths }], M.fit_plaw, []),
    ([{ m := M.fit_plaw }], M.sonic_length, [A._samps]),
    ([{ m := M.compute_pca }, { m := M.find_spatial_widths }, { m := M.find_spectral_widths }, { m := M.fit_plaw }], M.plot_fit, []),
    ([{ m := M.run, no := [O.decomp_only] }], M.plot_fit, []),
    ([{ m := M.run, no := [O.decomp_only] }], M.sonic_length, [A._samps])]
  readers := [
    M.n_eigs, M.var_proportion, M.total_variance, M.eigvals, M.eigvecs, M._valid_eigenvectors,
    M.eigimages, M.autocorr_images, M.autocorr_spec, M.noise_ACF, M.spatial_width,
    M.spatial_width_error, M.spectral_width, M.spectral_width_error, M.index,
    M.index_error_range, M.gamma, M.gamma_error_range, M.intercept, M.intercept_error_range,
    M.model, M.sonic_length, M.plot_fit]

end

section
open PDF

/-- Results of `PDF`. -/
def PDF.table : Table where
  results := []
  derived := []
  optional := [
    { prop := M.model_params, attr := A._model_params, makers := [M.fit_pdf, M.run],
      steps := [] },
    { prop := M.model_stderrs, attr := A._model_stderrs, makers := [M.fit_pdf, M.run],
      steps := [] },
    { prop := M.corner_plot, attr := A._mcmc_chain, makers := [M.fit_pdf, M.run],
      steps := [] },
    { prop := M.trace_plot, attr := A._mcmc_chain, makers := [M.fit_pdf, M.run],
      steps := [] }]
  placeholders := [
    { prop := M.pdf, attr := A._pdf, makers := [M.make_pdf, M.make_ecdf, M.run],
      steps := [{ m := M.make_pdf }, { m := M.make_ecdf }, { m := M.run }] },
    { prop := M.ecdf, attr := A._ecdf, makers := [M.make_ecdf, M.find_percentile, M.run],
      steps := [{ m := M.make_ecdf }, { m := M.find_percentile }, { m := M.run }] }]
  order := [
    ([], M.make_pdf, []),
    ([], M.make_ecdf, []),
    ([{ m := M.make_ecdf }], M.find_percentile, []),
    ([{ m := M.run }], M.find_percentile, []),
    ([], M.find_at_percentile, []),
    ([], M.fit_pdf, []),
    ([{ m := M.fit_pdf }], M.plot_distrib, []),
    ([{ m := M.run, yes := [O.do_fit] }], M.plot_distrib, []),
    ([], M.run, [A._fit_fixes, A._scipy_model])]
  readers := [
    M.normalization_type, M.pdf, M.bins, M.ecdf, M.find_at_percentile, M.model_params,
    M.model_stderrs, M.corner_plot, M.trace_plot, M.plot_distrib]

end

section
open Tsallis

/-- Results of `Tsallis`. -/
def Tsallis.table : Table where
  results := [
    { prop := M.lag_arrays, attr := A._lag_arrays, makers := [M.make_tsallis, M.run],
      steps := [{ m := M.make_tsallis }, { m := M.run }] },
    { prop := M.lag_distribs, attr := A._lag_distribs, makers := [M.make_tsallis, M.run],
      steps := [{ m := M.make_tsallis }, { m := M.run }] },
    { prop := M.tsallis_params, attr := A._tsallis_params, makers := [M.fit_tsallis, M.run],
      steps := [{ m := M.fit_tsallis }, { m := M.run }] },
    { prop := M.tsallis_stderrs, attr := A._tsallis_stderrs, makers := [M.fit_tsallis, M.run],
      steps := [{ m := M.fit_tsallis }, { m := M.run }] },
    { prop := M.tsallis_chisq, attr := A._tsallis_chisq, makers := [M.fit_tsallis, M.run],
      steps := [{ m := M.fit_tsallis }, { m := M.run }] }]
  derived := [
    { prop := M.tsallis_table, attr := A._tsallis_params, makers := [M.fit_tsallis, M.run],
      steps := [{ m := M.fit_tsallis }, { m := M.run }] }]
  optional := []
  placeholders := []
  order := [
    ([], M.make_tsallis, []),
    ([], M.fit_tsallis, []),
    ([{ m := M.fit_tsallis }], M.plot_parameters, []),
    ([{ m := M.make_tsallis }, { m := M.fit_tsallis }], M.plot_fit, []),
    ([], M.run, []),
    ([{ m := M.run }], M.plot_fit, []),
    ([{ m := M.run }], M.plot_parameters, [])]
  readers := [
    M.lags, M.lag_arrays, M.lag_distribs, M.tsallis_params, M.tsallis_stderrs, M.tsallis_chisq,
    M.tsallis_table, M.plot_parameters, M.plot_fit]

end

section
open StatMoments

/-- Results of `StatMoments`. -/
def StatMoments.table : Table where
  results := [
    { prop := M.mean_array, attr := A._mean_array, makers := [M.compute_spatial_distrib, M.run],
      steps := [{ m := M.compute_spatial_distrib }, { m := M.run }] },
    { prop := M.mean_hist, attr := A._mean_hist, makers := [M.make_spatial_histograms, M.run],
      steps := [{ m := M.make_spatial_histograms }, { m := M.run }] },
    { prop := M.variance_array, attr := A._variance_array, makers := [M.compute_spatial_distrib, M.run],
      steps := [{ m := M.compute_spatial_distrib }, { m := M.run }] },
    { prop := M.variance_hist, attr := A._variance_hist, makers := [M.make_spatial_histograms, M.run],
      steps := [{ m := M.make_spatial_histograms }, { m := M.run }] },
    { prop := M.skewness_array, attr := A._skewness_array, makers := [M.compute_spatial_distrib, M.run],
      steps := [{ m := M.compute_spatial_distrib }, { m := M.run }] },
    { prop := M.skewness_hist, attr := A._skewness_hist, makers := [M.make_spatial_histograms, M.run],
      steps := [{ m := M.make_spatial_histograms }, { m := M.run }] },
    { prop := M.kurtosis_array, attr := A._kurtosis_array, makers := [M.compute_spatial_distrib, M.run],
      steps := [{ m := M.compute_spatial_distrib }, { m := M.run }] },
    { prop := M.kurtosis_hist, attr := A._kurtosis_hist, makers := [M.make_spatial_histograms, M.run],
      steps := [{ m := M.make_spatial_histograms }, { m := M.run }] }]
  derived := [
    { prop := M.mean_extrema, attr := A._mean_array, makers := [M.compute_spatial_distrib, M.run],
      steps := [{ m := M.compute_spatial_distrib }, { m := M.run }] },
    { prop := M.variance_extrema, attr := A._variance_array, makers := [M.compute_spatial_distrib, M.run],
      steps := [{ m := M.compute_spatial_distrib }, { m := M.run }] },
    { prop := M.skewness_extrema, attr := A._skewness_array, makers := [M.compute_spatial_distrib, M.run],
      steps := [{ m := M.compute_spatial_distrib }, { m := M.run }] },
    { prop := M.kurtosis_extrema, attr := A._kurtosis_array, makers := [M.compute_spatial_distrib, M.run],
      steps := [{ m := M.compute_spatial_distrib }, { m := M.run }] }]
  optional := []
  placeholders := []
  order := [
    ([], M.array_moments, []),
    ([], M.compute_spatial_distrib, []),
    ([{ m := M.compute_spatial_distrib }], M.make_spatial_histograms, []),
    ([{ m := M.make_spatial_histograms }], M.plot_histograms, []),
    ([{ m := M.compute_spatial_distrib }], M.plot_maps, []),
    ([], M.run, []),
    ([{ m := M.run }], M.plot_histograms, []),
    ([{ m := M.run }], M.plot_maps, [])]
  readers := [
    M.radius, M.mean_array, M.variance_array, M.skewness_array, M.kurtosis_array,
    M.mean_extrema, M.variance_extrema, M.skewness_extrema, M.kurtosis_extrema, M.mean_hist,
    M.variance_hist, M.skewness_hist, M.kurtosis_hist, M.plot_histograms, M.plot_maps]

end

section
open Genus

/-- Results of `Genus`. -/
def Genus.table : Table where
  results := [
    { prop := M.genus_stats, attr := A._genus_stats, makers := [M.make_genus_curve, M.run],
      steps := [{ m := M.make_genus_curve }, { m := M.run }] },
    { prop := M.smoothed_means, attr := A._smoothed_means, makers := [M.make_genus_curve, M.run],
      steps := [{ m := M.make_genus_curve }, { m := M.run }] },
    { prop := M.smoothed_stds, attr := A._smoothed_stds, makers := [M.make_genus_curve, M.run],
      steps := [{ m := M.make_genus_curve }, { m := M.run }] }]
  derived := []
  optional := [
    { prop := M.smoothed_images, attr := A._smoothed_images, makers := [M.make_genus_curve, M.run],
      steps := [{ m := M.make_genus_curve, yes := [O.keep_smoothed_images] }] }]
  placeholders := []
  order := [
    ([], M.make_genus_curve, []),
    ([{ m := M.make_genus_curve }], M.plot_fit, []),
    ([], M.run, []),
    ([{ m := M.run }], M.plot_fit, []),
    ([{ m := M.run }], M.make_genus_stats_table, [])]
  readers := [
    M.thresholds, M.smoothing_radii, M.smoothed_images, M.smoothed_means, M.smoothed_stds,
    M.genus_stats, M.make_genus_stats_table, M.plot_fit]

end

section
open Dendrogram_Stats

/-- Results of `Dendrogram_Stats`. -/
def Dendrogram_Stats.table : Table where
  results := [
    { prop := M.numfeatures, attr := A._numfeatures, makers := [M.compute_dendro, M.run],
      steps := [{ m := M.compute_dendro }, { m := M.run }] },
    { prop := M.hists, attr := A._hists, makers := [M.make_hists, M.run],
      steps := [{ m := M.make_hists }, { m := M.run, yes := [O.make_hists] }] },
    { prop := M.model, attr := A._model, makers := [M.fit_numfeat, M.run],
      steps := [{ m := M.fit_numfeat }, { m := M.run }] },
    { prop := M.fitvals, attr := A._fitvals, makers := [M.fit_numfeat, M.run],
      steps := [{ m := M.fit_numfeat }, { m := M.run }] },
    { prop := M.tail_slope, attr := A._tail_slope, makers := [M.fit_numfeat, M.run],
      steps := [{ m := M.fit_numfeat }, { m := M.run }] },
    { prop := M.tail_slope_err, attr := A._tail_slope_err, makers := [M.fit_numfeat, M.run],
      steps := [{ m := M.fit_numfeat }, { m := M.run }] }]
  derived := []
  optional := [
    { prop := M.values, attr := A._values, makers := [M.compute_dendro, M.run],
      steps := [{ m := M.compute_dendro }, { m := M.run }] }]
  placeholders := []
  order := [
    ([], M.autoset_min_deltas, []),
    ([], M.compute_dendro, []),
    ([{ m := M.compute_dendro }], M.make_hists, []),
    ([{ m := M.compute_dendro }], M.fit_numfeat, []),
    ([{ m := M.compute_dendro }, { m := M.fit_numfeat }], M.plot_fit, []),
    ([], M.run, []),
    ([{ m := M.run }], M.plot_fit, []),
    ([{ m := M.run }], M.make_hists, [])]
  readers := [
    M.min_deltas, M.numfeatures, M.values, M.hists, M.model, M.fitvals, M.tail_slope,
    M.tail_slope_err, M.plot_fit]

end

section
open Bispectrum

/-- Results of `Bispectrum`. -/
def Bispectrum.table : Table where
  results := [
    { prop := M.bispectrum, attr := A._bispectrum, makers := [M.compute_bispectrum, M.run],
      steps := [{ m := M.compute_bispectrum }, { m := M.run }] },
    { prop := M.bispectrum_logamp, attr := A._bispectrum_amp, makers := [M.compute_bispectrum, M.run],
      steps := [{ m := M.compute_bispectrum }, { m := M.run }] },
    { prop := M.bicoherence, attr := A._bicoherence, makers := [M.compute_bispectrum, M.run],
      steps := [{ m := M.compute_bispectrum }, { m := M.run }] },
    { prop := M.tracker, attr := A._tracker, makers := [M.compute_bispectrum, M.run],
      steps := [{ m := M.compute_bispectrum }, { m := M.run }] }]
  derived := [
    { prop := M.azimuthal_slice, attr := A._bispectrum, makers := [M.compute_bispectrum, M.run],
      steps := [{ m := M.compute_bispectrum }, { m := M.run }] },
    { prop := M.radial_slice, attr := A._bispectrum, makers := [M.compute_bispectrum, M.run],
      steps := [{ m := M.compute_bispectrum }, { m := M.run }] }]
  optional := []
  placeholders := []
  order := [
    ([], M.compute_bispectrum, []),
    ([{ m := M.compute_bispectrum }], M.azimuthal_slice, []),
    ([{ m := M.compute_bispectrum }], M.radial_slice, []),
    ([{ m := M.compute_bispectrum }], M.plot_surface, []),
    ([], M.run, []),
    ([{ m := M.run }], M.plot_surface, [])]
  readers := [
    M.bispectrum, M.bispectrum_logamp, M.bicoherence, M.tracker, M.azimuthal_slice,
    M.radial_slice, M.plot_surface]

end

end Life
end TS
