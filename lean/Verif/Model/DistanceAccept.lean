import Verif.Model.LifecycleSpectra
import Verif.Model.LifecycleScales
import Verif.Model.LifecycleCounts
import Verif.Spec.Accept

/-!
# What the distance classes do with statistics computed beforehand

For every distance class that takes an object of its statistic: the attribute it
looks for, the methods it runs when it is missing, and what it reads afterwards,
in order.  The code for the second data set is the same as for the first; the lines
cited are those for the first.  The decisions that depend on the values (lags,
`min_deltas` or radius that differ) can lead to a run at any time, so `Intake.Taken`
allows the run for every object; which options the run gets is in `DistanceInit.lean`.
-/

namespace TS
namespace Life

section
open PowerSpectrum

/-- turbustat/statistics/pspec_bispec/pspec.py:271-295 (constructor), 358-361 (distance),
363-390 (plot) -/
def PowerSpectrum.intake : Intake where
  check := A._slope
  sets := []
  rerun := [M.run]
  reads := [.call M.slope, .call M.slope_err]
  shows := [.attr A.fit, .call M.plot_fit]

end

section
open VCA

/-- turbustat/statistics/vca_vcs/vca.py:276-293 (constructor), 344-347 (distance),
349-377 (plot) -/
def VCA.intake : Intake where
  check := A._slope
  sets := []
  rerun := [M.run]
  reads := [.call M.slope, .call M.slope_err]
  shows := [.attr A.fit, .call M.plot_fit]

end

section
open MVC

/-- turbustat/statistics/mvc/mvc.py:349-351 and 397-408 (constructor), 458-461 (distance),
463-490 (plot) -/
def MVC.intake : Intake where
  check := A._slope
  sets := []
  rerun := [M.run]
  reads := [.call M.slope, .call M.slope_err]
  shows := [.attr A.fit, .call M.plot_fit]

end

section
open VCS

/-- turbustat/statistics/vca_vcs/vcs.py:429-441 (constructor), 484-506 (distance; the reads of
the second slope and of the break, 494-502, are made when both fits have two slopes, and
are always made here), 508-532 (plot) -/
def VCS.intake : Intake where
  check := A._slope
  sets := []
  rerun := [M.run]
  reads := [.call M.slope, .call M.slope_err, .call M.slope, .call M.slope_err, .call M.brk,
    .call M.brk_err]
  shows := [.attr A.fit, .call M.plot_fit]

end

section
open Wavelet

/-- turbustat/statistics/wavelets/wavelet_transform.py:650-662 (constructor), 706-709
(distance), 711-737 (plot) -/
def Wavelet.intake : Intake where
  check := A._slope
  sets := []
  rerun := [M.run]
  reads := [.call M.slope, .call M.slope_err]
  shows := [.attr A.fit, .call M.plot_transform]

end

section
open DeltaVariance

/-- turbustat/statistics/delta_variance/delta_variance.py:795-806 (constructor; `_lags` is
stored directly at 805, here by the setter, whose completed calls do the same), 867-918
(distance, with `use_common_lags`), 920-943 (plot) -/
def DeltaVariance.intake : Intake where
  check := A._slope
  sets := [M.lags__set]
  rerun := [M.run]
  reads := [.call M.delta_var, .call M.fit_range, .call M.lags, .call M.delta_var, .call M.slope,
    .call M.slope_err]
  shows := [.attr A.fit, .call M.plot_fit]

end

section
open SCF

/-- turbustat/statistics/scf/scf.py:896-922 (constructor), 1000-1002 (distance), 1004-1059
(plot; the unit conversions of the base class are left out) -/
def SCF.intake : Intake where
  check := A._scf_spectrum
  sets := [M.roll_lags__set]
  rerun := [M.compute_surface, M.compute_spectrum]
  reads := [.call M.scf_surface]
  shows := [.call M.scf_surface, .call M.lags, .call M.scf_spectrum, .call M.scf_spectrum_stddev]

end

section
open PCA

/-- turbustat/statistics/pca/pca.py:1073-1095 (constructor: `hasattr` of the property, which is
there when the attribute behind it is), 1153-1158 (distance), 1160-1193 (plot) -/
def PCA.intake : Intake where
  check := A._eigvals
  sets := [M.n_eigs__set]
  rerun := [M.run]
  reads := [.call M.eigvals]
  shows := [.call M.var_proportion, .attr A.cov_matrix, .call M.n_eigs]

end

section
open StatMoments

/-- turbustat/statistics/stat_moments/highstatmoments.py:578-601 (constructor; `nbins`, which
the statistic always has, is not followed), 642-653 and 681-691 (distance), 693-750 (plot) -/
def StatMoments.intake : Intake where
  check := A._kurtosis_array
  sets := [M.radius__set]
  rerun := [M.compute_spatial_distrib]
  reads := [.call M.skewness_array, .call M.kurtosis_array, .call M.make_spatial_histograms,
    .call M.kurtosis_hist, .call M.skewness_hist]
  shows := [.call M.kurtosis_hist, .call M.skewness_hist]

end

section
open Dendrogram_Stats

/-- turbustat/statistics/dendrograms/dendro_stats.py:546-558 and 592 (constructor), 718-739
(histogram distance) and 638-641 (distance of the slopes), 795 and 666-670 (plots) -/
def Dendrogram_Stats.intake : Intake where
  check := A._tail_slope
  sets := []
  rerun := [M.run]
  reads := [.call M.min_deltas, .call M.numfeatures, .call M.numfeatures, .call M.values,
    .call M.tail_slope, .call M.tail_slope_err]
  shows := [.call M.min_deltas, .call M.fitvals, .call M.model]

end

section
open Bispectrum

/-- turbustat/statistics/pspec_bispec/bispec.py:541-553 (constructor), 599-609 (distance),
611-635 (plot) -/
def Bispectrum.intake : Intake where
  check := A._bicoherence
  sets := []
  rerun := [M.run]
  reads := [.call M.bicoherence]
  shows := [.call M.bicoherence]

end

end Life
end TS
