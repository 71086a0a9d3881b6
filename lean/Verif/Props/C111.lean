import Verif.Lemmas.Accept
import Verif.Lemmas.LifecycleFlags
import Verif.Lemmas.LifecycleCerts
import Verif.Model.DistanceAccept

/-!
# C111: a statistic computed beforehand, once accepted by a distance class, has what the distance reads

Every distance class that takes an object of its statistic looks for one attribute, keeps
the object when it is there, and runs the object when it is not.  The meaning of the
statements is in `Verif/Spec/Accept.lean`, the attribute looked for and what is read
are in `Verif/Model/DistanceAccept.lean`, the statistics are those of C109.

* `Serves`: for every history of completed calls, the distance finds all it reads.
* `ServesAll`: the same when calls may also have failed, at any point.
* The violations: an interrupted fit or computation passes for a complete one; an
  unbinned fit passes for one that can be plotted.
-/

namespace TS

open Life

section
open PowerSpectrum

/-- **C111** for the spatial power spectrum, objects on which every call completed. Missing: objects with failed calls (see the violation), and the plot after an unbinned fit alone (`_ps1D`, `_freqs`). -/
theorem C111_PowerSpectrum_partial : PowerSpectrum.intake.Serves PowerSpectrum.cls
    [A._slope, A._slope_err] [A._ps1D, A._freqs] :=
  serves_less PowerSpectrum.cert (by decide +kernel) (by decide +kernel) [M.fit_pspec, M.run]
    [.stored A._slope [A._ps1D, A._freqs] A._ps2D] A._model [⟨A.slope_is_array, A._model, 0, []⟩]
    (by decide +kernel) (by decide +kernel) (by decide +kernel) (by decide +kernel)

/-- Such an object: construct, `run`; it is kept, and the distance is computed. -/
example : ∃ h s, Hist PowerSpectrum.cls h s ∧ (h.map fun c => (c.m, c.out)) = [(M.run, .done)] ∧
    PowerSpectrum.intake.Taken PowerSpectrum.cls s s ∧ ∃ s', Uses PowerSpectrum.cls PowerSpectrum.intake.reads s s' .done :=
  playKept_hist (init := ([], 0, [])) (l := [(M.run, [], 0, [true])])
    (by decide +kernel)

end

section
open VCA

/-- **C111** for VCA, objects on which every call completed. Missing: as for the power spectrum. -/
theorem C111_VCA_partial : VCA.intake.Serves VCA.cls
    [A._slope, A._slope_err] [A._ps1D, A._freqs] :=
  serves_less VCA.cert (by decide +kernel) (by decide +kernel) [M.fit_pspec, M.run]
    [.stored A._slope [A._ps1D, A._freqs] A._ps2D] A._model [⟨A.slope_is_array, A._model, 0, []⟩]
    (by decide +kernel) (by decide +kernel) (by decide +kernel) (by decide +kernel)

/-- Such an object: construct, `run`; it is kept, and the distance is computed. -/
example : ∃ h s, Hist VCA.cls h s ∧ (h.map fun c => (c.m, c.out)) = [(M.run, .done)] ∧
    VCA.intake.Taken VCA.cls s s ∧ ∃ s', Uses VCA.cls VCA.intake.reads s s' .done :=
  playKept_hist (init := ([], 0, [])) (l := [(M.run, [], 0, [true])])
    (by decide +kernel)

end

section
open MVC

/-- **C111** for MVC, objects on which every call completed. Missing: as for the power spectrum. -/
theorem C111_MVC_partial : MVC.intake.Serves MVC.cls
    [A._slope, A._slope_err] [A._ps1D, A._ps1D_stddev, A._freqs] :=
  serves_less MVC.cert (by decide +kernel) (by decide +kernel) [M.fit_pspec, M.run]
    [.stored A._slope [A._ps1D, A._freqs] A._ps2D] A._model [⟨A.slope_is_array, A._model, 0, []⟩]
    (by decide +kernel) (by decide +kernel) (by decide +kernel) (by decide +kernel)

/-- Such an object: construct, `run`; it is kept, and the distance is computed. -/
example : ∃ h s, Hist MVC.cls h s ∧ (h.map fun c => (c.m, c.out)) = [(M.run, .done)] ∧
    MVC.intake.Taken MVC.cls s s ∧ ∃ s', Uses MVC.cls MVC.intake.reads s s' .done :=
  playKept_hist (init := ([], 0, [])) (l := [(M.run, [], 0, [true])])
    (by decide +kernel)

end

section
open VCS

/-- **C111** for VCS, objects on which every call completed. -/
theorem C111_VCS : VCS.intake.Serves VCS.cls
    [A._slope, A._slope_errs, A.fit] [] :=
  serves_of VCS.cert (by decide +kernel) (by decide +kernel) [M.fit_pspec, M.run]
    [] (by decide +kernel)

/-- Such an object: construct, `run`; it is kept, and the distance is computed. -/
example : ∃ h s, Hist VCS.cls h s ∧ (h.map fun c => (c.m, c.out)) = [(M.run, .done)] ∧
    VCS.intake.Taken VCS.cls s s ∧ ∃ s', Uses VCS.cls VCS.intake.reads s s' .done :=
  playKept_hist (init := ([], 0, [])) (l := [(M.run, [], 0, [])])
    (by decide +kernel)

end

section
open Wavelet

/-- **C111** for the wavelet transform, objects on which every call completed. Missing: objects with failed calls (see the violation). -/
theorem C111_Wavelet_partial : Wavelet.intake.Serves Wavelet.cls
    [A._slope, A._slope_err] [] :=
  serves_of Wavelet.cert (by decide +kernel) (by decide +kernel) [M.fit_transform, M.run]
    [.stored A._slope [] A._values, .made A._values [M.compute_transform, M.run] A._stddev] (by decide +kernel)

/-- Such an object: construct, `run`; it is kept, and the distance is computed. -/
example : ∃ h s, Hist Wavelet.cls h s ∧ (h.map fun c => (c.m, c.out)) = [(M.run, .done)] ∧
    Wavelet.intake.Taken Wavelet.cls s s ∧ ∃ s', Uses Wavelet.cls Wavelet.intake.reads s s' .done :=
  playKept_hist (init := ([], 0, [true, false, true])) (l := [(M.run, [], 0, [])])
    (by decide +kernel)

end

section
open DeltaVariance

/-- **C111** for the delta-variance, objects on which every call completed. Missing: objects with failed calls (see the violation). -/
theorem C111_DeltaVariance_partial : DeltaVariance.intake.Serves DeltaVariance.cls
    [A._slope, A._slope_err] [] :=
  serves_of DeltaVariance.cert (by decide +kernel) (by decide +kernel) [M.fit_plaw, M.run]
    [] (by decide +kernel)

/-- Such an object: construct, `run`; it is kept, and the distance is computed. -/
example : ∃ h s, Hist DeltaVariance.cls h s ∧ (h.map fun c => (c.m, c.out)) = [(M.run, .done)] ∧
    DeltaVariance.intake.Taken DeltaVariance.cls s s ∧ ∃ s', Uses DeltaVariance.cls DeltaVariance.intake.reads s s' .done :=
  playKept_hist (init := ([], 0, [true, false, false, true])) (l := [(M.run, [], 0, [])])
    (by decide +kernel)

end

section
open SCF

/-- **C111** for the spectral correlation function, objects on which every call completed. -/
theorem C111_SCF : SCF.intake.Serves SCF.cls
    [A._scf_surface, A._scf_spectrum] [] :=
  serves_of SCF.cert (by decide +kernel) (by decide +kernel) [M.compute_spectrum, M.run]
    [] (by decide +kernel)

/-- Such an object: construct, `run`; it is kept, and the distance is computed. -/
example : ∃ h s, Hist SCF.cls h s ∧ (h.map fun c => (c.m, c.out)) = [(M.run, .done)] ∧
    SCF.intake.Taken SCF.cls s s ∧ ∃ s', Uses SCF.cls SCF.intake.reads s s' .done :=
  playKept_hist (init := ([], 0, [true, true, true])) (l := [(M.run, [], 0, [false, false, true, true, true])])
    (by decide +kernel)

end

section
open PCA

/-- **C111** for PCA, objects on which every call completed. -/
theorem C111_PCA : PCA.intake.Serves PCA.cls
    [A._eigvals] [] :=
  serves_of PCA.cert (by decide +kernel) (by decide +kernel) [M.compute_pca, M.run]
    [] (by decide +kernel)

/-- Such an object: construct, `run`; it is kept, and the distance is computed. -/
example : ∃ h s, Hist PCA.cls h s ∧ (h.map fun c => (c.m, c.out)) = [(M.run, .done)] ∧
    PCA.intake.Taken PCA.cls s s ∧ ∃ s', Uses PCA.cls PCA.intake.reads s s' .done :=
  playKept_hist (init := ([O.n_eigs_is_None], 0, [])) (l := [(M.run, [], 0, List.replicate 19 false ++ [true, true, true])])
    (by decide +kernel)

end

section
open StatMoments

/-- **C111** for the moments, objects on which every call completed. -/
theorem C111_StatMoments : StatMoments.intake.Serves StatMoments.cls
    [A._skewness_array, A._kurtosis_array] [] :=
  serves_of StatMoments.cert (by decide +kernel) (by decide +kernel) [M.compute_spatial_distrib, M.run]
    [] (by decide +kernel)

/-- Such an object: construct, `run`; it is kept, and the distance is computed. -/
example : ∃ h s, Hist StatMoments.cls h s ∧ (h.map fun c => (c.m, c.out)) = [(M.run, .done)] ∧
    StatMoments.intake.Taken StatMoments.cls s s ∧ ∃ s', Uses StatMoments.cls StatMoments.intake.reads s s' .done :=
  playKept_hist (init := ([], 0, [true, true])) (l := [(M.run, [], 0, [false, true])])
    (by decide +kernel)

end

section
open Dendrogram_Stats

/-- **C111** for the dendrogram statistics, objects on which every call completed. Missing: objects with failed calls (`_tail_slope` is stored before `_tail_slope_err`, so an interruption between them
is not excluded). -/
theorem C111_Dendrogram_Stats_partial : Dendrogram_Stats.intake.Serves Dendrogram_Stats.cls
    [A._tail_slope, A._tail_slope_err] [] :=
  serves_of Dendrogram_Stats.cert (by decide +kernel) (by decide +kernel) [M.fit_numfeat, M.run]
    [.stored A._tail_slope [] A._numfeatures, .made A._numfeatures [M.compute_dendro, M.run] A._values] (by decide +kernel)

/-- Such an object: construct, `run`; it is kept, and the distance is computed. -/
example : ∃ h s, Hist Dendrogram_Stats.cls h s ∧ (h.map fun c => (c.m, c.out)) = [(M.run, .done)] ∧
    Dendrogram_Stats.intake.Taken Dendrogram_Stats.cls s s ∧ ∃ s', Uses Dendrogram_Stats.cls Dendrogram_Stats.intake.reads s s' .done :=
  playKept_hist (init := ([], 0, [true, true, false, false, true])) (l := [(M.run, [], 0, [])])
    (by decide +kernel)

end

section
open Bispectrum

/-- **C111** for the bispectrum, objects on which every call completed. -/
theorem C111_Bispectrum : Bispectrum.intake.Serves Bispectrum.cls
    [A._bicoherence] [] :=
  serves_of Bispectrum.cert (by decide +kernel) (by decide +kernel) [M.compute_bispectrum, M.run]
    [] (by decide +kernel)

/-- Such an object: construct, `run`; it is kept, and the distance is computed. -/
example : ∃ h s, Hist Bispectrum.cls h s ∧ (h.map fun c => (c.m, c.out)) = [(M.run, .done)] ∧
    Bispectrum.intake.Taken Bispectrum.cls s s ∧ ∃ s', Uses Bispectrum.cls Bispectrum.intake.reads s s' .done :=
  playKept_hist (init := ([], 0, [])) (l := [(M.run, [], 0, [])])
    (by decide +kernel)

end

/-- **C111**, objects on which calls may have failed anywhere: VCS: the slopes are stored after their errors. -/
theorem C111_VCS_all : VCS.intake.ServesAll VCS.cls :=
  servesAll_of VCS.cert (by decide +kernel) (by decide +kernel)
    [VCS.A._slope, VCS.A._slope_errs, VCS.A.fit] (by decide +kernel)

/-- **C111**, objects on which calls may have failed anywhere: the spectral correlation function: `scf_surface` is there from the constructor on. -/
theorem C111_SCF_all : SCF.intake.ServesAll SCF.cls :=
  servesAll_of SCF.cert (by decide +kernel) (by decide +kernel)
    [] (by decide +kernel)

/-- **C111**, objects on which calls may have failed anywhere: PCA: only the eigenvalues are read, and they are what is looked for. -/
theorem C111_PCA_all : PCA.intake.ServesAll PCA.cls :=
  servesAll_of PCA.cert (by decide +kernel) (by decide +kernel)
    [PCA.A._eigvals] (by decide +kernel)

/-- **C111**, objects on which calls may have failed anywhere: the moments: the kurtosis map is stored last. -/
theorem C111_StatMoments_all : StatMoments.intake.ServesAll StatMoments.cls :=
  servesAll_of StatMoments.cert (by decide +kernel) (by decide +kernel)
    [StatMoments.A._mean_array, StatMoments.A._variance_array, StatMoments.A._skewness_array,
      StatMoments.A._kurtosis_array] (by decide +kernel)

/-- **C111**, objects on which calls may have failed anywhere: the bispectrum: only the bicoherence is read, and it is what is looked for. -/
theorem C111_Bispectrum_all : Bispectrum.intake.ServesAll Bispectrum.cls :=
  servesAll_of Bispectrum.cert (by decide +kernel) (by decide +kernel)
    [Bispectrum.A._bicoherence] (by decide +kernel)

/-- The hypotheses are met by an object whose `run` failed in the plot, after the fit. -/
example : ∃ h s, Hist VCS.cls h s ∧ (h.map fun c => (c.m, c.out)) = [(VCS.M.run, .err)] ∧
    VCS.intake.Taken VCS.cls s s ∧ ∃ s', Uses VCS.cls VCS.intake.reads s s' .done :=
  playKept_hist (init := ([], 0, [])) (l := [(VCS.M.run, [VCS.O.verbose], 18, [])])
    (by decide +kernel)

/-- The same for the correlation function: `run` failed after the spectrum was stored. -/
example : ∃ h s, Hist SCF.cls h s ∧ (h.map fun c => (c.m, c.out)) = [(SCF.M.run, .err)] ∧
    SCF.intake.Taken SCF.cls s s ∧ ∃ s', Uses SCF.cls SCF.intake.reads s s' .done :=
  playKept_hist (init := ([], 0, [true, true, true]))
    (l := [(SCF.M.run, [], 9, [false, false, true, true, true])]) (by decide +kernel)

/-- The same for PCA. -/
example : ∃ h s, Hist PCA.cls h s ∧ (h.map fun c => (c.m, c.out)) = [(PCA.M.run, .err)] ∧
    PCA.intake.Taken PCA.cls s s ∧ ∃ s', Uses PCA.cls PCA.intake.reads s s' .done :=
  playKept_hist (init := ([PCA.O.n_eigs_is_None], 0, []))
    (l := [(PCA.M.run, [], 12, List.replicate 19 false ++ [true, true, true])]) (by decide +kernel)

/-- **C111, violation.** The bicoherence is stored before it is computed, so a bispectrum whose
computation was interrupted is kept, and the distance is computed from an array that was
not filled.  bispec.py:118, 130-164, 544 -/
theorem C111_bispectrum_unfinished_violated : ∃ h s, Hist Bispectrum.cls h s ∧
    (h.map fun c => (c.m, c.out)) = [(Bispectrum.M.compute_bispectrum, .err)] ∧
    Bispectrum.intake.Taken Bispectrum.cls s s ∧
    ∃ s', Uses Bispectrum.cls Bispectrum.intake.reads s s' .done :=
  playKept_hist (init := ([], 0, [])) (l := [(Bispectrum.M.compute_bispectrum, [], 7, [true])])
    (by decide +kernel)

/-- **C111, violation.** The same for the maps of the moments.
highstatmoments.py:127-130, 157-185, 580 -/
theorem C111_moments_unfinished_violated : ∃ h s, Hist StatMoments.cls h s ∧
    (h.map fun c => (c.m, c.out)) = [(StatMoments.M.compute_spatial_distrib, .err)] ∧
    StatMoments.intake.Taken StatMoments.cls s s ∧
    ∃ s', Uses StatMoments.cls StatMoments.intake.reads s s' .done :=
  playKept_hist (init := ([], 0, [true, true]))
    (l := [(StatMoments.M.compute_spatial_distrib, [], 9, [false, true])]) (by decide +kernel)

/-- **C111, violation.** For the power spectrum: a run that failed after the slope was stored and before its error
was (a bootstrap that raises, C110_few_draws_violated) leaves an object that is kept as if
it had been fitted; the distance then raises the `AttributeError` of the missing error.
pspec.py:274, 358-361, base_pspec2.py:292-300 -/
theorem C111_pspec_interrupted_violated : ∃ h s, Hist PowerSpectrum.cls h s ∧
    (h.map fun c => (c.m, c.out)) = [(PowerSpectrum.M.run, .err)] ∧
    PowerSpectrum.intake.Taken PowerSpectrum.cls s s ∧
    ∃ s', Uses PowerSpectrum.cls PowerSpectrum.intake.reads s s' (.attrErr PowerSpectrum.A._slope_err) :=
  playKept_hist (init := ([], 0, [])) (l := [(PowerSpectrum.M.run, [PowerSpectrum.O.bootstrap], 22, [true])])
    (by decide +kernel)

/-- **C111, violation.** For VCA: a run that failed after the slope was stored and before its error
was (a bootstrap that raises, C110_few_draws_violated) leaves an object that is kept as if
it had been fitted; the distance then raises the `AttributeError` of the missing error.
vca.py:280, 344-347, base_pspec2.py:292-300 -/
theorem C111_vca_interrupted_violated : ∃ h s, Hist VCA.cls h s ∧
    (h.map fun c => (c.m, c.out)) = [(VCA.M.run, .err)] ∧
    VCA.intake.Taken VCA.cls s s ∧
    ∃ s', Uses VCA.cls VCA.intake.reads s s' (.attrErr VCA.A._slope_err) :=
  playKept_hist (init := ([], 0, [])) (l := [(VCA.M.run, [VCA.O.bootstrap], 22, [true])])
    (by decide +kernel)

/-- **C111, violation.** For MVC: a run that failed after the slope was stored and before its error
was (a bootstrap that raises, C110_few_draws_violated) leaves an object that is kept as if
it had been fitted; the distance then raises the `AttributeError` of the missing error.
mvc.py:399, 458-461, base_pspec2.py:292-300 -/
theorem C111_mvc_interrupted_violated : ∃ h s, Hist MVC.cls h s ∧
    (h.map fun c => (c.m, c.out)) = [(MVC.M.run, .err)] ∧
    MVC.intake.Taken MVC.cls s s ∧
    ∃ s', Uses MVC.cls MVC.intake.reads s s' (.attrErr MVC.A._slope_err) :=
  playKept_hist (init := ([], 0, [])) (l := [(MVC.M.run, [MVC.O.bootstrap], 23, [true])])
    (by decide +kernel)

/-- **C111, violation.** For the wavelet transform: a run that failed after the slope was stored and before its error
was (a bootstrap that raises, C110_few_draws_violated) leaves an object that is kept as if
it had been fitted; the distance then raises the `AttributeError` of the missing error.
wavelet_transform.py:653, 706-709, 364-372 -/
theorem C111_wavelet_interrupted_violated : ∃ h s, Hist Wavelet.cls h s ∧
    (h.map fun c => (c.m, c.out)) = [(Wavelet.M.run, .err)] ∧
    Wavelet.intake.Taken Wavelet.cls s s ∧
    ∃ s', Uses Wavelet.cls Wavelet.intake.reads s s' (.attrErr Wavelet.A._slope_err) :=
  playKept_hist (init := ([], 0, [true, false, true])) (l := [(Wavelet.M.run, [Wavelet.O.bootstrap], 22, [])])
    (by decide +kernel)

/-- **C111, violation.** For the delta-variance: a run that failed after the slope was stored and before its error
was (a bootstrap that raises, C110_few_draws_violated) leaves an object that is kept as if
it had been fitted; the distance then raises the `AttributeError` of the missing error.
delta_variance.py:801, 916-918, 417-425 -/
theorem C111_deltavar_interrupted_violated : ∃ h s, Hist DeltaVariance.cls h s ∧
    (h.map fun c => (c.m, c.out)) = [(DeltaVariance.M.run, .err)] ∧
    DeltaVariance.intake.Taken DeltaVariance.cls s s ∧
    ∃ s', Uses DeltaVariance.cls DeltaVariance.intake.reads s s' (.attrErr DeltaVariance.A._slope_err) :=
  playKept_hist (init := ([], 0, [true, false, false, true])) (l := [(DeltaVariance.M.run, [DeltaVariance.O.bootstrap], 18, [])])
    (by decide +kernel)

/-- **C111, violation.** A fit to the unbinned two-dimensional spectrum, for which the
one-dimensional one need not be computed, is accepted; the distance can be computed but not
plotted: the plot reads `_freqs`.  base_pspec2.py:158-186, 651 -/
theorem C111_pspec_unbinned_violated : ∃ h s, Hist PowerSpectrum.cls h s ∧
    (h.map fun c => (c.m, c.out)) = [(PowerSpectrum.M.fit_pspec, .done), (PowerSpectrum.M.compute_pspec, .done)] ∧
    PowerSpectrum.intake.Taken PowerSpectrum.cls s s ∧
    ∃ s', Uses PowerSpectrum.cls (PowerSpectrum.intake.reads ++ PowerSpectrum.intake.shows) s s' (.attrErr PowerSpectrum.A._freqs) :=
  playKept_hist (init := ([], 0, []))
    (l := [(PowerSpectrum.M.fit_pspec, [PowerSpectrum.O.fit_unbinned, PowerSpectrum.O.brk_is_None], 0, []),
      (PowerSpectrum.M.compute_pspec, [], 0, [true])])
    (by decide +kernel)

/-- **C111, violation.** A fit to the unbinned two-dimensional spectrum, for which the
one-dimensional one need not be computed, is accepted; the distance can be computed but not
plotted: the plot reads `_freqs`.  base_pspec2.py:158-186, 651 -/
theorem C111_vca_unbinned_violated : ∃ h s, Hist VCA.cls h s ∧
    (h.map fun c => (c.m, c.out)) = [(VCA.M.fit_pspec, .done), (VCA.M.compute_pspec, .done)] ∧
    VCA.intake.Taken VCA.cls s s ∧
    ∃ s', Uses VCA.cls (VCA.intake.reads ++ VCA.intake.shows) s s' (.attrErr VCA.A._freqs) :=
  playKept_hist (init := ([], 0, []))
    (l := [(VCA.M.fit_pspec, [VCA.O.fit_unbinned, VCA.O.brk_is_None], 0, []),
      (VCA.M.compute_pspec, [], 0, [true])])
    (by decide +kernel)

/-- **C111, violation.** A fit to the unbinned two-dimensional spectrum, for which the
one-dimensional one need not be computed, is accepted; the distance can be computed but not
plotted: the plot reads `_freqs`.  base_pspec2.py:158-186, 651 -/
theorem C111_mvc_unbinned_violated : ∃ h s, Hist MVC.cls h s ∧
    (h.map fun c => (c.m, c.out)) = [(MVC.M.fit_pspec, .done), (MVC.M.compute_pspec, .done)] ∧
    MVC.intake.Taken MVC.cls s s ∧
    ∃ s', Uses MVC.cls (MVC.intake.reads ++ MVC.intake.shows) s s' (.attrErr MVC.A._freqs) :=
  playKept_hist (init := ([], 0, []))
    (l := [(MVC.M.fit_pspec, [MVC.O.fit_unbinned, MVC.O.brk_is_None], 0, []),
      (MVC.M.compute_pspec, [], 0, [true])])
    (by decide +kernel)

end TS
