import Verif.Lemmas.LifecycleCerts
import Verif.Lemmas.LifecycleFlags

/-!
# C109: a result can be read exactly from the step that makes it

The classes of the statistics fill in attributes step by step: constructor,
`compute_…`, `fit_…`, and `run` for all of it.  For every statistic, and every
history of calls (any methods in any order, any arguments, any of them ended by an
exception anywhere):

* before a step that makes a result was called, reading it raises the
  `AttributeError`;
* once such a step has completed it can be read for good, and is a computed value;
* the steps in their documented order find every attribute they need; those that read an attribute only when a flag
  says so (`_flags`) do so on every object on which no call failed;
* reading and plotting change nothing; the constructor finds all it needs.

The tables are in `Verif/Spec/LifecycleTables.lean`, the meaning of their columns in
`Verif/Spec/Lifecycle.lean`, the statement-by-statement models in
`Verif/Model/Lifecycle*.lean`.
-/

namespace TS

open Life

/-- **C109** for the spatial power spectrum. -/
theorem C109_PowerSpectrum : PowerSpectrum.table.Holds PowerSpectrum.cls :=
  holds_of PowerSpectrum.cert (by decide +kernel) (by decide +kernel) (by decide +kernel)
    (by decide +kernel) (by decide +kernel) (by decide +kernel) (by decide +kernel)
    (by decide +kernel) (by decide +kernel)

/-- There is such a history: construct, `run`, read `slope`. -/
example : ∃ h s, Hist PowerSpectrum.cls h s ∧
    (h.map fun c => (c.m, c.args 0, c.out)) = [(PowerSpectrum.M.run, false, .done)] ∧
    s PowerSpectrum.A._slope = some (.val 0) ∧
    ∃ ρ s', Exec PowerSpectrum.cls.body ρ (PowerSpectrum.cls.body PowerSpectrum.M.slope) s s' .ret :=
  playRead_hist (init := ([], 0, [])) (l := [(PowerSpectrum.M.run, [], 0, [true])])
    (ch := (0, [])) (by decide +kernel)

/-- **C109** for VCA. -/
theorem C109_VCA : VCA.table.Holds VCA.cls :=
  holds_of VCA.cert (by decide +kernel) (by decide +kernel) (by decide +kernel)
    (by decide +kernel) (by decide +kernel) (by decide +kernel) (by decide +kernel)
    (by decide +kernel) (by decide +kernel)

/-- There is such a history: construct, `run`, read `slope`. -/
example : ∃ h s, Hist VCA.cls h s ∧
    (h.map fun c => (c.m, c.args 0, c.out)) = [(VCA.M.run, false, .done)] ∧
    s VCA.A._slope = some (.val 0) ∧
    ∃ ρ s', Exec VCA.cls.body ρ (VCA.cls.body VCA.M.slope) s s' .ret :=
  playRead_hist (init := ([], 0, [])) (l := [(VCA.M.run, [], 0, [true])])
    (ch := (0, [])) (by decide +kernel)

/-- **C109** for MVC. -/
theorem C109_MVC : MVC.table.Holds MVC.cls :=
  holds_of MVC.cert (by decide +kernel) (by decide +kernel) (by decide +kernel)
    (by decide +kernel) (by decide +kernel) (by decide +kernel) (by decide +kernel)
    (by decide +kernel) (by decide +kernel)

/-- There is such a history: construct, `run`, read `slope`. -/
example : ∃ h s, Hist MVC.cls h s ∧
    (h.map fun c => (c.m, c.args 0, c.out)) = [(MVC.M.run, false, .done)] ∧
    s MVC.A._slope = some (.val 0) ∧
    ∃ ρ s', Exec MVC.cls.body ρ (MVC.cls.body MVC.M.slope) s s' .ret :=
  playRead_hist (init := ([], 0, [])) (l := [(MVC.M.run, [], 0, [true])])
    (ch := (0, [])) (by decide +kernel)

/-- **C109** for VCS. -/
theorem C109_VCS : VCS.table.Holds VCS.cls :=
  holds_of VCS.cert (by decide +kernel) (by decide +kernel) (by decide +kernel)
    (by decide +kernel) (by decide +kernel) (by decide +kernel) (by decide +kernel)
    (by decide +kernel) (by decide +kernel)

/-- There is such a history: construct, `run`, read `slope`. -/
example : ∃ h s, Hist VCS.cls h s ∧
    (h.map fun c => (c.m, c.args 0, c.out)) = [(VCS.M.run, false, .done)] ∧
    s VCS.A._slope = some (.val 0) ∧
    ∃ ρ s', Exec VCS.cls.body ρ (VCS.cls.body VCS.M.slope) s s' .ret :=
  playRead_hist (init := ([], 0, [])) (l := [(VCS.M.run, [], 0, [])])
    (ch := (0, [])) (by decide +kernel)

/-- **C109** for the wavelet transform. -/
theorem C109_Wavelet : Wavelet.table.Holds Wavelet.cls :=
  holds_of Wavelet.cert (by decide +kernel) (by decide +kernel) (by decide +kernel)
    (by decide +kernel) (by decide +kernel) (by decide +kernel) (by decide +kernel)
    (by decide +kernel) (by decide +kernel)

/-- There is such a history: construct, `run`, read `slope`. -/
example : ∃ h s, Hist Wavelet.cls h s ∧
    (h.map fun c => (c.m, c.args 0, c.out)) = [(Wavelet.M.run, false, .done)] ∧
    s Wavelet.A._slope = some (.val 0) ∧
    ∃ ρ s', Exec Wavelet.cls.body ρ (Wavelet.cls.body Wavelet.M.slope) s s' .ret :=
  playRead_hist (init := ([], 0, [true, false, true])) (l := [(Wavelet.M.run, [], 0, [])])
    (ch := (0, [])) (by decide +kernel)

/-- **C109** for the delta-variance. -/
theorem C109_DeltaVariance : DeltaVariance.table.Holds DeltaVariance.cls :=
  holds_of DeltaVariance.cert (by decide +kernel) (by decide +kernel) (by decide +kernel)
    (by decide +kernel) (by decide +kernel) (by decide +kernel) (by decide +kernel)
    (by decide +kernel) (by decide +kernel)

/-- There is such a history: construct, `run`, read `slope`. -/
example : ∃ h s, Hist DeltaVariance.cls h s ∧
    (h.map fun c => (c.m, c.args 0, c.out)) = [(DeltaVariance.M.run, false, .done)] ∧
    s DeltaVariance.A._slope = some (.val 0) ∧
    ∃ ρ s', Exec DeltaVariance.cls.body ρ (DeltaVariance.cls.body DeltaVariance.M.slope) s s' .ret :=
  playRead_hist (init := ([], 0, [true, false, false, true])) (l := [(DeltaVariance.M.run, [], 0, [])])
    (ch := (0, [])) (by decide +kernel)

/-- **C109** for the spectral correlation function. -/
theorem C109_SCF : SCF.table.Holds SCF.cls :=
  holds_of SCF.cert (by decide +kernel) (by decide +kernel) (by decide +kernel)
    (by decide +kernel) (by decide +kernel) (by decide +kernel) (by decide +kernel)
    (by decide +kernel) (by decide +kernel)

/-- There is such a history: construct, `run`, read `slope`. -/
example : ∃ h s, Hist SCF.cls h s ∧
    (h.map fun c => (c.m, c.args 0, c.out)) = [(SCF.M.run, false, .done)] ∧
    s SCF.A._slope = some (.val 0) ∧
    ∃ ρ s', Exec SCF.cls.body ρ (SCF.cls.body SCF.M.slope) s s' .ret :=
  playRead_hist (init := ([], 0, [true, true, true])) (l := [(SCF.M.run, [], 0, [false, false, true, true, true])])
    (ch := (0, [])) (by decide +kernel)

/-- **C109** for PCA. -/
theorem C109_PCA : PCA.table.Holds PCA.cls :=
  holds_of PCA.cert (by decide +kernel) (by decide +kernel) (by decide +kernel)
    (by decide +kernel) (by decide +kernel) (by decide +kernel) (by decide +kernel)
    (by decide +kernel) (by decide +kernel)

/-- There is such a history: construct, `run`, read `index`. -/
example : ∃ h s, Hist PCA.cls h s ∧
    (h.map fun c => (c.m, c.args 0, c.out)) = [(PCA.M.run, false, .done)] ∧
    s PCA.A._index = some (.val 0) ∧
    ∃ ρ s', Exec PCA.cls.body ρ (PCA.cls.body PCA.M.index) s s' .ret :=
  playRead_hist (init := ([PCA.O.n_eigs_is_None], 0, [])) (l := [(PCA.M.run, [], 0, (List.replicate 19 false ++ [true, true, true]))])
    (ch := (0, [])) (by decide +kernel)

/-- **C109** for the PDF. -/
theorem C109_PDF : PDF.table.Holds PDF.cls :=
  holds_of PDF.cert (by decide +kernel) (by decide +kernel) (by decide +kernel)
    (by decide +kernel) (by decide +kernel) (by decide +kernel) (by decide +kernel)
    (by decide +kernel) (by decide +kernel)

/-- There is such a history: construct, `run`, read `pdf`. -/
example : ∃ h s, Hist PDF.cls h s ∧
    (h.map fun c => (c.m, c.args 0, c.out)) = [(PDF.M.run, false, .done)] ∧
    s PDF.A._pdf = some (.val 0) ∧
    ∃ ρ s', Exec PDF.cls.body ρ (PDF.cls.body PDF.M.pdf) s s' .ret :=
  playRead_hist (init := ([], 0, [])) (l := [(PDF.M.run, [], 0, [])])
    (ch := (0, [])) (by decide +kernel)

/-- **C109** for the Tsallis statistics. -/
theorem C109_Tsallis : Tsallis.table.Holds Tsallis.cls :=
  holds_of Tsallis.cert (by decide +kernel) (by decide +kernel) (by decide +kernel)
    (by decide +kernel) (by decide +kernel) (by decide +kernel) (by decide +kernel)
    (by decide +kernel) (by decide +kernel)

/-- There is such a history: construct, `run`, read `tsallis_params`. -/
example : ∃ h s, Hist Tsallis.cls h s ∧
    (h.map fun c => (c.m, c.args 0, c.out)) = [(Tsallis.M.run, false, .done)] ∧
    s Tsallis.A._tsallis_params = some (.val 0) ∧
    ∃ ρ s', Exec Tsallis.cls.body ρ (Tsallis.cls.body Tsallis.M.tsallis_params) s s' .ret :=
  playRead_hist (init := ([], 0, [true, true])) (l := [(Tsallis.M.run, [], 0, [])])
    (ch := (0, [])) (by decide +kernel)

/-- **C109** for the moments. -/
theorem C109_StatMoments : StatMoments.table.Holds StatMoments.cls :=
  holds_of StatMoments.cert (by decide +kernel) (by decide +kernel) (by decide +kernel)
    (by decide +kernel) (by decide +kernel) (by decide +kernel) (by decide +kernel)
    (by decide +kernel) (by decide +kernel)

/-- There is such a history: construct, `run`, read `mean_hist`. -/
example : ∃ h s, Hist StatMoments.cls h s ∧
    (h.map fun c => (c.m, c.args 0, c.out)) = [(StatMoments.M.run, false, .done)] ∧
    s StatMoments.A._mean_hist = some (.val 0) ∧
    ∃ ρ s', Exec StatMoments.cls.body ρ (StatMoments.cls.body StatMoments.M.mean_hist) s s' .ret :=
  playRead_hist (init := ([], 0, [true, true])) (l := [(StatMoments.M.run, [], 0, [false, true])])
    (ch := (0, [])) (by decide +kernel)

/-- **C109** for the genus. -/
theorem C109_Genus : Genus.table.Holds Genus.cls :=
  holds_of Genus.cert (by decide +kernel) (by decide +kernel) (by decide +kernel)
    (by decide +kernel) (by decide +kernel) (by decide +kernel) (by decide +kernel)
    (by decide +kernel) (by decide +kernel)

/-- There is such a history: construct, `run`, read `genus_stats`. -/
example : ∃ h s, Hist Genus.cls h s ∧
    (h.map fun c => (c.m, c.args 0, c.out)) = [(Genus.M.run, false, .done)] ∧
    s Genus.A._genus_stats = some (.val 0) ∧
    ∃ ρ s', Exec Genus.cls.body ρ (Genus.cls.body Genus.M.genus_stats) s s' .ret :=
  playRead_hist (init := ([], 0, [])) (l := [(Genus.M.run, [], 0, [])])
    (ch := (0, [])) (by decide +kernel)

/-- **C109** for the dendrogram statistics. -/
theorem C109_Dendrogram_Stats : Dendrogram_Stats.table.Holds Dendrogram_Stats.cls :=
  holds_of Dendrogram_Stats.cert (by decide +kernel) (by decide +kernel) (by decide +kernel)
    (by decide +kernel) (by decide +kernel) (by decide +kernel) (by decide +kernel)
    (by decide +kernel) (by decide +kernel)

/-- There is such a history: construct, `run`, read `model`. -/
example : ∃ h s, Hist Dendrogram_Stats.cls h s ∧
    (h.map fun c => (c.m, c.args 0, c.out)) = [(Dendrogram_Stats.M.run, false, .done)] ∧
    s Dendrogram_Stats.A._model = some (.val 0) ∧
    ∃ ρ s', Exec Dendrogram_Stats.cls.body ρ (Dendrogram_Stats.cls.body Dendrogram_Stats.M.model) s s' .ret :=
  playRead_hist (init := ([], 0, [true, true, false, false, true])) (l := [(Dendrogram_Stats.M.run, [], 0, [])])
    (ch := (0, [])) (by decide +kernel)

/-- **C109** for the bispectrum. -/
theorem C109_Bispectrum : Bispectrum.table.Holds Bispectrum.cls :=
  holds_of Bispectrum.cert (by decide +kernel) (by decide +kernel) (by decide +kernel)
    (by decide +kernel) (by decide +kernel) (by decide +kernel) (by decide +kernel)
    (by decide +kernel) (by decide +kernel)

/-- There is such a history: construct, `run`, read `bispectrum`. -/
example : ∃ h s, Hist Bispectrum.cls h s ∧
    (h.map fun c => (c.m, c.args 0, c.out)) = [(Bispectrum.M.run, false, .done)] ∧
    s Bispectrum.A._bispectrum = some (.val 0) ∧
    ∃ ρ s', Exec Bispectrum.cls.body ρ (Bispectrum.cls.body Bispectrum.M.bispectrum) s s' .ret :=
  playRead_hist (init := ([], 0, [])) (l := [(Bispectrum.M.run, [], 0, [])])
    (ch := (0, [])) (by decide +kernel)

/-! ## Attributes read under a flag -/

/-- **C109** for the spatial power spectrum: `run` misses no attribute on any object; the plot, which reads the broken fit only
when the slope is an array, misses none once the spectrum was fitted, on objects on which no call failed. -/
theorem C109_PowerSpectrum_flags : UsableAfter PowerSpectrum.cls [] PowerSpectrum.M.run [] ∧
    UsableClean PowerSpectrum.cls [{ m := PowerSpectrum.M.compute_radial_pspec }, { m := PowerSpectrum.M.fit_pspec }] PowerSpectrum.M.plot_fit ∧
    UsableClean PowerSpectrum.cls [{ m := PowerSpectrum.M.run }] PowerSpectrum.M.plot_fit := by
  have hc : PowerSpectrum.cls.closed = true := by decide +kernel
  have hK : PowerSpectrum.cert.ok PowerSpectrum.cls = true := by decide +kernel
  have ht : ([⟨PowerSpectrum.A.slope_is_array, PowerSpectrum.A._model, 0, []⟩].all fun t => PowerSpectrum.cls.settles 2 t) = true := by
    decide +kernel
  exact ⟨usableAlways_of (fl := [PowerSpectrum.A.slope_is_array]) (l := []) hc hK rfl (by decide +kernel),
    usableClean_of (fl := []) hc hK ht (by decide +kernel), usableClean_of (fl := []) hc hK ht (by decide +kernel)⟩

/-! ## Attributes read under a flag -/

/-- **C109** for VCA: `run` misses no attribute on any object; the plot, which reads the broken fit only
when the slope is an array, misses none once the spectrum was fitted, on objects on which no call failed. -/
theorem C109_VCA_flags : UsableAfter VCA.cls [] VCA.M.run [] ∧
    UsableClean VCA.cls [{ m := VCA.M.compute_radial_pspec }, { m := VCA.M.fit_pspec }] VCA.M.plot_fit ∧
    UsableClean VCA.cls [{ m := VCA.M.run }] VCA.M.plot_fit := by
  have hc : VCA.cls.closed = true := by decide +kernel
  have hK : VCA.cert.ok VCA.cls = true := by decide +kernel
  have ht : ([⟨VCA.A.slope_is_array, VCA.A._model, 0, []⟩].all fun t => VCA.cls.settles 2 t) = true := by
    decide +kernel
  exact ⟨usableAlways_of (fl := [VCA.A.slope_is_array]) (l := []) hc hK rfl (by decide +kernel),
    usableClean_of (fl := []) hc hK ht (by decide +kernel), usableClean_of (fl := []) hc hK ht (by decide +kernel)⟩

/-! ## Attributes read under a flag -/

/-- **C109** for MVC: `run` misses no attribute on any object; the plot, which reads the broken fit only
when the slope is an array, misses none once the spectrum was fitted, on objects on which no call failed. -/
theorem C109_MVC_flags : UsableAfter MVC.cls [] MVC.M.run [] ∧
    UsableClean MVC.cls [{ m := MVC.M.compute_radial_pspec }, { m := MVC.M.fit_pspec }] MVC.M.plot_fit ∧
    UsableClean MVC.cls [{ m := MVC.M.run }] MVC.M.plot_fit := by
  have hc : MVC.cls.closed = true := by decide +kernel
  have hK : MVC.cert.ok MVC.cls = true := by decide +kernel
  have ht : ([⟨MVC.A.slope_is_array, MVC.A._model, 0, []⟩].all fun t => MVC.cls.settles 2 t) = true := by
    decide +kernel
  exact ⟨usableAlways_of (fl := [MVC.A.slope_is_array]) (l := []) hc hK rfl (by decide +kernel),
    usableClean_of (fl := []) hc hK ht (by decide +kernel), usableClean_of (fl := []) hc hK ht (by decide +kernel)⟩

/-- **C109** for the spectral correlation function: `run` misses no attribute on any object; the plot, which reads the
two-dimensional fit and the mask of the azimuths only when their flags are set, misses none once the spectrum was computed and fitted,
on objects on which no call failed. -/
theorem C109_SCF_flags : UsableAfter SCF.cls [] SCF.M.run [] ∧
    UsableClean SCF.cls [{ m := SCF.M.compute_spectrum }, { m := SCF.M.fit_plaw }] SCF.M.plot_fit ∧
    UsableClean SCF.cls [{ m := SCF.M.run }] SCF.M.plot_fit := by
  have hc : SCF.cls.closed = true := by decide +kernel
  have hK : SCF.cert.ok SCF.cls = true := by decide +kernel
  have ht : ([⟨SCF.A._fit2D_flag, SCF.A.fit2D, 0, []⟩, ⟨SCF.A._azim_constraint_flag, SCF.A._azim_mask, SCF.O.theta_0, []⟩].all
      fun t => SCF.cls.settles 2 t) = true := by decide +kernel
  exact ⟨usableAlways_of (fl := [SCF.A._fit2D_flag, SCF.A._azim_constraint_flag]) (l := [⟨SCF.A._fit2D_flag, SCF.A.fit2D, 0, []⟩]) hc hK
      (by decide +kernel) (by decide +kernel),
    usableClean_of (fl := []) hc hK ht (by decide +kernel), usableClean_of (fl := []) hc hK ht (by decide +kernel)⟩

/-- What PCA plots besides the eigenvalues is there when `_decomp_only` is `False`. -/
private def pcaTies : List Tie :=
  [⟨PCA.A._decomp_only, PCA.A._spatial_width, PCA.O.decomp_only, [PCA.M.fit_plaw, PCA.M.spatial_width]⟩,
   ⟨PCA.A._decomp_only, PCA.A._spatial_width_error, PCA.O.decomp_only, [PCA.M.fit_plaw, PCA.M.spatial_width_error]⟩,
   ⟨PCA.A._decomp_only, PCA.A._spectral_width, PCA.O.decomp_only, [PCA.M.fit_plaw]⟩,
   ⟨PCA.A._decomp_only, PCA.A._spectral_width_error, PCA.O.decomp_only, [PCA.M.fit_plaw, PCA.M.spectral_width_error]⟩,
   ⟨PCA.A._decomp_only, PCA.A._index, PCA.O.decomp_only, [PCA.M.fit_plaw]⟩,
   ⟨PCA.A._decomp_only, PCA.A._intercept, PCA.O.decomp_only, [PCA.M.fit_plaw]⟩,
   ⟨PCA.A._decomp_only, PCA.A._xlow, PCA.O.decomp_only, [PCA.M.fit_plaw]⟩,
   ⟨PCA.A._decomp_only, PCA.A._xhigh, PCA.O.decomp_only, [PCA.M.fit_plaw]⟩]

/-- **C109** for PCA: `run`, with the widths and the fit or with `decomp_only`, misses no attribute on any object; on objects on which
no call failed the plot misses none once the decomposition was made, and the sonic length, which reads the samples only of a Bayesian
fit, once it was fitted. -/
theorem C109_PCA_flags : UsableAfter PCA.cls [] PCA.M.run [] ∧ UsableClean PCA.cls [{ m := PCA.M.compute_pca }] PCA.M.plot_fit ∧
    UsableClean PCA.cls [{ m := PCA.M.run }] PCA.M.plot_fit ∧ UsableClean PCA.cls [{ m := PCA.M.fit_plaw }] PCA.M.sonic_length ∧
    UsableClean PCA.cls [{ m := PCA.M.run, no := [PCA.O.decomp_only] }] PCA.M.sonic_length := by
  have hc : PCA.cls.closed = true := by decide +kernel
  have hK : PCA.cert.ok PCA.cls = true := by decide +kernel
  have ht : (pcaTies.all fun t => PCA.cls.settles 2 t) = true := by decide +kernel
  have hs : ([⟨PCA.A._fit_method, PCA.A._samps, PCA.O.fit_method_is_odr, []⟩].all fun t => PCA.cls.settles 2 t) = true := by
    decide +kernel
  exact ⟨usableAlways_of (fl := [PCA.A._fit_method, PCA.A._decomp_only]) (l := []) hc hK rfl (by decide +kernel),
    usableClean_of (fl := []) hc hK ht (by decide +kernel), usableClean_of (fl := []) hc hK ht (by decide +kernel),
    usableClean_of (fl := []) hc hK hs (by decide +kernel), usableClean_of (fl := []) hc hK hs (by decide +kernel)⟩

/-- **C109** for the PDF: on objects on which no call failed, `run` misses no attribute, nor does the plot, which reads the fitted
model only after a fit, once the histogram was made. -/
theorem C109_PDF_flags : UsableClean PDF.cls [] PDF.M.run ∧
    UsableClean PDF.cls [{ m := PDF.M.make_pdf }, { m := PDF.M.make_ecdf }] PDF.M.plot_distrib ∧
    UsableClean PDF.cls [{ m := PDF.M.run }] PDF.M.plot_distrib := by
  have hc : PDF.cls.closed = true := by decide +kernel
  have hK : PDF.cert.ok PDF.cls = true := by decide +kernel
  have ht : ([⟨PDF.A._do_fit, PDF.A._fit_fixes, 0, []⟩, ⟨PDF.A._do_fit, PDF.A._scipy_model, 0, []⟩].all
      fun t => PDF.cls.settles 2 t) = true := by decide +kernel
  exact ⟨usableClean_of (fl := [PDF.A._do_fit]) hc hK ht (by decide +kernel),
    usableClean_of (fl := []) hc hK ht (by decide +kernel), usableClean_of (fl := []) hc hK ht (by decide +kernel)⟩

/-- There are such objects: PCA with the decomposition only, plotted. -/
example : ∃ h s, Hist PCA.cls h s ∧
    (h.map fun c => (c.m, c.args 0, c.out)) = [(PCA.M.plot_fit, false, .done), (PCA.M.compute_pca, false, .done)] ∧
    s PCA.A._decomp_only = some .blank ∧
    ∃ ρ s', Exec PCA.cls.body ρ (PCA.cls.body PCA.M.eigvals) s s' .ret :=
  playRead_hist (init := ([PCA.O.n_eigs_is_None], 0, []))
    (l := [(PCA.M.plot_fit, [], 0, [true]), (PCA.M.compute_pca, [], 0, [])]) (ch := (0, [])) (by decide +kernel)

/-! ## Where the code does not have it -/

/-- **C109, violation.** `convolve_arrays` and `convolve_weights` of the delta-variance
can be read after no history whatever: they return `_convolve_arrays`, which nothing
stores (the arrays are in `_convolved_arrays`).  delta_variance.py:266-277. -/
theorem C109_convolved_arrays_violated :
    ∀ m ∈ [DeltaVariance.M.convolve_arrays, DeltaVariance.M.convolve_weights],
      ∀ h s, Hist DeltaVariance.cls h s → ∀ ρ s' o,
        Exec DeltaVariance.cls.body ρ (DeltaVariance.cls.body m) s s' o → o.failed = true := by
  have hc : DeltaVariance.cls.closed = true := by decide +kernel
  intro m hm h s hh
  have key : ∀ r : Result, r.makers = [] →
      DeltaVariance.cls.onlyFrom r.attr r.makers = true →
      mustRead (storesN DeltaVariance.cls.body depth) r.attr (DeltaVariance.cls.body r.prop) = true →
      ∀ ρ s' o, Exec DeltaVariance.cls.body ρ (DeltaVariance.cls.body r.prop) s s' o →
        o.failed = true :=
    fun r h₀ h₁ h₂ => notBeforeFails_of hc h₁ h₂ h s hh (by rw [h₀]; simp)
  rcases List.mem_cons.1 hm with rfl | hm
  · exact key ⟨DeltaVariance.M.convolve_arrays, DeltaVariance.A._convolve_arrays, [], []⟩ rfl
      (by decide +kernel) (by decide +kernel)
  · rw [List.mem_singleton.1 hm]
    exact key ⟨DeltaVariance.M.convolve_weights, DeltaVariance.A._convolve_arrays, [], []⟩ rfl
      (by decide +kernel) (by decide +kernel)

/-- There are such histories, with the transform completed. -/
example : ∃ h s, Hist DeltaVariance.cls h s ∧
    (h.map fun c => (c.m, c.args DeltaVariance.O.keep_convolve_arrays, c.out)) =
      [(DeltaVariance.M.compute_deltavar, true, .done)] ∧
    s DeltaVariance.A._convolved_arrays = some .blank ∧
    ∃ ρ s', Exec DeltaVariance.cls.body ρ (DeltaVariance.cls.body DeltaVariance.M.convolve_arrays) s s'
      (.attrErr DeltaVariance.A._convolve_arrays) :=
  playRead_hist (init := ([], 0, [true, false, false, true]))
    (l := [(DeltaVariance.M.compute_deltavar, [DeltaVariance.O.keep_convolve_arrays], 0, [])])
    (ch := (0, [])) (by decide +kernel)

/-- **C109, violation.** After a completed fit without a break, `brk` is `None` but `brk_err` raises the
`AttributeError`. wavelet_transform.py:349 -/
theorem C109_wavelet_brk_err_violated : ∃ h s, Hist Wavelet.cls h s ∧
    (h.map fun c => (c.m, c.args Wavelet.O.brk_is_None, c.out)) =
      [(Wavelet.M.fit_transform, true, .done), (Wavelet.M.compute_transform, false, .done)] ∧
    s Wavelet.A._brk = some .blank ∧
    ∃ ρ s', Exec Wavelet.cls.body ρ (Wavelet.cls.body Wavelet.M.brk_err) s s' (.attrErr Wavelet.A._brk_err) :=
  playRead_hist (a := Wavelet.A._brk) (init := ([], 0, [true, false, true]))
    (l := [(Wavelet.M.fit_transform, [Wavelet.O.brk_is_None], 0, []),
      (Wavelet.M.compute_transform, [], 0, [])])
    (ch := (0, [])) (by decide +kernel)

/-- **C109, violation.** The same for the delta-variance. delta_variance.py:404 -/
theorem C109_deltavar_brk_err_violated : ∃ h s, Hist DeltaVariance.cls h s ∧
    (h.map fun c => (c.m, c.args DeltaVariance.O.brk_is_None, c.out)) =
      [(DeltaVariance.M.fit_plaw, true, .done), (DeltaVariance.M.compute_deltavar, false, .done)] ∧
    s DeltaVariance.A._brk = some .blank ∧
    ∃ ρ s', Exec DeltaVariance.cls.body ρ (DeltaVariance.cls.body DeltaVariance.M.brk_err) s s' (.attrErr DeltaVariance.A._brk_err) :=
  playRead_hist (a := DeltaVariance.A._brk) (init := ([], 0, [true, false, false, true]))
    (l := [(DeltaVariance.M.fit_plaw, [DeltaVariance.O.brk_is_None], 0, []),
      (DeltaVariance.M.compute_deltavar, [], 0, [])])
    (ch := (0, [])) (by decide +kernel)

/-- **C109, violation.** For the power spectrum this happens when a break was asked for and not found. base_pspec2.py:247, 274 -/
theorem C109_pspec_brk_err_violated : ∃ h s, Hist PowerSpectrum.cls h s ∧
    (h.map fun c => (c.m, c.args PowerSpectrum.O.brk_is_None, c.out)) =
      [(PowerSpectrum.M.fit_pspec, false, .done), (PowerSpectrum.M.compute_radial_pspec, false, .done),
        (PowerSpectrum.M.compute_pspec, false, .done)] ∧
    s PowerSpectrum.A._brk = some .blank ∧
    ∃ ρ s', Exec PowerSpectrum.cls.body ρ (PowerSpectrum.cls.body PowerSpectrum.M.brk_err) s s' (.attrErr PowerSpectrum.A._brk_err) :=
  playRead_hist (a := PowerSpectrum.A._brk) (init := ([], 0, []))
    (l := [(PowerSpectrum.M.fit_pspec, [], 0, []),
      (PowerSpectrum.M.compute_radial_pspec, [], 0, []),
      (PowerSpectrum.M.compute_pspec, [], 0, [true])])
    (ch := (0, [])) (by decide +kernel)

/-- **C109, violation.** The error of a break outlives the break: fit with a break, then
without; `brk` is `None` and `brk_err` is still the error of the first fit.
wavelet_transform.py:338-349 -/
theorem C109_stale_brk_err_violated : ∃ h s, Hist Wavelet.cls h s ∧
    (h.map fun c => (c.m, c.args Wavelet.O.brk_is_None, c.out)) =
      [(Wavelet.M.fit_transform, true, .done), (Wavelet.M.fit_transform, false, .done),
        (Wavelet.M.compute_transform, false, .done)] ∧
    s Wavelet.A._brk_err = some (.val 0) ∧
    ∃ ρ s', Exec Wavelet.cls.body ρ (Wavelet.cls.body Wavelet.M.brk_err) s s' .ret :=
  playRead_hist (a := Wavelet.A._brk_err) (init := ([], 0, [true, false, true]))
    (l := [(Wavelet.M.fit_transform, [Wavelet.O.brk_is_None], 0, []),
      (Wavelet.M.fit_transform, [], 0, [false, true, false]),
      (Wavelet.M.compute_transform, [], 0, [])])
    (ch := (0, [])) (by decide +kernel)

/-- **C109, violation.** `ps1D_stddev` can be read before anything was computed, and is
`None`.  pspec.py:62 -/
theorem C109_pspec_stddev_placeholder_violated : ∃ h s, Hist PowerSpectrum.cls h s ∧
    (h.map fun c => (c.m, c.args 0, c.out)) = [] ∧ s PowerSpectrum.A._ps1D_stddev = some .blank ∧
    ∃ ρ s', Exec PowerSpectrum.cls.body ρ (PowerSpectrum.cls.body PowerSpectrum.M.ps1D_stddev) s s' .ret :=
  playRead_hist (init := ([], 0, [])) (l := []) (ch := (0, [])) (by decide +kernel)

/-- **C109, violation.** `ps1D_stddev` can be read before anything was computed, and is
`None`.  vca.py:70 -/
theorem C109_vca_stddev_placeholder_violated : ∃ h s, Hist VCA.cls h s ∧
    (h.map fun c => (c.m, c.args 0, c.out)) = [] ∧ s VCA.A._ps1D_stddev = some .blank ∧
    ∃ ρ s', Exec VCA.cls.body ρ (VCA.cls.body VCA.M.ps1D_stddev) s s' .ret :=
  playRead_hist (init := ([], 0, [])) (l := []) (ch := (0, [])) (by decide +kernel)

/-- **C109, violation.** `scf_surface` can be read before anything was computed, and is
`None`.  scf.py:94-95 -/
theorem C109_scf_surface_placeholder_violated : ∃ h s, Hist SCF.cls h s ∧
    (h.map fun c => (c.m, c.args 0, c.out)) = [] ∧ s SCF.A._scf_surface = some .blank ∧
    ∃ ρ s', Exec SCF.cls.body ρ (SCF.cls.body SCF.M.scf_surface) s s' .ret :=
  playRead_hist (init := ([], 0, [true, true, true])) (l := []) (ch := (0, [])) (by decide +kernel)

/-- **C109, violation.** `pdf` can be read before anything was computed, and is
`None`.  compare_pdf.py:79 -/
theorem C109_pdf_placeholder_violated : ∃ h s, Hist PDF.cls h s ∧
    (h.map fun c => (c.m, c.args 0, c.out)) = [] ∧ s PDF.A._pdf = some .blank ∧
    ∃ ρ s', Exec PDF.cls.body ρ (PDF.cls.body PDF.M.pdf) s s' .ret :=
  playRead_hist (init := ([], 0, [])) (l := []) (ch := (0, [])) (by decide +kernel)

/-- **C109, violation.** `ecdf` can be read before anything was computed, and is
`None`.  compare_pdf.py:80 -/
theorem C109_ecdf_placeholder_violated : ∃ h s, Hist PDF.cls h s ∧
    (h.map fun c => (c.m, c.args 0, c.out)) = [] ∧ s PDF.A._ecdf = some .blank ∧
    ∃ ρ s', Exec PDF.cls.body ρ (PDF.cls.body PDF.M.ecdf) s s' .ret :=
  playRead_hist (init := ([], 0, [])) (l := []) (ch := (0, [])) (by decide +kernel)

/-- **C109, violation.** An uninitialised array is stored before it is filled: when
`compute_transform` failed half-way, `values` can be read although no step that makes it completed.
wavelet_transform.py:159-160 -/
theorem C109_wavelet_half_made_violated : ∃ h s, Hist Wavelet.cls h s ∧
    (h.map fun c => (c.m, c.args 0, c.out)) = [(Wavelet.M.compute_transform, false, .err)] ∧
    s Wavelet.A._values = some (.val 0) ∧
    ∃ ρ s', Exec Wavelet.cls.body ρ (Wavelet.cls.body Wavelet.M.values) s s' .ret :=
  playRead_hist (init := ([], 0, [true, false, true])) (l := [(Wavelet.M.compute_transform, [], 7, [true])])
    (ch := (0, [])) (by decide +kernel)

/-- **C109, violation.** An uninitialised array is stored before it is filled: when
`compute_deltavar` failed half-way, `delta_var` can be read although no step that makes it completed.
delta_variance.py:178-179 -/
theorem C109_deltavar_half_made_violated : ∃ h s, Hist DeltaVariance.cls h s ∧
    (h.map fun c => (c.m, c.args 0, c.out)) = [(DeltaVariance.M.compute_deltavar, false, .err)] ∧
    s DeltaVariance.A._delta_var = some (.val 0) ∧
    ∃ ρ s', Exec DeltaVariance.cls.body ρ (DeltaVariance.cls.body DeltaVariance.M.delta_var) s s' .ret :=
  playRead_hist (init := ([], 0, [true, false, false, true])) (l := [(DeltaVariance.M.compute_deltavar, [], 3, [true])])
    (ch := (0, [])) (by decide +kernel)

/-- **C109, violation.** A correlation surface whose computation failed half-way is used
as if it were complete: `compute_spectrum` computes the surface only when none is
stored, and an unfinished one is.  scf.py:168, 258-259 -/
theorem C109_unfinished_surface_violated :
    (∃ h s, Hist SCF.cls h s ∧
      (h.map fun c => (c.m, c.args 0, c.out)) =
        [(SCF.M.compute_spectrum, false, .done), (SCF.M.compute_surface, false, .err)] ∧
      s SCF.A._scf_surface = some (.val 0) ∧
      ∃ ρ s', Exec SCF.cls.body ρ (SCF.cls.body SCF.M.scf_spectrum) s s' .ret) ∧
    ∀ ρ s s' o n, s SCF.A._scf_surface = some (.val n) →
      Exec SCF.cls.body ρ (SCF.cls.body SCF.M.compute_spectrum) s s' o →
      s' SCF.A._scf_surface = some (.val n) :=
  ⟨playRead_hist (init := ([], 0, [true, true, true]))
    (l := [(SCF.M.compute_spectrum, [], 0, []), (SCF.M.compute_surface, [], 7, [false, true])])
    (ch := (0, [])) (by decide +kernel),
   fun _ _ _ _ _ ha hx => guarded_keeps (SCF.cls.closed_stores (by decide +kernel)) ha
    (by decide +kernel) hx⟩

/-- **C109, violation.** A fit with a break that fails while its errors are computed leaves the slopes of the new fit and no model
of it: the plot of the residuals, possible after the fit before, raises the `AttributeError`.  base_pspec2.py:255-271, 655-657 -/
theorem C109_pspec_failed_break_violated : ∃ h s, Hist PowerSpectrum.cls h s ∧
    (h.map fun c => (c.m, c.args PowerSpectrum.O.brk_is_None, c.out)) =
      [(PowerSpectrum.M.plot_fit, false, .attrErr PowerSpectrum.A._model), (PowerSpectrum.M.fit_pspec, false, .err),
        (PowerSpectrum.M.plot_fit, false, .done), (PowerSpectrum.M.fit_pspec, true, .done),
        (PowerSpectrum.M.compute_radial_pspec, false, .done), (PowerSpectrum.M.compute_pspec, false, .done)] ∧
    s PowerSpectrum.A._slope = some (.val 0) ∧
    ∃ ρ s', Exec PowerSpectrum.cls.body ρ (PowerSpectrum.cls.body PowerSpectrum.M.slope) s s' .ret :=
  playRead_hist (init := ([], 0, []))
    (l := [(PowerSpectrum.M.plot_fit, [PowerSpectrum.O.show_residual], 0, []),
      (PowerSpectrum.M.fit_pspec, [PowerSpectrum.O.bootstrap], 9, [true]),
      (PowerSpectrum.M.plot_fit, [PowerSpectrum.O.show_residual], 0, []),
      (PowerSpectrum.M.fit_pspec, [PowerSpectrum.O.brk_is_None], 0, []),
      (PowerSpectrum.M.compute_radial_pspec, [], 0, []), (PowerSpectrum.M.compute_pspec, [], 0, [true])])
    (ch := (0, [])) (by decide +kernel)

/-- **C109, violation.** `compute_spectrum(theta_0=None)` fails, as `pspec` then returns no mask, after the flag of the mask was set:
the plot, possible before, raises the `AttributeError` of the mask.  scf.py:266-277, 678-679, psds.py:190-193 -/
theorem C109_scf_no_mask_violated : ∃ h s, Hist SCF.cls h s ∧
    (h.map fun c => (c.m, c.args SCF.O.theta_0, c.out)) =
      [(SCF.M.plot_fit, false, .attrErr SCF.A._azim_mask), (SCF.M.compute_spectrum, true, .err),
        (SCF.M.plot_fit, false, .done), (SCF.M.run, false, .done)] ∧
    s SCF.A._scf_spectrum = some (.val 0) ∧
    ∃ ρ s', Exec SCF.cls.body ρ (SCF.cls.body SCF.M.scf_spectrum) s s' .ret :=
  playRead_hist (init := ([], 0, [true, true, true]))
    (l := [(SCF.M.plot_fit, [SCF.O.show_surface], 0, []), (SCF.M.compute_spectrum, [SCF.O.theta_0], 3, []),
      (SCF.M.plot_fit, [SCF.O.show_surface], 0, []), (SCF.M.run, [], 0, [false, false, true, true, true])])
    (ch := (0, [])) (by decide +kernel)

/-- **C109, violation.** A power-law fit asked for before the widths were found fails, and has already set the flag: the plot of the
decomposition, possible before, raises the `AttributeError` of the widths.  pca.py:498-501, 511, 776, 827 -/
theorem C109_pca_early_fit_violated : ∃ h s, Hist PCA.cls h s ∧
    (h.map fun c => (c.m, c.args 0, c.out)) =
      [(PCA.M.plot_fit, false, .attrErr PCA.A._spatial_width), (PCA.M.fit_plaw, false, .attrErr PCA.A._spatial_width),
        (PCA.M.plot_fit, false, .done), (PCA.M.compute_pca, false, .done)] ∧
    s PCA.A._eigvals = some (.val 0) ∧
    ∃ ρ s', Exec PCA.cls.body ρ (PCA.cls.body PCA.M.eigvals) s s' .ret :=
  playRead_hist (init := ([PCA.O.n_eigs_is_None], 0, []))
    (l := [(PCA.M.plot_fit, [], 0, [true]), (PCA.M.fit_plaw, [], 0, [false]), (PCA.M.plot_fit, [], 0, [true]),
      (PCA.M.compute_pca, [], 0, [])])
    (ch := (0, [])) (by decide +kernel)

/-- **C109, violation.** A Bayesian fit that fails (the package for it is not installed, say) makes the sonic length of the fit
before unreadable.  pca.py:509, 579-582, 708, 726 -/
theorem C109_pca_failed_bayes_violated : ∃ h s, Hist PCA.cls h s ∧
    (h.map fun c => (c.m, c.args PCA.O.fit_method_is_odr, c.out)) =
      [(PCA.M.sonic_length, false, .attrErr PCA.A._samps), (PCA.M.fit_plaw, false, .err),
        (PCA.M.sonic_length, false, .done), (PCA.M.fit_plaw, true, .done), (PCA.M.find_spectral_widths, false, .done),
        (PCA.M.find_spatial_widths, false, .done), (PCA.M.compute_pca, false, .done)] ∧
    s PCA.A._index = some (.val 0) ∧
    ∃ ρ s', Exec PCA.cls.body ρ (PCA.cls.body PCA.M.index) s s' .ret :=
  playRead_hist (init := ([PCA.O.n_eigs_is_None], 0, []))
    (l := [(PCA.M.sonic_length, [], 0, []), (PCA.M.fit_plaw, [], 44, [false, true, true, true]), (PCA.M.sonic_length, [], 0, []),
      (PCA.M.fit_plaw, [PCA.O.fit_method_is_odr], 0, [false, true, true, true]), (PCA.M.find_spectral_widths, [], 0, []),
      (PCA.M.find_spatial_widths, [], 0, []), (PCA.M.compute_pca, [], 0, [])])
    (ch := (0, [])) (by decide +kernel)

end TS
