import Verif.Np.Core
import Mathlib.Data.Rat.Defs
import Mathlib.Data.List.Basic

/-! Model of the `run` methods of the statistics as sequences of calls to their steps: which option reaches which step.  Values are
opaque apart from `None`, truth values, numbers, strings and dictionaries; calls follow Python's keyword rules.  The steps themselves
are modelled elsewhere; plotting and printing (`if verbose:` at the end of each `run`) are not modelled. -/

namespace TS

/-- An option value. -/
inductive OVal where
  | none
  | bool (b : Bool)
  | num (q : ℚ)
  | str (s : String)
  | obj (id : ℕ)
  | dict (l : List (String × OVal))

/-- Keyword arguments or a dictionary. -/
abbrev KwArgs := List (String × OVal)

/-- `bool(v)`. -/
def OVal.truthy : OVal → Bool
  | .none => false
  | .bool b => b
  | .num q => q ≠ 0
  | .str s => s ≠ ""
  | .obj _ => true
  | .dict l => !l.isEmpty

/-- Lookup by name. -/
def kwGet : KwArgs → String → Option OVal
  | [], _ => none
  | (k, v) :: t, name => if k = name then some v else kwGet t name

/-- Removal of a name. -/
def kwErase (d : KwArgs) (name : String) : KwArgs := d.filter fun p => p.1 ≠ name

/-- A signature: the parameters after `self` with their defaults (every parameter of the methods below has one), and whether other
keywords are accepted. -/
structure Sig where
  params : KwArgs
  varkw : Bool := false

/-- Names of the parameters. -/
def Sig.names (s : Sig) : List String := s.params.map (·.1)

/-- The arguments a function body sees. -/
structure Bound where
  args : KwArgs
  extra : KwArgs

/-- Python's rules for a call with keywords only: a name given twice or an unknown name is a TypeError. -/
def bindKw (s : Sig) (kw : KwArgs) : Py Bound :=
  if ¬ (kw.map (·.1)).Nodup then .error .typeError
  else if s.varkw = false ∧ kw.any (fun p => !(s.names.contains p.1)) then .error .typeError
  else .ok ⟨s.params.map fun p => (p.1, (kwGet kw p.1).getD p.2), kw.filter fun p => !(s.names.contains p.1)⟩

/-- One call in the body of a `run` method.  `args`: keyword of the step and option of `run` it is set to; `star`: options expanded with
`**` (`"**"` stands for the extra keywords of `run` itself); the call is made when all of `guards` have the given truth value; `body` is
what the step itself refuses. -/
structure CallDef where
  step : String
  sig : Sig
  args : List (String × String) := []
  star : List String := []
  guards : List (String × Bool) := []
  body : Bound → Option PyErr := fun _ => none

/-- Statements before the first call: `if d.get(key) is not None: d.pop(key)`, and the loading of the beam in pca.py:989-997. -/
inductive PreOp where
  | pop (d key : String)
  | beam

/-- A `run` method. -/
structure RunDef where
  cls : String
  sig : Sig
  pre : List PreOp := []
  calls : List CallDef
  returnsSelf : Bool := true

/-- A call that was made. -/
structure Event where
  step : String
  bound : Bound

/-- The local variables of `run`. -/
def runEnv (b : Bound) : KwArgs := b.args ++ [("**", .dict b.extra)]

/-- Assignment to a local variable. -/
def envSet (env : KwArgs) (name : String) (v : OVal) : KwArgs := env.map fun p => if p.1 = name then (p.1, v) else p

/-- One statement before the first call.  `hdrBeam` is what `find_beam_width` finds in the header. -/
def preStep (hdrBeam : Option OVal) (env : KwArgs) : PreOp → Py KwArgs
  | .pop d key =>
    match kwGet env d with
    | some (.dict l) =>
      match kwGet l key with
      | none => .ok env
      | some .none => .ok env
      | some _ => .ok (envSet env d (.dict (kwErase l key)))
    | _ => .error .attributeError
  | .beam =>
    match kwGet env "beam_fwhm" with
    | some .none =>
      if ((kwGet env "brunt_beamcorrect").getD .none).truthy && !((kwGet env "decomp_only").getD .none).truthy then
        match hdrBeam with
        | some v => .ok (envSet env "beam_fwhm" v)
        | none => .error .valueError
      else .ok env
    | _ => .ok env

/-- All statements before the first call. -/
def preRun (hdrBeam : Option OVal) : KwArgs → List PreOp → Py KwArgs
  | env, [] => .ok env
  | env, op :: t =>
    match preStep hdrBeam env op with
    | .ok env' => preRun hdrBeam env' t
    | .error e => .error e

/-- `**d` for the listed options. -/
def starKw (env : KwArgs) : List String → Py KwArgs
  | [] => .ok []
  | d :: t =>
    match kwGet env d, starKw env t with
    | some (.dict l), .ok r => .ok (l ++ r)
    | some (.dict _), .error e => .error e
    | _, _ => .error .typeError

/-- The call itself. -/
def makeCall (env : KwArgs) (c : CallDef) : Py Bound :=
  match starKw env c.star with
  | .error e => .error e
  | .ok kw => bindKw c.sig ((c.args.map fun p => (p.1, (kwGet env p.2).getD .none)) ++ kw)

/-- Whether the call is made. -/
def guarded (env : KwArgs) (c : CallDef) : Bool :=
  c.guards.all fun g => ((kwGet env g.1).getD .none).truthy == g.2

/-- The calls in order; the first error stops the run. -/
def execCalls (env : KwArgs) : List CallDef → List Event × Option PyErr
  | [] => ([], none)
  | c :: t =>
    if guarded env c then
      match makeCall env c with
      | .error e => ([], some e)
      | .ok b =>
        match c.body b with
        | some e => ([⟨c.step, b⟩], some e)
        | none => (⟨c.step, b⟩ :: (execCalls env t).1, (execCalls env t).2)
    else execCalls env t

/-- What a call of `run` does: the calls made, the error raised, and the local variables at the end (dictionaries given by the caller are
the caller's own objects). -/
structure RunOut where
  events : List Event
  err : Option PyErr
  env : KwArgs

/-- `obj.run(**kw)`. -/
def execRun (hdrBeam : Option OVal) (r : RunDef) (kw : KwArgs) : RunOut :=
  match bindKw r.sig kw with
  | .error e => ⟨[], some e, []⟩
  | .ok b =>
    match preRun hdrBeam (runEnv b) r.pre with
    | .error e => ⟨[], some e, runEnv b⟩
    | .ok env => ⟨(execCalls env r.calls).1, (execCalls env r.calls).2, env⟩

/-! ### signatures of the steps -/

/-- pspec.py:69-71, mvc.py:119-121, vca.py:74-76 `compute_pspec`. -/
def sigComputePspec : Sig where
  params := [("beam_correct", .bool false), ("apodize_kernel", .none), ("alpha", .num (3/10)), ("beta", .num 0),
    ("use_pyfftw", .bool false), ("threads", .num 1)]
  varkw := true

/-- base_pspec2.py:77 `compute_radial_pspec`. -/
def sigRadialPspec : Sig where
  params := [("logspacing", .bool false), ("max_bin", .none)]
  varkw := true

/-- base_pspec2.py:109-113 `fit_pspec`. -/
def sigFitPspec : Sig where
  params := [("fit_unbinned", .bool false), ("brk", .none), ("log_break", .bool false), ("low_cut", .none), ("high_cut", .none),
    ("min_fits_pts", .num 10), ("weighted_fit", .bool false), ("bootstrap", .bool false), ("bootstrap_kwargs", .dict []),
    ("verbose", .bool false)]

/-- base_pspec2.py:368-371 `fit_2Dpspec`. -/
def sigFit2Dpspec : Sig where
  params := [("fit_method", .str "LevMarq"), ("p0", .obj 0), ("low_cut", .none), ("high_cut", .none), ("bootstrap", .bool true),
    ("niters", .num 100), ("use_azimmask", .bool false), ("radial_weighting", .bool false), ("fix_ellip_params", .bool false)]

/-- vcs.py:51 `VCS.compute_pspec`. -/
def sigVcsPspec : Sig where
  params := [("use_pyfftw", .bool false), ("threads", .num 1)]
  varkw := true

/-- vcs.py:91-93 `VCS.fit_pspec`. -/
def sigVcsFit : Sig where
  params := [("breaks", .none), ("log_break", .bool true), ("low_cut", .none), ("high_cut", .none), ("fit_verbose", .bool false),
    ("bootstrap", .bool false)]
  varkw := true

/-- delta_variance.py:137-143 `compute_deltavar`. -/
def sigComputeDeltavar : Sig where
  params := [("allow_huge", .bool false), ("boundary", .str "wrap"), ("min_weight_frac", .num (1/100)), ("nan_treatment", .str "fill"),
    ("preserve_nan", .bool false), ("use_pyfftw", .bool false), ("threads", .num 1), ("pyfftw_kwargs", .dict []),
    ("show_progress", .bool true), ("keep_convolve_arrays", .bool false)]

/-- delta_variance.py:293-295 `DeltaVariance.fit_plaw`. -/
def sigDeltavarFit : Sig where
  params := [("xlow", .none), ("xhigh", .none), ("brk", .none), ("verbose", .bool false), ("bootstrap", .bool false),
    ("bootstrap_kwargs", .dict [])]
  varkw := true

/-- wavelet_transform.py:112-114 `compute_transform`. -/
def sigComputeTransform : Sig where
  params := [("show_progress", .bool true), ("scale_normalization", .bool true), ("keep_convolved_arrays", .bool false),
    ("convolve_kwargs", .dict []), ("use_pyfftw", .bool false), ("threads", .num 1), ("pyfftw_kwargs", .dict [])]

/-- wavelet_transform.py:226-228 `fit_transform`. -/
def sigFitTransform : Sig where
  params := [("xlow", .none), ("xhigh", .none), ("brk", .none), ("min_fits_pts", .num 3), ("weighted_fit", .bool false),
    ("bootstrap", .bool false), ("bootstrap_kwargs", .dict [])]
  varkw := true

/-- scf.py:151 `compute_surface`. -/
def sigComputeSurface : Sig where
  params := [("boundary", .str "continuous"), ("show_progress", .bool true)]

/-- scf.py:245 `compute_spectrum`. -/
def sigComputeSpectrum : Sig where
  params := []
  varkw := true

/-- scf.py:286-287 `SCF.fit_plaw`. -/
def sigScfFit : Sig where
  params := [("xlow", .none), ("xhigh", .none), ("verbose", .bool false), ("bootstrap", .bool false)]
  varkw := true

/-- scf.py:430-431 `fit_2Dplaw`. -/
def sigFit2Dplaw : Sig where
  params := [("fit_method", .str "LevMarq"), ("p0", .obj 0), ("xlow", .none), ("xhigh", .none), ("bootstrap", .bool true),
    ("niters", .num 100), ("use_azimmask", .bool false)]

/-- pca.py:80-81 `compute_pca`. -/
def sigComputePca : Sig where
  params := [("mean_sub", .bool false), ("n_eigs", .str "auto"), ("min_eigval", .none), ("eigen_cut_method", .str "value"),
    ("show_progress", .bool true)]

/-- pca.py:339-342 `find_spatial_widths`. -/
def sigSpatialWidths : Sig where
  params := [("method", .str "contour"), ("brunt_beamcorrect", .bool true), ("beam_fwhm", .none), ("distance", .none),
    ("diagnosticplots", .bool false)]
  varkw := true

/-- pca.py:420 `find_spectral_widths`. -/
def sigSpectralWidths : Sig where
  params := [("method", .str "walk-down")]

/-- pca.py:472-473 `PCA.fit_plaw`. -/
def sigPcaFit : Sig where
  params := [("xlow", .none), ("xhigh", .none), ("fit_method", .str "odr"), ("verbose", .bool false)]
  varkw := true

/-- tsallis.py:85 `make_tsallis`. -/
def sigMakeTsallis : Sig where
  params := [("periodic", .bool true), ("num_bins", .none)]

/-- tsallis.py:161 `fit_tsallis`. -/
def sigFitTsallis : Sig where
  params := [("sigma_clip", .num 5)]

/-- highstatmoments.py:96 `array_moments`. -/
def sigArrayMoments : Sig where
  params := []

/-- highstatmoments.py:103-104 `compute_spatial_distrib`. -/
def sigSpatialDistrib : Sig where
  params := [("radius", .none), ("periodic", .bool true), ("min_frac", .num (4/5)), ("show_progress", .bool true)]

/-- highstatmoments.py:244-245 `make_spatial_histograms`. -/
def sigSpatialHists : Sig where
  params := [("mean_bins", .none), ("variance_bins", .none), ("skewness_bins", .none), ("kurtosis_bins", .none)]

/-- genus.py:233-238 `make_genus_curve`. -/
def sigGenusCurve : Sig where
  params := [("enable_small_removal", .bool true), ("use_beam", .bool false), ("min_size", .num 4), ("connectivity", .num 2),
    ("keep_smoothed_images", .bool false), ("match_kernel", .bool false)]
  varkw := true

/-- dendro_stats.py:131-133 `compute_dendro`. -/
def sigComputeDendro : Sig where
  params := [("show_progress", .bool false), ("save_dendro", .bool false), ("dendro_name", .none), ("dendro_obj", .none),
    ("periodic_bounds", .bool false)]

/-- dendro_stats.py:252 `fit_numfeat`. -/
def sigFitNumfeat : Sig where
  params := [("size", .num 5), ("verbose", .bool false)]

/-- dendro_stats.py:211 `make_hists`. -/
def sigMakeHists : Sig where
  params := [("min_number", .num 10)]
  varkw := true

/-- base_statistic.py:128 `save_results` (`output_name` is required; it is always given here). -/
def sigSaveResults : Sig where
  params := [("output_name", .none), ("keep_data", .bool false)]

/-- base_statistic.py:141 `output_name.endswith`: only strings have it. -/
def saveResultsBody (b : Bound) : Option PyErr :=
  match kwGet b.args "output_name" with
  | some (.str _) => none
  | _ => some .attributeError

/-- compare_pdf.py:84 `make_pdf`. -/
def sigMakePdf : Sig where
  params := [("bins", .none)]

/-- compare_pdf.py:128 `make_ecdf`. -/
def sigMakeEcdf : Sig where
  params := []

/-- compare_pdf.py:178-180 `fit_pdf`. -/
def sigFitPdf : Sig where
  params := [("model", .str "lognorm"), ("verbose", .bool false), ("fit_type", .str "mle"), ("floc", .bool true), ("loc", .num 0),
    ("fscale", .bool false), ("scale", .num 1)]
  varkw := true

/-- bispec.py:64-66 `compute_bispectrum`. -/
def sigComputeBispectrum : Sig where
  params := [("show_progress", .bool true), ("use_pyfftw", .bool false), ("threads", .num 1), ("nsamples", .num 100),
    ("seed", .num 1000), ("mean_subtract", .bool false)]
  varkw := true

/-! ### the `run` methods -/

/-- The options of the `run` methods of the 2D power spectra: pspec.py:121-129, mvc.py:227-234, vca.py:126-134. -/
def sigRunPspec : Sig where
  params := [("verbose", .bool false), ("beam_correct", .bool false), ("apodize_kernel", .none), ("alpha", .num (1/5)), ("beta", .num 0),
    ("use_pyfftw", .bool false), ("threads", .num 1), ("pyfftw_kwargs", .dict []), ("low_cut", .none), ("high_cut", .none),
    ("radial_pspec_kwargs", .dict []), ("fit_kwargs", .dict []), ("fit_unbinned", .bool false), ("fit_2D", .bool true),
    ("fit_2D_kwargs", .dict []), ("xunit", .obj 1), ("save_name", .none), ("use_wavenumber", .bool false)]

/-- The calls in pspec.py:187-201, mvc.py:279-293, vca.py:193-205. -/
def callsPspec : List CallDef :=
  [{ step := "compute_pspec", sig := sigComputePspec,
     args := [("apodize_kernel", "apodize_kernel"), ("alpha", "alpha"), ("beta", "beta"), ("beam_correct", "beam_correct"),
       ("use_pyfftw", "use_pyfftw"), ("threads", "threads")], star := ["pyfftw_kwargs"] },
   { step := "compute_radial_pspec", sig := sigRadialPspec, star := ["radial_pspec_kwargs"] },
   { step := "fit_pspec", sig := sigFitPspec,
     args := [("fit_unbinned", "fit_unbinned"), ("low_cut", "low_cut"), ("high_cut", "high_cut")], star := ["fit_kwargs"] },
   { step := "fit_2Dpspec", sig := sigFit2Dpspec, args := [("low_cut", "low_cut"), ("high_cut", "high_cut")], star := ["fit_2D_kwargs"],
     guards := [("fit_2D", true)] }]

/-- pspec.py:121-216 `PowerSpectrum.run`. -/
def runPspec : RunDef where
  cls := "PowerSpectrum"
  sig := sigRunPspec
  pre := [.pop "pyfftw_kwargs" "threads", .pop "fit_kwargs" "fit_unbinned"]
  calls := callsPspec

/-- vca.py:126-221 `VCA.run`. -/
def runVca : RunDef where
  cls := "VCA"
  sig := sigRunPspec
  pre := [.pop "pyfftw_kwargs" "threads", .pop "fit_kwargs" "fit_unbinned"]
  calls := callsPspec

/-- mvc.py:227-307 `MVC.run`. -/
def runMvc : RunDef where
  cls := "MVC"
  sig := sigRunPspec
  pre := [.pop "pyfftw_kwargs" "threads"]
  calls := callsPspec

/-- vcs.py:348-391 `VCS.run`. -/
def runVcs : RunDef where
  cls := "VCS"
  sig :=
    { params := [("verbose", .bool false), ("save_name", .none), ("xunit", .obj 1), ("use_pyfftw", .bool false), ("threads", .num 1),
        ("pyfftw_kwargs", .dict [])]
      varkw := true }
  pre := [.pop "pyfftw_kwargs" "threads"]
  calls :=
    [{ step := "compute_pspec", sig := sigVcsPspec, args := [("use_pyfftw", "use_pyfftw"), ("threads", "threads")],
       star := ["pyfftw_kwargs"] },
     { step := "fit_pspec", sig := sigVcsFit, star := ["**"] }]

/-- delta_variance.py:606-665 `DeltaVariance.run`. -/
def runDeltavar : RunDef where
  cls := "DeltaVariance"
  sig :=
    { params := [("show_progress", .bool true), ("verbose", .bool false), ("xunit", .obj 2), ("nan_treatment", .str "fill"),
        ("preserve_nan", .bool false), ("allow_huge", .bool false), ("boundary", .str "wrap"), ("use_pyfftw", .bool false),
        ("threads", .num 1), ("pyfftw_kwargs", .dict []), ("xlow", .none), ("xhigh", .none), ("brk", .none), ("fit_kwargs", .dict []),
        ("save_name", .none)] }
  calls :=
    [{ step := "compute_deltavar", sig := sigComputeDeltavar,
       args := [("allow_huge", "allow_huge"), ("boundary", "boundary"), ("nan_treatment", "nan_treatment"),
         ("preserve_nan", "preserve_nan"), ("use_pyfftw", "use_pyfftw"), ("threads", "threads"), ("pyfftw_kwargs", "pyfftw_kwargs"),
         ("show_progress", "show_progress")] },
     { step := "fit_plaw", sig := sigDeltavarFit,
       args := [("xlow", "xlow"), ("xhigh", "xhigh"), ("brk", "brk"), ("verbose", "verbose")], star := ["fit_kwargs"] }]

/-- wavelet_transform.py:546-608 `Wavelet.run` (the extra keywords go to the plot). -/
def runWavelet : RunDef where
  cls := "Wavelet"
  sig :=
    { params := [("show_progress", .bool true), ("verbose", .bool false), ("xunit", .obj 2), ("convolve_kwargs", .dict []),
        ("use_pyfftw", .bool false), ("threads", .num 1), ("pyfftw_kwargs", .dict []), ("scale_normalization", .bool true),
        ("xlow", .none), ("xhigh", .none), ("brk", .none), ("fit_kwargs", .dict []), ("save_name", .none)]
      varkw := true }
  calls :=
    [{ step := "compute_transform", sig := sigComputeTransform,
       args := [("scale_normalization", "scale_normalization"), ("convolve_kwargs", "convolve_kwargs"), ("use_pyfftw", "use_pyfftw"),
         ("threads", "threads"), ("pyfftw_kwargs", "pyfftw_kwargs"), ("show_progress", "show_progress")] },
     { step := "fit_transform", sig := sigFitTransform, args := [("xlow", "xlow"), ("xhigh", "xhigh"), ("brk", "brk")],
       star := ["fit_kwargs"] }]

/-- scf.py:749-797 `SCF.run`. -/
def runScf : RunDef where
  cls := "SCF"
  sig :=
    { params := [("boundary", .str "continuous"), ("show_progress", .bool true), ("xlow", .none), ("xhigh", .none),
        ("fit_kwargs", .dict []), ("fit_2D", .bool true), ("fit_2D_kwargs", .dict []), ("radialavg_kwargs", .dict []),
        ("verbose", .bool false), ("xunit", .obj 2), ("save_name", .none)] }
  calls :=
    [{ step := "compute_surface", sig := sigComputeSurface, args := [("boundary", "boundary"), ("show_progress", "show_progress")] },
     { step := "compute_spectrum", sig := sigComputeSpectrum, star := ["radialavg_kwargs"] },
     { step := "fit_plaw", sig := sigScfFit, args := [("verbose", "verbose"), ("xlow", "xlow"), ("xhigh", "xhigh")],
       star := ["fit_kwargs"] },
     { step := "fit_2Dplaw", sig := sigFit2Dplaw, args := [("xlow", "xlow"), ("xhigh", "xhigh")], star := ["fit_2D_kwargs"],
       guards := [("fit_2D", true)] }]

/-- pca.py:932-1036 `PCA.run`. -/
def runPca : RunDef where
  cls := "PCA"
  sig :=
    { params := [("show_progress", .bool true), ("verbose", .bool false), ("save_name", .none), ("mean_sub", .bool false),
        ("decomp_only", .bool false), ("n_eigs", .str "auto"), ("min_eigval", .none), ("eigen_cut_method", .str "value"),
        ("spatial_method", .str "contour"), ("spectral_method", .str "walk-down"), ("xlow", .none), ("xhigh", .none),
        ("fit_method", .str "odr"), ("beam_fwhm", .none), ("brunt_beamcorrect", .bool true), ("spatial_output_unit", .obj 2),
        ("spectral_output_unit", .obj 2)] }
  pre := [.beam]
  calls :=
    [{ step := "compute_pca", sig := sigComputePca,
       args := [("mean_sub", "mean_sub"), ("n_eigs", "n_eigs"), ("min_eigval", "min_eigval"), ("eigen_cut_method", "eigen_cut_method"),
         ("show_progress", "show_progress")] },
     { step := "find_spatial_widths", sig := sigSpatialWidths,
       args := [("method", "spatial_method"), ("beam_fwhm", "beam_fwhm"), ("brunt_beamcorrect", "brunt_beamcorrect")],
       guards := [("decomp_only", false)] },
     { step := "find_spectral_widths", sig := sigSpectralWidths, args := [("method", "spectral_method")],
       guards := [("decomp_only", false)] },
     { step := "fit_plaw", sig := sigPcaFit, args := [("xlow", "xlow"), ("xhigh", "xhigh"), ("fit_method", "fit_method")],
       guards := [("decomp_only", false)] }]

/-- tsallis.py:322-346 `Tsallis.run`. -/
def runTsallis : RunDef where
  cls := "Tsallis"
  sig :=
    { params := [("verbose", .bool false), ("num_bins", .none), ("periodic", .bool true), ("sigma_clip", .num 5), ("save_name", .none)] }
  calls :=
    [{ step := "make_tsallis", sig := sigMakeTsallis, args := [("num_bins", "num_bins"), ("periodic", "periodic")] },
     { step := "fit_tsallis", sig := sigFitTsallis, args := [("sigma_clip", "sigma_clip")] }]

/-- highstatmoments.py:446-478 `StatMoments.run`: `min_frac` is not passed on. -/
def runMoments : RunDef where
  cls := "StatMoments"
  sig :=
    { params := [("show_progress", .bool true), ("verbose", .bool false), ("save_name", .none), ("radius", .none),
        ("periodic", .bool true), ("min_frac", .num (4/5))]
      varkw := true }
  calls :=
    [{ step := "array_moments", sig := sigArrayMoments },
     { step := "compute_spatial_distrib", sig := sigSpatialDistrib,
       args := [("periodic", "periodic"), ("radius", "radius"), ("show_progress", "show_progress")] },
     { step := "make_spatial_histograms", sig := sigSpatialHists, star := ["**"] }]

/-- genus.py:456-479 `Genus.run`. -/
def runGenus : RunDef where
  cls := "Genus"
  sig :=
    { params := [("verbose", .bool false), ("save_name", .none), ("color", .str "r"), ("symbol", .str "o"),
        ("standardize_intensity", .bool false)]
      varkw := true }
  calls := [{ step := "make_genus_curve", sig := sigGenusCurve, star := ["**"] }]

/-- dendro_stats.py:406-452 `Dendrogram_Stats.run`: no `return`. -/
def runDendro : RunDef where
  cls := "Dendrogram_Stats"
  sig :=
    { params := [("periodic_bounds", .bool false), ("verbose", .bool false), ("save_name", .none), ("show_progress", .bool true),
        ("dendro_obj", .none), ("save_results", .bool false), ("output_name", .none), ("fit_kwargs", .dict []),
        ("make_hists", .bool true), ("hist_kwargs", .dict [])] }
  calls :=
    [{ step := "compute_dendro", sig := sigComputeDendro,
       args := [("show_progress", "show_progress"), ("dendro_obj", "dendro_obj"), ("periodic_bounds", "periodic_bounds")] },
     { step := "fit_numfeat", sig := sigFitNumfeat, args := [("verbose", "verbose")], star := ["fit_kwargs"] },
     { step := "make_hists", sig := sigMakeHists, star := ["hist_kwargs"], guards := [("make_hists", true)] },
     { step := "save_results", sig := sigSaveResults, args := [("output_name", "output_name")], guards := [("save_results", true)],
       body := saveResultsBody }]
  returnsSelf := false

/-- compare_pdf.py:508-540 `PDF.run`. -/
def runPdfStat : RunDef where
  cls := "PDF"
  sig :=
    { params := [("verbose", .bool false), ("save_name", .none), ("bins", .none), ("do_fit", .bool true), ("model", .str "lognorm"),
        ("color", .none)]
      varkw := true }
  calls :=
    [{ step := "make_pdf", sig := sigMakePdf, args := [("bins", "bins")] },
     { step := "make_ecdf", sig := sigMakeEcdf },
     { step := "fit_pdf", sig := sigFitPdf, args := [("model", "model"), ("verbose", "verbose")], star := ["**"],
       guards := [("do_fit", true)] }]

/-- bispec.py:461-502 `Bispectrum.run`. -/
def runBispec : RunDef where
  cls := "Bispectrum"
  sig :=
    { params := [("show_progress", .bool true), ("use_pyfftw", .bool false), ("threads", .num 1), ("nsamples", .num 100),
        ("seed", .num 1000), ("mean_subtract", .bool false), ("verbose", .bool false), ("save_name", .none)]
      varkw := true }
  calls :=
    [{ step := "compute_bispectrum", sig := sigComputeBispectrum,
       args := [("show_progress", "show_progress"), ("use_pyfftw", "use_pyfftw"), ("threads", "threads"), ("nsamples", "nsamples"),
         ("mean_subtract", "mean_subtract"), ("seed", "seed")], star := ["**"] }]

/-- Every statistic with a `run` method. -/
def allRuns : List RunDef :=
  [runPspec, runVca, runMvc, runVcs, runDeltavar, runWavelet, runScf, runPca, runTsallis, runMoments, runGenus, runDendro, runPdfStat, runBispec]

end TS
