import Verif.Model.RfftToFft
import Verif.Model.PSpec
import Verif.Model.Mvc
import Verif.Model.Bispec
import Verif.Model.RunCalls
import Verif.Model.Smoothing

/-! Model of the options `use_pyfftw`, `threads` and `pyfftw_kwargs` of the statistics: which library is called, with which keywords, and
which warnings are given.  The `pyfftw` package is external: it is a parameter, `none` when the import at the top of the file failed. -/

namespace TS

/-- The functions of `pyfftw.interfaces.numpy_fft` that are imported (rfft_to_fft.py:7-11, bispec.py:13-17), as functions of their
keywords. -/
structure Fftw where
  rfftn : KwArgs → NdArr ℝ → Py (NdArr ℂ)
  fft2 : KwArgs → Arr2 ℝ → Py (Arr2 ℂ)

/-- One call of a Fourier transform. -/
structure FftCall where
  lib : FftLib
  kw : KwArgs

/-- A computation with the transforms called, the number of warnings that pyfftw is missing, and the result. -/
structure FftRun (α : Type) where
  calls : List FftCall
  warned : ℕ
  res : Py α

/-- A computation without transforms. -/
def FftRun.of {α : Type} (r : Py α) : FftRun α := ⟨[], 0, r⟩

/-- One computation after the other. -/
def FftRun.andThen {α β : Type} (x : FftRun α) (f : α → FftRun β) : FftRun β :=
  match x.res with
  | .ok a => ⟨x.calls ++ (f a).calls, x.warned + (f a).warned, (f a).res⟩
  | .error e => ⟨x.calls, x.warned, .error e⟩

/-- `np.fft.rfftn`. -/
noncomputable def npRfftn : NdArr ℝ → Py (NdArr ℂ)
  | .d2 a => (rfftn2 a).map .d2
  | .d3 a => (rfftn3 a).map .d3
  | .other _ => .error .typeError

/-- rfft_to_fft.py:63-85 from the half spectrum on (`np.abs` of lines 55 and 61 included). -/
noncomputable def afterRfft (image : NdArr ℝ) (keep : Bool) (r : NdArr ℂ) : Py (NdArr ℝ) :=
  match image, r with
  | .d2 a, .d2 z => if keep then .ok (.d2 (z.map fun c => ‖c‖)) else (expand2 a.m (z.map fun c => ‖c‖)).map .d2
  | .d3 a, .d3 z => if keep then .ok (.d3 (z.map fun c => ‖c‖)) else (expand3 a.p (z.map fun c => ‖c‖)).map .d3
  | _, _ => .error .valueError

/-- rfft_to_fft.py:21-22 parameters of `rfft_to_fft` after the image. -/
def sigRfft : Sig := ⟨[("keep_rfft", .bool false), ("use_pyfftw", .bool false), ("threads", .num 1)], true⟩

/-- rfft_to_fft.py:53-61 which library is asked, and how: `threads` is a parameter of `rfft_to_fft` that is not handed on. -/
noncomputable def rfftStep (lib : Option Fftw) (image : NdArr ℝ) (b : Bound) : FftRun (NdArr ℂ) :=
  if ((kwGet b.args "use_pyfftw").getD .none).truthy then
    match lib with
    | some L => ⟨[⟨.pyfftw, b.extra⟩], 0, L.rfftn b.extra image⟩
    | none => ⟨[⟨.numpy, []⟩], 1, npRfftn image⟩
  else ⟨[⟨.numpy, []⟩], 0, npRfftn image⟩

/-- rfft_to_fft.py:21-85 `rfft_to_fft(image, **kw)`. -/
noncomputable def rfftToFftOpts (lib : Option Fftw) (image : NdArr ℝ) (kw : KwArgs) : FftRun (NdArr ℝ) :=
  if (kwGet kw "image").isSome then .of (.error .typeError)
  else
    match bindKw sigRfft kw with
    | .error e => .of (.error e)
    | .ok b =>
      match image with
      | .other _ => .of (.error .typeError)
      | image =>
        (rfftStep lib image b).andThen fun r => .of (afterRfft image ((kwGet b.args "keep_rfft").getD .none).truthy r)

/-- pspec.py:106-107, vca.py:111-112, mvc.py:171-172, vcs.py:74-75, bispec.py:100-101
`if pyfftw_kwargs.get('threads') is not None: pyfftw_kwargs.pop('threads')`.  `pyfftw_kwargs` holds the extra keywords of the method. -/
def dropThreads (kw : KwArgs) : KwArgs :=
  match kwGet kw "threads" with
  | none => kw
  | some .none => kw
  | some _ => kwErase kw "threads"

/-- The three options of a statistic that concern the transform. -/
structure FftOpts where
  usePyfftw : OVal := .bool false
  threads : OVal := .num 1
  kw : KwArgs := []

/-- The keywords of the calls of `rfft_to_fft` in pspec.py:109-111, vca.py:114-116, mvc.py:174-182. -/
def FftOpts.forRfft (o : FftOpts) : KwArgs := [("use_pyfftw", o.usePyfftw), ("threads", o.threads)] ++ dropThreads o.kw

/-- The keywords of the call of `rfft_to_fft` in vcs.py:77-80. -/
def FftOpts.forVcs (o : FftOpts) : KwArgs :=
  [("use_pyfftw", o.usePyfftw), ("keep_rfft", .bool false), ("threads", o.threads)] ++ dropThreads o.kw

/-- A 2D result of `rfft_to_fft`. -/
def asD2 : NdArr ℝ → Py (Arr2 ℝ)
  | .d2 f => .ok f
  | _ => .error .typeError

/-- A 3D result of `rfft_to_fft`. -/
def asD3 : NdArr ℝ → Py (Arr3 ℝ)
  | .d3 f => .ok f
  | _ => .error .typeError

/-- pspec.py:98-104 the image, with the apodizing window if there is one. -/
noncomputable def apodized2 (data : Arr2 ℝ) : Option ApodArgs → Py (Arr2 ℝ)
  | some k => do mul2 data (← apodizingKernel k.kernelType k.alpha k.beta [data.n, data.m])
  | none => .ok data

/-- vca.py:103-109 the cube, with the apodizing window if there is one. -/
noncomputable def apodized3 (data : Arr3 ℝ) : Option ApodArgs → Py (Arr3 ℝ)
  | some k => do mul32 data (← apodizingKernel k.kernelType k.alpha k.beta [data.n, data.m, data.p])
  | none => .ok data

/-- pspec.py:98-113 `PowerSpectrum.compute_pspec` without beam correction, with the options of the transform. -/
noncomputable def pspecOpts (lib : Option Fftw) (data : Arr2 ℝ) (apod : Option ApodArgs) (o : FftOpts) : FftRun (Arr2 ℝ) :=
  (FftRun.of (apodized2 data apod)).andThen fun d =>
  (rfftToFftOpts lib (.d2 d) o.forRfft).andThen fun f =>
  .of ((asD2 f).map fun f => f.fftshift.map (fun x => x ^ 2))

/-- vca.py:103-118 `VCA.compute_pspec` without beam correction, with the options of the transform. -/
noncomputable def vcaOpts (lib : Option Fftw) (data : Arr3 ℝ) (apod : Option ApodArgs) (o : FftOpts) : FftRun (Arr2 ℝ) :=
  (FftRun.of (apodized3 data apod)).andThen fun d =>
  (rfftToFftOpts lib (.d3 d) o.forRfft).andThen fun f =>
  .of ((asD3 f).map fun f =>
    let sq := f.fftshift.map (fun x => x ^ 2)
    ⟨sq.m, sq.p, fun i j => ∑ a ∈ Finset.range sq.n, sq.get a i j⟩)

/-- vcs.py:51-82 `VCS.compute_pspec` with the options of the transform. -/
noncomputable def vcsOpts (lib : Option Fftw) (cube : Arr3 (Option ℝ)) (o : FftOpts) : FftRun (Arr1 (Option ℝ)) :=
  (rfftToFftOpts lib (.d3 (vcsInit cube).2) o.forVcs).andThen fun f =>
  .of ((asD3 f).map fun f =>
    let ps3D := f.map (fun x => x ^ 2)
    ⟨ps3D.n, fun a => divO (some (∑ i ∈ Finset.range ps3D.m, ∑ j ∈ Finset.range ps3D.p, ps3D.get a i j))
      (some (vcsGoodPixels (vcsInit cube).1 (vcsInit cube).2))⟩)

open Classical in
/-- `rfft_to_fft` of an image that may hold NaN: one NaN spoils every frequency, in both libraries. -/
noncomputable def rfftToFftOptsO (lib : Option Fftw) (a : Arr2 (Option ℝ)) (kw : KwArgs) : FftRun (Arr2 (Option ℝ)) :=
  (rfftToFftOpts lib (.d2 (fillNan 0 a)) kw).andThen fun f =>
  .of ((asD2 f).map fun f => f.map (fun x => if ∃ i < a.n, ∃ j < a.m, a.get i j = none then none else some x))

/-- mvc.py:171-192 the two transforms of `MVC.compute_pspec` and what is made of them, with the options of the transform. -/
noncomputable def mvcOpts (lib : Option Fftw) (t : Arr2 (Option ℝ) × Arr2 (Option ℝ) × Arr2 (Option ℝ)) (o : FftOpts) :
    FftRun (Arr2 (Option ℝ)) :=
  (rfftToFftOptsO lib t.1 o.forRfft).andThen fun term1 =>
  (rfftToFftOptsO lib t.2.2 o.forRfft).andThen fun fftMom0 =>
  .of (.ok ((⟨term1.n, term1.m, fun i j => subO (term1.get i j) (mulO t.2.1.nanmean (fftMom0.get i j))⟩ :
    Arr2 (Option ℝ)).fftshift.map (fun x => x.map (fun v => |v| ^ 2))))

/-- bispec.py:98-111 the transform of `Bispectrum.compute_bispectrum`, with the options of the transform: `threads` is handed on.  `img`
is the data, or the data minus its mean; `img` is not empty. -/
noncomputable def bispecFftOpts (lib : Option Fftw) (img : Arr2 ℝ) (meanSubtract : Bool) (o : FftOpts) : FftRun (Arr2 ℂ) :=
  let mean := (∑ i ∈ Finset.range img.n, ∑ j ∈ Finset.range img.m, img.get i j) / ((img.n * img.m : ℕ) : ℝ)
  let d : Arr2 ℝ := if meanSubtract then img.map (fun v => v - mean) else img
  if o.usePyfftw.truthy then
    match lib with
    | some L =>
      if (kwGet (dropThreads o.kw) "threads").isSome then .of (.error .typeError)
      else ⟨[⟨.pyfftw, ("threads", o.threads) :: dropThreads o.kw⟩], 0, L.fft2 (("threads", o.threads) :: dropThreads o.kw) d⟩
    | none => ⟨[⟨.numpy, []⟩], 1, .ok (bispecFft img meanSubtract)⟩
  else ⟨[⟨.numpy, []⟩], 0, .ok (bispecFft img meanSubtract)⟩

/-! ### the convolutions -/

/-- wavelet_transform.py:139-149, 174-193 `Wavelet.compute_transform`: the library is picked once; astropy's `convolve_fft` calls its
`fftn` and `ifftn` without keywords, `perScale` times for each of `n` scales.  Only the calls are modelled here. -/
def waveletCalls (lib : Option Fftw) (n perScale : ℕ) (o : FftOpts) : FftRun Unit :=
  ⟨List.replicate (n * perScale) ⟨pickFft lib.isSome o.usePyfftw.truthy, []⟩,
   if o.usePyfftw.truthy && lib.isNone then 1 else 0, .ok ()⟩

/-- delta_variance.py:202-236, convolve_wrapper.py:44-61 `DeltaVariance.compute_deltavar`: four calls of `convolution_wrapper` for each of
`n` lags (each picks the library), each with `perConv` transforms without keywords.  Only the calls are modelled here. -/
def deltaCalls (lib : Option Fftw) : ℕ → ℕ → FftOpts → FftRun Unit
  | 0, _, _ => .of (.ok ())
  | n + 1, perConv, o =>
    FftRun.andThen ⟨List.replicate (4 * perConv) ⟨pickFft lib.isSome o.usePyfftw.truthy, []⟩,
      if o.usePyfftw.truthy && lib.isNone then 4 else 0, .ok ()⟩ fun _ => deltaCalls lib n perConv o

/-! ### the old names -/

/-- A warning: which old name was used. -/
inductive OldName | BiSpectrum | BiSpectrum_Distance | GenusDistance | DendroDistance
  deriving DecidableEq

/-- bispec.py:505-513, 652-661, genus.py:650-658, dendro_stats.py:882-890: an old name warns and calls the new class with the same
arguments; `new` is the new class with the warnings of this kind that its constructor gives. -/
def oldName {ι α : Type} (name : OldName) (new : ι → List OldName × Py α) (args : ι) : List OldName × Py α :=
  (name :: (new args).1, (new args).2)

/-- The data given to `Bispectrum_Distance`: a finished or unfinished `Bispectrum`, or an image. -/
inductive BispecArg | object (hasBicoherence : Bool) | image
  deriving DecidableEq

/-- bispec.py:541-567 the warnings about old names in `Bispectrum_Distance.__init__`: images go through `BiSpectrum`. -/
def bispecDistWarnings (data1 data2 : BispecArg) : List OldName :=
  (match data1 with | .object _ => [] | .image => [.BiSpectrum]) ++ (match data2 with | .object _ => [] | .image => [.BiSpectrum])

end TS
