import Verif.Model.RfftToFft
import Verif.Model.Apodizing
import Verif.Np.Nan

/-! Model of the 2D power-spectrum pipelines:
`turbustat/statistics/pspec_bispec/pspec.py` (PowerSpectrum), `vca_vcs/vca.py` (VCA),
`vca_vcs/vcs.py` (VCS) and the shared `base_pspec2.py`. -/

namespace TS
open Finset

/-- Replace NaN (`none`) by a number: `a[np.isnan(a)] = v`. -/
def fillNan (v : ℝ) (a : Arr2 (Option ℝ)) : Arr2 ℝ := a.map (fun x => x.getD v)

/-- `a[np.isnan(a)] = v` for cubes. -/
def fillNan3 (v : ℝ) (a : Arr3 (Option ℝ)) : Arr3 ℝ := a.map (fun x => x.getD v)

/-- Elementwise product of equally shaped 2D arrays (`ValueError` when shapes differ;
broadcasting is not used by the modelled code). -/
def mul2 (a b : Arr2 ℝ) : Py (Arr2 ℝ) :=
  if a.n = b.n ∧ a.m = b.m then .ok ⟨a.n, a.m, fun i j => a.get i j * b.get i j⟩
  else .error .valueError

/-- Product of a cube with a map broadcast over the first axis. -/
def mul32 (a : Arr3 ℝ) (b : Arr2 ℝ) : Py (Arr3 ℝ) :=
  if a.m = b.n ∧ a.p = b.m then .ok ⟨a.n, a.m, a.p, fun c i j => a.get c i j * b.get i j⟩
  else .error .valueError

/-- What `PowerSpectrum.__init__` leaves behind: the weighted image used by `compute_pspec`
and the (mutated) weight array of the caller. -/
structure PSpecState where
  weighted : Arr2 ℝ
  callerWeights : Option (Arr2 (Option ℝ))

/-- pspec.py:38-67 `PowerSpectrum.__init__` (data and weights).  Lines 46-48 replace NaN by 0 in
a copy of the image, so at line 54 nothing is NaN any more and lines 57-58 change nothing;
line 56 writes 0 into the caller's own weight array. -/
def powerSpectrumInit (img : Arr2 (Option ℝ)) (weights : Option (Arr2 (Option ℝ))) :
    Py PSpecState := do
  let data := fillNan 0 img
  match weights with
  | none =>
      let w ← mul2 data ⟨data.n, data.m, fun _ _ => 1⟩
      return ⟨w, none⟩
  | some w0 =>
      let w1 := fillNan 0 w0
      let w ← mul2 data w1
      return ⟨w, some (w1.map some)⟩

/-- The `apodize_kernel`, `alpha`, `beta` arguments of `compute_pspec`. -/
structure ApodArgs where
  kernelType : String
  alpha : ℝ
  beta : ℝ

/-- pspec.py:98-113 `compute_pspec` up to `self._ps2D = np.power(fft, 2.)`. -/
noncomputable def computePspec (data : Arr2 ℝ) (apod : Option ApodArgs) : Py (Arr2 ℝ) := do
  let d ← match apod with
    | some k => do mul2 data (← apodizingKernel k.kernelType k.alpha k.beta [data.n, data.m])
    | none => .ok data
  match ← rfftToFft (.d2 d) with
  | .d2 f => return f.fftshift.map (fun x => x ^ 2)
  | _ => .error .typeError

/-- base_pspec2.py:58-75 `compute_beam_pspec` for a given beam kernel image (its rendering by
`radio_beam` is external): shifted squared amplitude, zeros replaced by NaN. -/
noncomputable def beamPspec (beamKern : Arr2 ℝ) : Py (Arr2 (Option ℝ)) := do
  match ← rfftToFft (.d2 beamKern) with
  | .d2 f => return f.fftshift.map (fun x => if |x ^ 2| = 0 then none else some |x ^ 2|)
  | _ => .error .typeError

/-- pspec.py:115-119 / vca.py:120-124: `self._ps2D /= self._beam_pow` (NaN where the beam power
is NaN). -/
noncomputable def beamCorrect (ps : Arr2 ℝ) (beamPow : Arr2 (Option ℝ)) : Arr2 (Option ℝ) :=
  ⟨ps.n, ps.m, fun i j => (beamPow.get i j).map (fun b => ps.get i j / b)⟩

/-- base_pspec2.py:25-30 property `ps2D`: `self._ps2D[::-1]`. -/
def ps2DProperty {α : Type*} (ps : Arr2 α) : Arr2 α := ps.slice0 ⟨none, none, -1⟩

/-- vca.py:103-118 `VCA.compute_pspec` up to the sum over the spectral axis
(`fftshift` shifts all three axes). -/
noncomputable def vcaComputePspec (data : Arr3 ℝ) (apod : Option ApodArgs) : Py (Arr2 ℝ) := do
  let d ← match apod with
    | some k => do mul32 data (← apodizingKernel k.kernelType k.alpha k.beta [data.n, data.m, data.p])
    | none => .ok data
  match ← rfftToFft (.d3 d) with
  | .d3 f =>
      let sq := f.fftshift.map (fun x => x ^ 2)
      return ⟨sq.m, sq.p, fun i j => ∑ a ∈ range sq.n, sq.get a i j⟩
  | _ => .error .typeError

/-- `data.max(axis=0)` at one sky pixel (an empty spectral axis, a ValueError in numpy, does not
reach this point because the FFT rejects it; the model then reads entry 0). -/
noncomputable def specMax (n : ℕ) (f : ℕ → ℝ) : ℝ :=
  (List.range n).foldl (fun acc a => max acc (f a)) (f 0)

/-- vcs.py:67-72 number of pixels averaged: when the input had NaNs, the number of sky pixels
whose maximum over the (NaN-free) spectrum is not 0, otherwise all of them. -/
noncomputable def vcsGoodPixels (hasNan : Bool) (data : Arr3 ℝ) : ℝ :=
  if hasNan then
    ∑ i ∈ range data.m, ∑ j ∈ range data.p,
      if specMax data.n (fun a => data.get a i j) ≠ 0 then 1 else 0
  else ((data.m * data.p : ℕ) : ℝ)

/-- vcs.py:33-49 `VCS.__init__`: NaN voxels become 0 and set the flag. -/
noncomputable def vcsInit (cube : Arr3 (Option ℝ)) : Bool × Arr3 ℝ :=
  open Classical in
  (decide (∃ a < cube.n, ∃ i < cube.m, ∃ j < cube.p, cube.get a i j = none), fillNan3 0 cube)

/-- vcs.py:51-82 `VCS.compute_pspec`.  `np.nansum(ps3D, axis=(1,2)) / good_pixel_count`
(`ps3D` has no NaN here because the input was NaN-filled); with a count of 0 the quotient is NaN or infinite (`none`). -/
noncomputable def vcsComputePspec (cube : Arr3 (Option ℝ)) : Py (Arr1 (Option ℝ)) := do
  let (hasNan, data) := vcsInit cube
  let good := vcsGoodPixels hasNan data
  match ← rfftToFft (.d3 data) with
  | .d3 f =>
      let ps3D := f.map (fun x => x ^ 2)
      return ⟨ps3D.n, fun a =>
        divO (some (∑ i ∈ range ps3D.m, ∑ j ∈ range ps3D.p, ps3D.get a i j)) (some good)⟩
  | _ => .error .typeError

end TS
