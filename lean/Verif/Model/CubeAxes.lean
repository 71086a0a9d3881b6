import Verif.Model.PSpec
import Verif.Model.Regrid
import Verif.Model.Scf

/-!
`VCA.__init__` with a channel width (vca_vcs/vca.py), and what the cube statistics do with the array that the `data` setter of
base_statistic.py stores: the setter squeezes it, so a cube with an axis of length one arrives as an image.
-/

namespace TS
open Finset

/-- base_statistic.py:93-102 `self._data = values.squeeze()` for a cube. -/
def squeeze3 {α : Type} (a : Arr3 α) : NdArr α :=
  if a.n = 1 then
    if a.m = 1 then .other (if a.p = 1 then 0 else 1)
    else if a.p = 1 then .other 1
    else .d2 ⟨a.m, a.p, fun i j => a.get 0 i j⟩
  else if a.m = 1 then
    if a.p = 1 then .other 1 else .d2 ⟨a.n, a.p, fun c j => a.get c 0 j⟩
  else if a.p = 1 then .d2 ⟨a.n, a.m, fun c i => a.get c i 0⟩
  else .d3 a

/-- base_statistic.py:93-102 `self._data = values.squeeze()` for an image. -/
def squeeze2 {α : Type} (a : Arr2 α) : NdArr α :=
  if a.n = 1 then .other (if a.m = 1 then 0 else 1)
  else if a.m = 1 then .other 1
  else .d2 a

/-- vca.py:62-65 `self.data[np.isnan(self.data)] = 0.0`. -/
noncomputable def fillNd : NdArr (Option ℝ) → NdArr ℝ
  | .d2 a => .d2 (fillNan 0 a)
  | .d3 a => .d3 (fillNan3 0 a)
  | .other k => .other k

/-- slice_thickness.py:117 `cube.downsample_axis(channel_width, axis=0)` on the whole cube.  A factor below one is refused by
spectral-cube; the exception, external, is written as ValueError. -/
noncomputable def downsampleCube (est : List (Option ℝ) → Option ℝ) (a : Arr3 (Option ℝ)) (f : ℤ) : Py (Arr3 (Option ℝ)) :=
  if f < 1 then .error .valueError
  else .ok ⟨(a.n + f.toNat - 1) / f.toNat, a.m, a.p,
    fun k i j => downsampleSpectrum est a.n (fun c => a.get c i j) f.toNat k⟩

/-- The keyword arguments of `spectral_regrid_cube`. -/
structure RegridKw where
  method : RegridMethod
  est : List (Option ℝ) → Option ℝ

/-- vca.py:52-59 the channel width.  `smooth` is spectral-cube's smoothing and interpolation onto a new axis (not modelled).  Reading
an array that is not a cube (`to_spectral_cube`, input_base.py:97-107) raises in spectral-cube; written as ValueError. -/
noncomputable def vcaRegrid (smooth : Arr1 ℝ → Arr3 (Option ℝ) → Arr3 (Option ℝ)) (ax : SpecAxis) (kw : RegridKw) (w : WidthArg)
    (d : NdArr (Option ℝ)) : Py (NdArr (Option ℝ)) :=
  match d with
  | .d3 a => do
    match ← spectralRegrid true ax w kw.method with
    | .same => return squeeze3 a
    | .factor k => return squeeze3 (← downsampleCube kw.est a k)
    | .axis x => return squeeze3 (smooth x a)
  | _ => .error .valueError

/-- vca.py:46-65 `VCA.__init__`: the data the object holds. -/
noncomputable def vcaNew (smooth : Arr1 ℝ → Arr3 (Option ℝ) → Arr3 (Option ℝ)) (ax : SpecAxis) (kw : RegridKw)
    (cube : Arr3 (Option ℝ)) (width : Option WidthArg) : Py (NdArr ℝ) := do
  let d ← match width with
    | none => .ok (squeeze3 cube)
    | some w => vcaRegrid smooth ax kw w (squeeze3 cube)
  return fillNd d

/-- `VCA._ps2D`: two axes for a cube, one for an image. -/
inductive VcaPs where
  | two (ps : Arr2 ℝ)
  | one (ps : Arr1 ℝ)

/-- vca.py:103-118 `VCA.compute_pspec` on the array the object holds: `sum(axis=0)` drops the first axis, whatever it is. -/
noncomputable def vcaPspecNd : NdArr ℝ → Py VcaPs
  | .d3 a => (vcaComputePspec a none).map .two
  | .d2 a => do
    match ← rfftToFft (.d2 a) with
    | .d2 f =>
      let sq := f.fftshift.map (fun x => x ^ 2)
      return .one ⟨sq.m, fun j => ∑ i ∈ range sq.n, sq.get i j⟩
    | _ => .error .typeError
  | .other _ => .error .typeError

/-- pspec.py:44-113 `PowerSpectrum` on the array the object holds, without weights and window.  An
image never arrives with three axes. -/
noncomputable def pspecNd : NdArr (Option ℝ) → Py (Arr2 ℝ)
  | .d2 a => computePspec (fillNan 0 a) none
  | _ => .error .typeError

/-- base_pspec2.py:96-97 and psds.py:61: `make_radial_arrays(psd2.shape)` reads `shape[1]`, so one axis is an IndexError. -/
def vcaRadialInput : VcaPs → Py (Arr2 ℝ)
  | .two ps => .ok (ps2DProperty ps)
  | .one _ => .error .indexError

/-- vcs.py:33-82 `VCS` on the array the object holds.  For an image `self.data.shape[2]` (line 72) and, with NaNs,
`np.nansum(..., axis=(1, 2))` (line 82) raise IndexError.  Fewer axes raise IndexError or TypeError; written as TypeError. -/
noncomputable def vcsPspecNd : NdArr (Option ℝ) → Py (Arr1 (Option ℝ))
  | .d3 a => vcsComputePspec a
  | .d2 a => if a.n = 0 ∨ a.m = 0 then .error .valueError else .error .indexError
  | .other _ => .error .typeError

/-- scf.py:165-233 `compute_surface` on the array the object holds: the shift along the third axis, the shape of the third axis or
the three slices (lines 200, 214-218, 227) raise IndexError for an image. -/
noncomputable def scfSurfaceNd (boundary : String) (lags : Arr1 ℝ) : NdArr (Option ℝ) → Py (Arr2 (Option ℝ))
  | .d3 a => scfSurface boundary a lags
  | _ => if boundary ≠ "continuous" ∧ boundary ≠ "cut" then .error .valueError
    else if lags.n = 0 then .ok ⟨0, 0, fun _ _ => none⟩
    else .error .indexError

end TS
