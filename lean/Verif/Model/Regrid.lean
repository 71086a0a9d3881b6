import Verif.Np.Core
import Verif.Np.Nan
import Verif.Np.Ranges
import Mathlib.Algebra.Order.Floor.Ring
import Mathlib.Data.Real.Archimedean

/-!
Model of `turbustat/statistics/vca_vcs/slice_thickness.py`: `spectral_regrid_cube`.

The cube's spectral axis is evenly spaced (what spectral-cube builds from a linear WCS).  spectral-cube's `downsample_axis` is
modelled by what it documents: averages over consecutive runs of channels with `numpy.nanmean`, the last run shorter when the
factor does not divide.  The Gaussian smoothing and the interpolation onto the new axis (142-172) are not modelled; the new axis
is.
-/

namespace TS

/-- A spectral axis `s0, s0 + d, …` of `n` channels in a unit of `unit` base units (m/s, say). -/
structure SpecAxis where
  n : ℕ
  s0 : ℝ
  d : ℝ
  unit : ℝ

/-- The value of channel `k`. -/
def SpecAxis.get (ax : SpecAxis) (k : ℕ) : ℝ := ax.s0 + k * ax.d

/-- The channels as a list. -/
def SpecAxis.toList (ax : SpecAxis) : List ℝ := (List.range ax.n).map ax.get

/-- What can be given as `channel_width`. -/
inductive WidthArg where
  | int (k : ℤ)
  | pix (x : ℝ)
  | spec (x unit : ℝ)
  | otherUnit
  | other

/-- `method`. -/
inductive RegridMethod where
  | downsample
  | regrid
  | unknown

/-- slice_thickness.py:107, 131 `np.diff(cube.spectral_axis[:2])[0]`: an IndexError for a single channel. -/
noncomputable def chanStep (ax : SpecAxis) : Py ℝ := if ax.n < 2 then .error .indexError else .ok (ax.get 1 - ax.get 0)

/-- slice_thickness.py:95-115 the downsampling factor.  `np.ceil` of a ratio of quantities keeps its unit and `.value` drops
it. -/
noncomputable def downsampleFactor (ax : SpecAxis) : WidthArg → Py ℤ
  | .int k => .ok k
  | .pix x => do
    let _ ← chanStep ax
    return ⌈x⌉
  | .spec x _ => do
    let w ← chanStep ax
    return ⌈x / |w|⌉
  | .otherUnit => do
    let _ ← chanStep ax
    .error .unitsError
  | .other => .error .typeError

/-- slice_thickness.py:117 `cube.downsample_axis(channel_width, axis=0)` for one line of sight of `n` channels: block averages; the
caller's `downsamp_function` `est` is not passed on. -/
noncomputable def downsampleSpectrum (_est : List (Option ℝ) → Option ℝ) (n : ℕ) (x : ℕ → Option ℝ) (f : ℕ) (k : ℕ) : Option ℝ :=
  nanmean (((List.range f).filter (fun j => decide (k * f + j < n))).map (fun j => x (k * f + j)))

/-- slice_thickness.py:129-140 `diff_factor`, the ratio of the requested to the present channel width. -/
noncomputable def diffFactor (ax : SpecAxis) : WidthArg → Py ℝ
  | .int _ => .error .typeError
  | .other => .error .typeError
  | .otherUnit => do
    let _ ← chanStep ax
    .error .unitConversionError
  | .pix x => do
    let w ← chanStep ax
    return |x * w / w|
  | .spec x u => do
    let w ← chanStep ax
    return |x * u / ax.unit / w|

/-- slice_thickness.py:161-169 the new spectral axis. -/
noncomputable def regridAxis (ax : SpecAxis) (f : ℝ) : Arr1 ℝ :=
  let num := ⌊(ax.n : ℝ) / f⌋₊
  let lo := (minO ax.toList).getD 0
  let hi := (maxO ax.toList).getD 0
  let a : Arr1 ℝ := linspace lo hi num
  if ax.get 1 - ax.get 0 < 0 then ⟨num, fun k => a.get (num - 1 - k)⟩ else a

/-- What the regridding does: the same cube, a downsampling factor, or a new axis. -/
inductive RegridResult where
  | same
  | factor (k : ℤ)
  | axis (a : Arr1 ℝ)

/-- slice_thickness.py:140-172 the 'regrid' method. -/
noncomputable def regridBy (ax : SpecAxis) (w : WidthArg) : Py RegridResult := do
  let f ← diffFactor ax w
  if f = 1 then return .same
  else if f < 1 then throw .valueError
  else return .axis (regridAxis ax f)

/-- slice_thickness.py:21-172 `spectral_regrid_cube`; `isCube` = the argument is a spectral cube. -/
noncomputable def spectralRegrid (isCube : Bool) (ax : SpecAxis) (w : WidthArg) (m : RegridMethod) : Py RegridResult :=
  if isCube = false then .error .typeError
  else match m with
    | .unknown => .error .valueError
    | .downsample => do
      let k ← downsampleFactor ax w
      return .factor k
    | .regrid => regridBy ax w

end TS
