import Verif.Model.BaseStat
import Mathlib.Analysis.SpecialFunctions.Sqrt

/-!
Model of the coordinate part of `turbustat/statistics/base_statistic.py` (75-87 `_wcs`, 180-195 `_ang_size`, 227-263, 278-306,
318-342): from the coordinate matrix of the header to the size of a pixel and the width of a channel.

Of astropy is written down what the code calls: `is_proj_plane_distorted` with its default tolerance 1e-5, `celestial`,
`proj_plane_pixel_scales` and `pixel_scale_matrix`.  World coordinates on the sky are in degrees: `WCS(header)` converts.
-/

namespace TS

/-- The kind of a world axis. -/
inductive AxKind where
  | lon
  | lat
  | spec
  | other
  deriving DecidableEq

/-- Whether the unit of the axis is an angle. -/
def AxKind.sky : AxKind → Bool
  | .lon => true
  | .lat => true
  | _ => false

/-- `WCS(header)`: the kinds of the axes, `pixel_scale_matrix` (world axis, pixel axis) and whether there is a distortion
table. -/
structure Wcs where
  axes : List AxKind
  cd : ℕ → ℕ → ℝ
  table : Bool

/-- astropy.wcs.utils `_is_cd_orthogonal` of the matrix with rows (a, b) and (c, d). -/
noncomputable def cdOrthogonal (a b c d tol : ℝ) : Py Bool :=
  let area := |a * d - b * c|
  if area = 0 then .error .valueError
  else .ok (decide (max (max |(a * a + b * b) / area - 1| |(a * c + b * d) / area|) |(c * c + d * d) / area - 1| < tol))

/-- `wcs.celestial`: the world axes of the sky; raises when another axis is coupled to them.  Without two such axes the maximum of
an empty matrix is asked for (ValueError). -/
noncomputable def celestial (w : Wcs) : Py (ℕ × ℕ) :=
  let i := w.axes.idxOf .lon
  let j := w.axes.idxOf .lat
  if i < w.axes.length ∧ j < w.axes.length then
    if ∀ k < w.axes.length, k ≠ i → k ≠ j → w.cd i k = 0 ∧ w.cd j k = 0 ∧ w.cd k i = 0 ∧ w.cd k j = 0 then .ok (i, j)
    else .error .wcsError
  else .error .valueError

/-- astropy.wcs.utils `is_proj_plane_distorted`. -/
noncomputable def projDistorted (w : Wcs) : Py Bool := do
  let c ← celestial w
  let orth ← cdOrthogonal (w.cd c.1 c.1) (w.cd c.1 c.2) (w.cd c.2 c.1) (w.cd c.2 c.2) (1 / 100000)
  return !orth || w.table

/-- base_statistic.py:75-87 `_wcs`; `none` = no header. -/
noncomputable def wcsOf : Option Wcs → Py Wcs
  | none => .error .attributeError
  | some w => do
    let d ← projDistorted w
    if d then .error .valueError else return w

/-- astropy.wcs.utils `proj_plane_pixel_scales(wcs)[k]`. -/
noncomputable def pixelScale (w : Wcs) (k : ℕ) : ℝ :=
  Real.sqrt (((List.range w.axes.length).map fun i : ℕ => w.cd i k ^ 2).sum)

/-- base_statistic.py:188-195 `_ang_size`: scale of the first pixel axis, and the kind of the second world axis, whose unit it is
given. -/
noncomputable def angSizeW (h : Option Wcs) : Py (ℝ × AxKind) := do
  let w ← wcsOf h
  match w.axes[1]? with
  | none => .error .indexError
  | some k => return (|pixelScale w 0|, k)

/-- base_statistic.py:180-186 `_angular_equiv`, which uses only the value of `_ang_size`. -/
noncomputable def angularEquiv (h : Option Wcs) (dist : Option (ℝ × ℝ)) : Py Spatial := do
  let a ← angSizeW h
  return ⟨some (a.1, 1), dist⟩

/-- base_statistic.py:227-243 `_physical_size` and `_physical_equiv`: angular size times distance can only be converted to a length
when the unit of the second axis is an angle. -/
noncomputable def physicalEquiv (h : Option Wcs) (dist : Option (ℝ × ℝ)) : Py Spatial :=
  match dist with
  | none => .error .attributeError
  | some d => do
    let a ← angSizeW h
    if a.2.sky then return ⟨some (a.1, 1), some d⟩ else .error .unitConversionError

/-- base_statistic.py:245-263 `_to_pixel` from the header. -/
noncomputable def toPixelW (h : Option Wcs) (dist : Option (ℝ × ℝ)) (q : SQ) : Py ℝ :=
  match q.unit with
  | .pix => .ok q.val
  | .angle _ => do
    let s ← angularEquiv h dist
    toPixel s q
  | .length _ => do
    let s ← physicalEquiv h dist
    toPixel s q
  | .other => .error .unitConversionError

/-- base_statistic.py:278-306 `_spatial_unit_conversion` from the header. -/
noncomputable def fromPixelW (h : Option Wcs) (dist : Option (ℝ × ℝ)) (p : ℝ) (unit : SUnit) : Py SQ :=
  match unit with
  | .pix => .ok ⟨p, .pix⟩
  | .angle _ => do
    let s ← angularEquiv h dist
    fromPixel s p unit
  | .length _ => do
    let s ← physicalEquiv h dist
    fromPixel s p unit
  | .other => .error .unitConversionError

/-- base_statistic.py:318-331 `_has_spectral(raise_error)`. -/
noncomputable def hasSpectral (h : Option Wcs) (raiseError : Bool) : Py Bool := do
  let w ← wcsOf h
  if .spec ∈ w.axes then return true
  else if raiseError then .error .valueError else return false

/-- base_statistic.py:333-342 `_spectral_size`: the entry of the matrix for the spectral axis (its unit is the unit of that axis). -/
noncomputable def spectralSizeW (h : Option Wcs) : Py ℝ := do
  let _ ← hasSpectral h true
  let w ← wcsOf h
  return |w.cd (w.axes.idxOf .spec) (w.axes.idxOf .spec)|

end TS
