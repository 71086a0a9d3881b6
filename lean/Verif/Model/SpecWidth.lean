import Verif.Model.Pca
import Verif.Model.BreakFit
import Mathlib.Data.List.Sort

/-! Spectral widths and spectral units: `find_spectral_widths`, `autocorr_spec` in turbustat/statistics/pca/pca.py,
`WidthEstimate1D` in pca/width_estimate.py, the spectral part of base_statistic.py (lines 318-370) and the cuts of
`VCS.fit_pspec` in vca_vcs/vcs.py. -/

namespace TS

/-! ### Units -/

/-- Physical kinds a spectral axis can have. -/
inductive SpecKind where
  | velocity
  | frequency
  | wavelength
  deriving DecidableEq

/-- A unit: channels, or a unit of some kind with its size in the SI unit of the kind. -/
inductive SpecUnit where
  | pix
  | axis (k : SpecKind) (size : ℝ)

/-- The spectral axis of the header: the diagonal entry of the pixel scale matrix, and its unit (kind and size).  The WCS library is
not modelled. -/
structure ChanAxis where
  cd : ℝ
  kind : SpecKind
  size : ℝ

/-- The header as the conversions see it: `none` = no header; `some none` = no spectral axis. -/
abbrev SpecHeader := Option (Option ChanAxis)

/-- base_statistic.py:75-87, 318-348 `_spectral_equiv` through `_has_spectral(raise_error=True)` and `_spectral_size`: channel width
(not negative) and the unit. -/
noncomputable def spectralSize : SpecHeader → Py (ℝ × SpecKind × ℝ)
  | none => .error .attributeError
  | some none => .error .valueError
  | some (some a) => .ok (|a.cd|, a.kind, a.size)

/-- base_statistic.py:350-355 `_to_spectral`: astropy converts directly between units of one kind, otherwise through the channel
width. -/
noncomputable def toSpectral (h : SpecHeader) (v : ℝ) (src dst : SpecUnit) : Py ℝ := do
  let s ← spectralSize h
  match src, dst with
  | .pix, .pix => return v
  | .axis k a, .axis k' b => if k = k' then return v * a / b else .error .unitConversionError
  | .pix, .axis k b => if k = s.2.1 then return v * s.1 * s.2.2 / b else .error .unitConversionError
  | .axis k a, .pix => if k = s.2.1 then return v * a / s.2.2 / s.1 else .error .unitConversionError

/-- base_statistic.py:357-370 `_spectral_freq_unit_conversion`: `v` per `src` into a number per `dst`. -/
noncomputable def toSpectralFreq (h : SpecHeader) (v : ℝ) (src dst : SpecUnit) : Py ℝ := do
  let p ← toSpectral h (1 / v) src dst
  return 1 / p

/-- pca.py:1305-1315 `_enforce_velocity_axis`. -/
noncomputable def enforceVelocity (h : SpecHeader) : Py Unit := do
  let s ← spectralSize h
  if s.2.1 = .velocity then return () else .error .warningRaised

/-- vcs.py:122-136 one cut in 1/pixel: absent, or a number per unit. -/
noncomputable def vcsCut (h : SpecHeader) : Option (ℝ × SpecUnit) → Py (Option ℝ)
  | none => .ok none
  | some (v, u) => do
    let c ← toSpectralFreq h v u .pix
    return some c

/-- vcs.py:122-147 the channels fitted with cuts in any unit. -/
noncomputable def vcsFittedUnits (h : SpecHeader) (n : ℕ) (low high : Option (ℝ × SpecUnit)) (maxFreq : ℝ) : Py (List ℕ) := do
  let lo ← vcsCut h low
  let hi ← vcsCut h high
  return vcsFitted n lo hi maxFreq

/-! ### Widths -/

/-- `scipy.signal.argrelmin(y)[0]`: entries smaller than both neighbours (the ends have none: mode 'clip'). -/
noncomputable def argrelmin (y : Arr1 ℝ) : List ℕ :=
  (List.range y.n).filter fun i => decide (0 < i ∧ i + 1 < y.n ∧ y.get i < y.get (i - 1) ∧ y.get i < y.get (i + 1))

/-- Linear interpolation in points sorted by abscissa; `none` outside their range. -/
noncomputable def interpSorted : List (ℝ × ℝ) → ℝ → Option ℝ
  | p :: q :: rest, v =>
    if p.1 ≤ v ∧ v ≤ q.1 then some (p.2 + (v - p.1) * ((q.2 - p.2) / (q.1 - p.1))) else interpSorted (q :: rest) v
  | _, _ => none

/-- `scipy.interpolate.interp1d(xs, ys)(v)`: the points are sorted by abscissa; `none` where it raises ValueError.  Equal abscissas at
the level itself are not modelled exactly. -/
noncomputable def interp1d (pts : List (ℝ × ℝ)) (v : ℝ) : Option ℝ :=
  interpSorted (pts.mergeSort fun a b => decide (a.1 ≤ b.1)) v

/-- width_estimate.py:315-325 method 'interpolate' for one curve: width and error (`none` = NaN).  Without a minimum `minima[0]` is an
IndexError; a minimum at lag 1 leaves the zeros of lines 311-312. -/
noncomputable def interpWidth (y : Arr1 ℝ) : Py (Option ℝ × Option ℝ) :=
  match argrelmin y with
  | [] => .error .indexError
  | m :: _ =>
    if 1 < m then .ok (interp1d ((List.range (m + 1)).map fun i => (y.get i, lagAxis y.n i)) (Real.exp (-1)), some 0)
    else .ok (some 0, some 0)

/-- width_estimate.py:326-353 method 'fit' for one curve.  `fit amplitude points` stands for astropy's fit of a Gaussian of that amplitude
and mean 0 started at 10: standard deviation and its error, `none` when no covariance is found. -/
noncomputable def fitWidth (fit : ℝ → List (ℝ × ℝ) → Option (ℝ × ℝ)) (y : Arr1 ℝ) : Py (Option ℝ × Option ℝ) :=
  match argrelmin y with
  | [] => .error .indexError
  | m :: _ =>
    let k := if 1 < m then m else y.n
    match fit (y.get 0) ((List.range k).map fun i => (|lagAxis y.n i|, y.get i)) with
    | none => .ok (none, none)
    | some (s, e) => .ok (some (|s| * Real.sqrt 2), some (e * Real.sqrt 2))

/-- width_estimate.py:354-371 method 'walk-down' for one curve: NaN for both when the level is not reached. -/
noncomputable def walkWidth (y : Arr1 ℝ) : Py (Option ℝ × Option ℝ) := do
  let r ← walkDown y
  return (r.map Prod.fst, r.map Prod.snd)

/-- The values of `method`. -/
inductive Width1D where
  | walkDown
  | interpolate
  | fit
  | other

/-- width_estimate.py:275-377 `WidthEstimate1D`. -/
noncomputable def widthEstimate1D (fit : ℝ → List (ℝ × ℝ) → Option (ℝ × ℝ)) (m : Width1D) (ys : List (Arr1 ℝ)) :
    Py (List (Option ℝ × Option ℝ)) :=
  ys.mapM fun y => match m with
    | .walkDown => walkWidth y
    | .interpolate => interpWidth y
    | .fit => fitWidth fit y
    | .other => .error .valueError

/-- pca.py:286-314 `autocorr_spec`: one curve per column of the eigenvectors.  Without a component `acors` is not set; one component is a
one-dimensional array, whose axes cannot be swapped. -/
noncomputable def autocorrSpec (n : ℕ) (eigvecs : ℕ → ℕ → ℝ) : ℕ → Py (List (Arr1 ℝ))
  | 0 => .error .unboundLocal
  | 1 => .error .indexError
  | k => .ok ((List.range k).map fun q => acorSpec n fun i => eigvecs i q)

/-- pca.py:420-441 `find_spectral_widths`: widths and errors in channels. -/
noncomputable def findSpectralWidths (fit : ℝ → List (ℝ × ℝ) → Option (ℝ × ℝ)) (n : ℕ) (eigvecs : ℕ → ℕ → ℝ) (k : ℕ) (m : Width1D) :
    Py (List (Option ℝ × Option ℝ)) := do
  let a ← autocorrSpec n eigvecs k
  widthEstimate1D fit m a

/-- pca.py:443-470 `spectral_width(unit)` / `spectral_width_error(unit)` for widths in channels. -/
noncomputable def spectralWidth (h : SpecHeader) (ws : List (Option ℝ)) (u : SpecUnit) : Py (List (Option ℝ)) :=
  ws.mapM fun w => match w with
    | none => (toSpectral h 0 .pix u).map fun _ => none
    | some v => (toSpectral h v .pix u).map some

end TS
