import Verif.Model.Pca
import Verif.Model.Pdf
import Verif.Model.PlawFit
import Verif.Model.BaseStat
import Mathlib.Analysis.SpecialFunctions.Pow.Real

/-!
Model of the size-linewidth part of `turbustat/statistics/pca/pca.py` (`fit_plaw`, `sonic_length`) and of
the beam correction in `turbustat/statistics/pca/width_estimate.py`.

`scipy.odr` is external: a parameter `odr` from points to parameters and errors, with the contract
`Spec.OdrFit` in `Spec/Odr.lean`.  MCMC samples (`bayes_linear`) are parameters.
-/

namespace TS

/-! ### Spatial widths -/

/-- The widths along the two axes of one autocorrelation image, with errors. -/
structure AxisWidths where
  y : ℝ
  x : ℝ
  ey : ℝ
  ex : ℝ

/-- width_estimate.py:233-234 `pix_per_beam`, beam and pixel in degrees (the pixel size in absolute
value, line 225). -/
noncomputable def pixPerBeam (fwhm cdelt : ℝ) : ℝ :=
  fwhm / |cdelt| / Real.sqrt (8 * Real.log 2) / Real.sqrt 2

/-- width_estimate.py:245-253 `term2` for `kappa = 1`. -/
noncomputable def beamTerm (fwhm cdelt : ℝ) : ℝ := 3 / ((1 + 2) * (1 + 3)) * pixPerBeam fwhm cdelt

/-- width_estimate.py:251-263 the beam correction for `kappa = 1`: powers of 1 are the numbers
themselves and powers of 0 are 1, so the errors stay. -/
def widthCorrect (t : ℝ) (w : AxisWidths) : AxisWidths := ⟨w.y - t, w.x - t, w.ey, w.ex⟩

/-- width_estimate.py:265-270 width and error of one image. -/
noncomputable def widthOf (w : AxisWidths) : ℝ × Option ℝ :=
  let s := Real.sqrt (w.y ^ 2 + w.x ^ 2)
  (s, divO (some (Real.sqrt ((w.x * w.ex) ^ 2 + (w.y * w.ey) ^ 2))) (some s))

/-- A quantity in degrees; not an angle is a UnitConversionError (width_estimate.py:218-228). -/
def toDeg (q : SQ) : Py ℝ :=
  match q.unit with
  | .angle deg => .ok (q.val * deg)
  | _ => .error .unitConversionError

/-- width_estimate.py:212-272 the end of `WidthEstimate2D`, from the axis widths (`none`: the contour
method found no contour, all four are NaN). -/
noncomputable def finishWidths (brunt : Bool) (beam cdelt : Option SQ) (ws : List (Option AxisWidths)) :
    Py (List (Option ℝ × Option ℝ)) :=
  let out := fun (f : AxisWidths → AxisWidths) => ws.map (fun w => match w with
    | some w => (some (widthOf (f w)).1, (widthOf (f w)).2)
    | none => (none, none))
  if brunt then
    match beam, cdelt with
    | some b, some c => do
      let b ← toDeg b
      let c ← toDeg c
      return out (widthCorrect (beamTerm b c))
    | _, _ => .error .valueError
  else .ok (out id)

/-! ### The fit -/

/-- Widths of one component: spatial and spectral with their errors, `none` = NaN. -/
structure WidthPt where
  x : Option ℝ
  ex : Option ℝ
  y : Option ℝ
  ey : Option ℝ

/-- A limit given to `fit_plaw`. -/
inductive WLim where
  | absent
  | quantity (q : SQ)
  | other

/-- `a <= b` for two results of `np.log10` (`inf` stands for minus infinity). -/
noncomputable def leLog : FVal → FVal → Bool
  | .nan, _ => false
  | _, .nan => false
  | .inf, _ => true
  | .fin _, .inf => false
  | .fin a, .fin b => decide (a ≤ b)

/-- pca.py:514-541 one limit in pixels. -/
noncomputable def limPix (s : Spatial) : WLim → Py (Option ℝ)
  | .absent => .ok none
  | .quantity q => do
    let v ← toPixel s q
    return some v
  | .other => .error .typeError

/-- pca.py:511-543 whether a width is within the limits, compared in logarithms. -/
noncomputable def inLimits (lo hi : Option ℝ) (w : Option ℝ) : Bool :=
  (match lo with
    | some l => leLog (log10F (some l)) (log10F w)
    | none => true) &&
  (match hi with
    | some h => leLog (log10F w) (log10F (some h))
    | none => true)

/-- pca.py:550-553 all four numbers of a component are finite. -/
def widthFinite (p : WidthPt) : Bool := p.y.isSome && p.x.isSome && p.ex.isSome && p.ey.isSome

/-- `0.434 * error / width` (pca.py:568-571). -/
noncomputable def relErr (e w : ℝ) : FVal :=
  if w = 0 then (if e = 0 then .nan else .inf) else .fin (0.434 * e / w)

/-- One point handed to the orthogonal regression. -/
structure OdrIn where
  x : FVal
  y : FVal
  sx : FVal
  sy : FVal

/-- pca.py:565-571 the point of one component (all four numbers finite). -/
noncomputable def odrPoint (p : WidthPt) : OdrIn :=
  ⟨log10F p.x, log10F p.y, relErr (p.ex.getD 0) (p.x.getD 0), relErr (p.ey.getD 0) (p.y.getD 0)⟩

/-- One point of `odr.Data`, with the weights of `x` and `y`. -/
structure OdrData where
  x : FVal
  y : FVal
  wd : FVal
  we : FVal

/-- `np.power(e, -2)`. -/
noncomputable def invSq : FVal → FVal
  | .fin v => if v = 0 then .inf else .fin ((v ^ 2)⁻¹)
  | .inf => .fin 0
  | .nan => .nan

/-- fitting_utils.py:13-107 `leastsq_linear`, returning `(slope, intercept)` and their errors.  The regression of `scipy.odr` with its
starting point from `linregress` (line 52) is the parameter `run`; plots are not modelled. -/
noncomputable def leastsqLinear (run : List OdrData → Py ((ℝ × ℝ) × (ℝ × ℝ))) (pts : List OdrIn) : Py ((ℝ × ℝ) × (ℝ × ℝ)) :=
  run (pts.map fun p => ⟨p.x, p.y, invSq p.sx, invSq p.sy⟩)

/-- What `fit_plaw` stores. -/
structure PcaFit where
  index : ℝ
  indexRange : ℝ × ℝ
  intercept : ℝ
  interceptRange : ℝ × ℝ

/-- pca.py:576-590 parameters `(slope, intercept)` and errors of the regression to the attributes. -/
noncomputable def storeFit (r : (ℝ × ℝ) × (ℝ × ℝ)) : PcaFit :=
  ⟨r.1.1, (r.1.1 - r.2.1, r.1.1 + r.2.1), (10 : ℝ) ^ r.1.2,
    ((10 : ℝ) ^ (r.1.2 - r.2.2), (10 : ℝ) ^ (r.1.2 + r.2.2))⟩

/-- pca.py:543-590 selection of the points and the fit, limits in pixels. -/
noncomputable def fitWidths (odr : List OdrIn → Py ((ℝ × ℝ) × (ℝ × ℝ))) (lo hi : Option ℝ)
    (ws : List WidthPt) : Py PcaFit :=
  if ws.any (fun p => inLimits lo hi p.x) then
    let kept := ws.filter (fun p => inLimits lo hi p.x && widthFinite p)
    if kept.length < 2 then .error .warningRaised
    else do
      let r ← odr (kept.map odrPoint)
      return storeFit r
  else .error .valueError

/-- pca.py:472-590 `fit_plaw(xlow, xhigh, fit_method='odr')`. -/
noncomputable def fitPlaw (odr : List OdrIn → Py ((ℝ × ℝ) × (ℝ × ℝ))) (s : Spatial) (xlow xhigh : WLim)
    (ws : List WidthPt) : Py PcaFit := do
  let lo ← limPix s xlow
  let hi ← limPix s xhigh
  fitWidths odr lo hi ws

/-! ### Sonic length -/

/-- pca.py:694-697 the sound speed in channels: `sqrt(k_B T / (mu m_p))` divided by the channel width. -/
noncomputable def soundSpeed (kB T mu mp chan : ℝ) : ℝ := Real.sqrt (kB * T / (mu * mp)) / chan

/-- pca.py:699-704 the index used by `sonic_length` and its range. -/
noncomputable def sonicIndex (useGamma : Bool) (f : PcaFit) : ℝ × (ℝ × ℝ) :=
  if useGamma then (bruntCorrect f.index, bruntRange f.indexRange.1 f.indexRange.2)
  else (f.index, f.indexRange)

/-- pca.py:706 `lambd` in pixels (index 0 is a division by zero, not modelled). -/
noncomputable def sonicLength (useGamma : Bool) (cs : ℝ) (f : PcaFit) : ℝ :=
  (cs / f.intercept) ^ (1 / (sonicIndex useGamma f).1)

/-- pca.py:708-719 `lambd_error` after an orthogonal regression. -/
noncomputable def sonicError (useGamma : Bool) (cs : ℝ) (f : PcaFit) : ℝ :=
  let ix := sonicIndex useGamma f
  let indexErr := |ix.1 - ix.2.1|
  let interceptErr := 0.434 * |f.intercept - f.interceptRange.1| / f.intercept
  let term1 := log10 (cs / f.intercept) * (indexErr / ix.1)
  let term2 := interceptErr / f.intercept
  sonicLength useGamma cs f / ix.1 * Real.sqrt (term1 ^ 2 + term2 ^ 2)

/-- pca.py:722-735 the range after MCMC: `samps` are the sampled `(slope, intercept)`.  The slopes are
corrected but not used (line 733 has `1. / index`). -/
noncomputable def sonicRangeBayes (useGamma : Bool) (cs : ℝ) (f : PcaFit) (samps : List (ℝ × ℝ)) : ℝ × ℝ :=
  let all := samps.map (fun s => (cs / (10 : ℝ) ^ s.2) ^ (1 / (sonicIndex useGamma f).1))
  (npPercentile all 15, npPercentile all 85)

end TS
