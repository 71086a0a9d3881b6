import Verif.Model.Psds
import Verif.Model.PSpec
import Verif.Model.FittingUtils

/-! Model of the straight-line (power-law) fits shared by the statistics:
`base_pspec2.py` `fit_pspec` (PowerSpectrum, VCA, MVC), `scf/scf.py` `fit_plaw`,
`delta_variance/delta_variance.py` `fit_plaw`, `wavelets/wavelet_transform.py` `fit_transform`.

The regression itself (`statsmodels` OLS/WLS) is external.  It is a parameter `lsq` from the
list of points `(x, y, weight)` to `(intercept, slope)`; its contract, `Spec.LeastSquares`
in `Spec/Lsq.lean`, is that it minimises the weighted sum of squared residuals. -/

namespace TS

/-- One entry of a float array that goes into a fit: a finite number, an infinity of either sign,
or NaN. -/
inductive FVal where
  | fin (v : ℝ)
  | inf
  | nan

/-- NaN test. -/
def FVal.isNan : FVal → Bool
  | .nan => true
  | _ => false

/-- Infinity test. -/
def FVal.isInf : FVal → Bool
  | .inf => true
  | _ => false

/-- The number held by a finite entry. -/
def FVal.val : FVal → ℝ
  | .fin v => v
  | _ => 0

/-- `np.log10` on one entry (`none` = NaN): NaN for negative numbers, -infinity for 0. -/
noncomputable def log10F : Option ℝ → FVal
  | none => .nan
  | some v => if v < 0 then .nan else if v = 0 then .inf else .fin (log10 v)

/-- `x ** -2` on one entry. -/
noncomputable def invSqF : Option ℝ → FVal
  | none => .nan
  | some v => if v = 0 then .inf else .fin (1 / v ^ 2)

/-- One point handed to the regression. -/
structure FitPt where
  x : FVal
  y : FVal
  w : FVal

/-- statsmodels `missing='drop'`: points with a NaN abscissa, ordinate or weight are removed. -/
def dropMissing (pts : List FitPt) : List FitPt :=
  pts.filter (fun p => !(p.x.isNan || p.y.isNan || p.w.isNan))

/-- `sm.OLS(y, sm.add_constant(x), missing='drop').fit().params` (weights 1) and the WLS variant,
e.g. base_pspec2.py:282-292, scf.py:344-356, delta_variance.py:408-425.  No point left, or an
infinite abscissa, makes statsmodels raise (ValueError); an infinite ordinate or weight makes the
parameters NaN (`none`). -/
noncomputable def lineFit (lsq : List (ℝ × ℝ × ℝ) → ℝ × ℝ) (pts : List FitPt) :
    Py (Option (ℝ × ℝ)) :=
  let kept := dropMissing pts
  if kept.length = 0 then .error .valueError
  else if kept.any (fun p => p.x.isInf) then .error .valueError
  else if kept.any (fun p => p.y.isInf || p.w.isInf) then .ok none
  else .ok (some (lsq (kept.map (fun p => (p.x.val, p.y.val, p.w.val)))))

/-! ### Power spectra -/

/-- One bin of the radial profile: frequency (1/pixel), power and its standard deviation. -/
structure PsBin where
  freq : ℝ
  power : Option ℝ
  std : Option ℝ

/-- base_pspec2.py:188-193 default lower frequency limit. -/
noncomputable def lowCutFor (low : Option ℝ) (n m : ℕ) : ℝ :=
  match low with
  | none => 1 / (0.5 * ((max n m : ℕ) : ℝ))
  | some l => l

/-- base_pspec2.py:195-198 default upper frequency limit: the largest bin. -/
noncomputable def highCutFor (high : Option ℝ) (freqs : List ℝ) : Py ℝ :=
  match high with
  | none => npMax freqs
  | some h => .ok h

/-- base_pspec2.py:208-224 weight of one bin: `1 / (0.434 * std / power) ** 2`, NaN when the
standard deviation is 0 or NaN. -/
noncomputable def psWeight (weighted : Bool) (b : PsBin) : FVal :=
  if weighted then
    match b.std, b.power with
    | some s, some p => if s = 0 then .nan else if p = 0 then .fin 0 else invSqF (some (0.434 * s / p))
    | _, _ => .nan
  else .fin 1

/-- base_pspec2.py:200-206 the points fitted: bins inside `(low, high]`, in log-log. -/
noncomputable def psPoints (weighted : Bool) (low high : ℝ) (bins : List PsBin) : List FitPt :=
  (bins.filter (fun b => clipFunc low high (some b.freq))).map
    (fun b => ⟨log10F (some b.freq), log10F b.power, psWeight weighted b⟩)

/-- base_pspec2.py:186-206,282-292 `fit_pspec(fit_unbinned=False, brk=None)`: intercept and slope
of the fitted line.  `n`, `m` are the shape of the 2D spectrum; the limits are already in
1/pixel (the conversion is `toPixelFreq`). -/
noncomputable def fitPspecLine (lsq : List (ℝ × ℝ × ℝ) → ℝ × ℝ) (weighted : Bool)
    (low high : Option ℝ) (n m : ℕ) (bins : List PsBin) : Py (Option (ℝ × ℝ)) := do
  let hi ← highCutFor high (bins.map (·.freq))
  lineFit lsq (psPoints weighted (lowCutFor low n m) hi bins)

/-- base_pspec2.py:158-184 points of the unbinned fit: every pixel of the public `ps2D` with its
spatial frequency, row by row. -/
noncomputable def unbinnedBins (ps2D : Arr2 (Option ℝ)) : List PsBin :=
  let g := makeRadialFreqArrays ps2D.n ps2D.m
  let f := hypotArr g.1 g.2
  (List.range ps2D.n).flatMap (fun i => (List.range ps2D.m).map (fun j =>
    ⟨f.get i j, ps2D.get i j, none⟩))

/-- base_pspec2.py:158-184,208-211,282-292 `fit_pspec(fit_unbinned=True, brk=None)`; weights are
refused. -/
noncomputable def fitPspecUnbinned (lsq : List (ℝ × ℝ × ℝ) → ℝ × ℝ) (weighted : Bool)
    (low high : Option ℝ) (ps2D : Arr2 (Option ℝ)) : Py (Option (ℝ × ℝ)) := do
  let bins := unbinnedBins ps2D
  let hi ← highCutFor high (bins.map (·.freq))
  if weighted then .error .notImplemented
  else lineFit lsq (psPoints false (lowCutFor low ps2D.n ps2D.m) hi bins)

/-- base_pspec2.py:77-107 `compute_radial_pspec`: the profile as a list of bins.  The standard
deviations, which only weighted fits use, are left out here; with them it is `radialBinsStd` in `Model/PsdsStd.lean`. -/
noncomputable def radialBins (ps2D : Arr2 (Option ℝ)) (a : PspecArgs) : Py (List PsBin) := do
  let out ← pspecFn ps2D { a with returnStddev := true }
  return (List.range out.binCents.n).map (fun k => ⟨out.binCents.get k, out.ps1D.get k, none⟩)

/-- pspec.py:121-216 `PowerSpectrum.run` with `weighted_fit=False`, `brk=None` and no beam
correction: `compute_pspec`, `compute_radial_pspec`, `fit_pspec`. -/
noncomputable def powerSpectrumRun (lsq : List (ℝ × ℝ × ℝ) → ℝ × ℝ) (apod : Option ApodArgs)
    (a : PspecArgs) (unbinned : Bool) (low high : Option ℝ) (img : Arr2 ℝ) :
    Py (Option (ℝ × ℝ)) := do
  let ps ← computePspec img apod
  let ps2D := (ps2DProperty ps).map some
  let bins ← radialBins ps2D a
  if unbinned then fitPspecUnbinned lsq false low high ps2D
  else fitPspecLine lsq false low high ps2D.n ps2D.m bins

/-! ### Curves as a function of lag -/

/-- One point of a lag curve: the lag as stored (in the user's unit), the value and its error. -/
structure LagPt where
  lag : ℝ
  value : Option ℝ
  err : Option ℝ

/-- The comparison `x >= np.log10(xlow)` on one entry (comparisons with NaN are False; -infinity is
below everything finite).  `x` is `log10` of the lag. -/
noncomputable def atLeastLog (lag limit : ℝ) : Bool :=
  match log10F (some lag), log10F (some limit) with
  | .fin x, .fin l => decide (l ≤ x)
  | .fin _, .inf => true
  | .inf, .inf => true
  | _, _ => false

/-- The comparison `x <= np.log10(xhigh)` on one entry. -/
noncomputable def atMostLog (lag limit : ℝ) : Bool :=
  match log10F (some lag), log10F (some limit) with
  | .fin x, .fin l => decide (x ≤ l)
  | .inf, .fin _ => true
  | .inf, .inf => true
  | _, _ => false

/-- scf.py:306-342, delta_variance.py:320-345, wavelet_transform.py:267-290: selection of the lags
inside the limits (`none` = limit not given).  `scale` multiplies the stored lag before it is
compared and fitted. -/
noncomputable def lagSelect (scale : ℝ) (xlow xhigh : Option ℝ) (pts : List LagPt) : List LagPt :=
  pts.filter (fun p =>
    (match xlow with | none => true | some l => atLeastLog (p.lag * scale) l) &&
    (match xhigh with | none => true | some h => atMostLog (p.lag * scale) h))

/-- How the weights of a lag fit are made. -/
inductive LagWeights where
  /-- `OLS` (wavelet_transform.py:359-360 with `weighted_fit=False`). -/
  | none
  /-- `err ** -2` (scf.py:350, delta_variance.py:345). -/
  | invSqErr
  /-- `(0.434 * err / value) ** -2`, zero errors being NaN (wavelet_transform.py:259-263). -/
  | logErr

/-- Weight of one point. -/
noncomputable def lagWeight (w : LagWeights) (p : LagPt) : FVal :=
  match w with
  | .none => .fin 1
  | .invSqErr => invSqF p.err
  | .logErr =>
    match p.err, p.value with
    | some s, some v => if v = 0 then (if s = 0 then .nan else .fin 0)
        else if s = 0 then .nan else invSqF (some (0.434 * s / v))
    | _, _ => .nan

/-- The log-log line through the selected points. -/
noncomputable def lagLine (lsq : List (ℝ × ℝ × ℝ) → ℝ × ℝ) (w : LagWeights) (scale : ℝ)
    (xlow xhigh : Option ℝ) (pts : List LagPt) : Py (Option (ℝ × ℝ)) :=
  lineFit lsq ((lagSelect scale xlow xhigh pts).map
    (fun p => ⟨log10F (some (p.lag * scale)), log10F p.value, lagWeight w p⟩))

/-- scf.py:286-366 `SCF.fit_plaw`: lags and limits in pixels (`pix` = pixels per stored lag unit);
an empty selection raises ValueError. -/
noncomputable def scfFitPlaw (lsq : List (ℝ × ℝ × ℝ) → ℝ × ℝ) (pix : ℝ)
    (xlow xhigh : Option ℝ) (pts : List LagPt) : Py (Option (ℝ × ℝ)) :=
  if (lagSelect pix xlow xhigh pts).length = 0 then .error .valueError
  else lagLine lsq .invSqErr pix xlow xhigh pts

/-- delta_variance.py:293-427 `DeltaVariance.fit_plaw(brk=None)`: the limits are converted to
pixels, the lags (`self.lags.value`, line 317) are not. -/
noncomputable def deltavarFitPlaw (lsq : List (ℝ × ℝ × ℝ) → ℝ × ℝ) (_pix : ℝ)
    (xlow xhigh : Option ℝ) (pts : List LagPt) : Py (Option (ℝ × ℝ)) :=
  lagLine lsq .invSqErr 1 xlow xhigh pts

/-- wavelet_transform.py:226-376 `Wavelet.fit_transform(brk=None)`: scales and limits in
pixels. -/
noncomputable def waveletFit (lsq : List (ℝ × ℝ × ℝ) → ℝ × ℝ) (weighted : Bool) (pix : ℝ)
    (xlow xhigh : Option ℝ) (pts : List LagPt) : Py (Option (ℝ × ℝ)) :=
  lagLine lsq (if weighted then .logErr else .none) pix xlow xhigh pts

end TS
