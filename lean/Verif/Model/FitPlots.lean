import Verif.Model.BaseStat
import Verif.Model.LmSeg
import Verif.Model.FittingUtils
import Verif.Np.Ranges

/-! Model of what the `plot_fit` methods show: the numbers handed to matplotlib, not the drawing.  Error bars, colours and axis ranges are
left out, except where their length decides whether the call raises. -/

namespace TS

/-- A fit as the plots use it: a line in log-log, or the segmented model with its `params` and break. -/
inductive ShownFit where
  | line (a b : ℝ)
  | broken (p : List ℝ) (brk : ℝ)

/-- delta_variance.py:473-492, wavelet_transform.py:413-432 `fitted_model`: the model at logarithms of pixel scales. -/
noncomputable def fittedModel (fit : ShownFit) (k : List ℝ) : Py (List ℝ) :=
  match fit with
  | .line a b => .ok (k.map fun v => a + b * v)
  | .broken p brk => segModel p brk k

/-- What is shown: data points, the fitted curve, the vertical lines at the fit limits and, when asked for, the residuals. -/
structure FitPanel where
  points : List (ℝ × Option ℝ)
  curve : List (ℝ × ℝ)
  limits : ℝ × ℝ
  resid : Option (List (ℝ × Option ℝ))

/-- base_pspec2.py:717-722 the fitted curve: `fit.predict(sm.add_constant(xvals_plot))`.  With a break the fit has four coefficients and
the product with the two columns raises ValueError.  (`add_constant` leaves out the column of ones when all values are equal; not
modelled.) -/
noncomputable def pspecCurve (fit : ShownFit) (xs : List ℝ) : Py (List (ℝ × ℝ)) :=
  match fit with
  | .line a b => .ok (xs.map fun x => (log10 x, a + b * log10 x))
  | .broken _ _ => .error .valueError

/-- base_pspec2.py:651-756 `plot_fit` without the 2D panel.  `bins` are the pairs of `freqs` (1/pixel) and positive finite `ps1D`, `size`
is `min(_ps2D.shape)`, `low` and `high` the cuts in 1/pixel. -/
noncomputable def pspecPlot (s : Spatial) (fit : ShownFit) (size : ℕ) (low high : ℝ) (bins : List (ℝ × ℝ)) (unit : SUnit)
    (wavenumber showResid : Bool) : Py FitPanel := do
  let model ← fittedModel fit (bins.map fun b => log10 b.1)
  let xs ← bins.mapM fun b => fromPixelFreq s (if wavenumber then b.1 * size else b.1) unit
  let curve ← pspecCurve fit (((xs.zip bins).filter fun x => clipFunc low high (some x.2.1)).map fun x => x.1)
  let lo ← fromPixelFreq s low unit
  let hi ← fromPixelFreq s high unit
  return { points := (xs.zip bins).map fun x => (log10 x.1, some (log10 x.2.2))
           curve := curve
           limits := (log10 (if wavenumber then lo * size else lo), log10 (if wavenumber then hi * size else hi))
           resid := if showResid then
               some ((xs.zip (bins.zip model)).map fun x => (log10 x.1, some (log10 x.2.1.2 - x.2.2)))
             else none }

/-- One value of a curve: the scale in pixels, the value and its error (`none` = NaN). -/
structure CurvePt where
  x : ℝ
  y : Option ℝ
  err : Option ℝ

/-- delta_variance.py:546-547, wavelet_transform.py:487-488 `fin_vals`. -/
def CurvePt.fin (p : CurvePt) : Bool := p.y.isSome || p.err.isSome

/-- A pixel scale in the requested unit. -/
noncomputable def convScale (s : Spatial) (unit : SUnit) (x : ℝ) : Py ℝ := do
  let q ← fromPixel s x unit
  return q.val

/-- delta_variance.py:572-577 the residuals; `lags` are the lags in the unit of the plot. -/
noncomputable def deltavarResid (fit : ShownFit) (lags : List ℝ) (pts : List CurvePt) (showResid : Bool) :
    Py (Option (List (ℝ × Option ℝ))) :=
  if showResid then do
    let m ← fittedModel fit (lags.map log10)
    return some (((lags.zip (pts.zip m)).filter fun x => x.2.1.fin).map fun x => (x.1, x.2.1.y.map fun y => y - (10 : ℝ) ^ x.2.2))
  else return none

/-- delta_variance.py:543-587 `DeltaVariance.plot_fit`.  Lags and `range` (`_fit_range`) are in pixels, as when the lags are set by the
constructor. -/
noncomputable def deltavarPlot (s : Spatial) (fit : ShownFit) (range : ℝ × ℝ) (pts : List CurvePt) (unit : SUnit) (showResid : Bool) :
    Py FitPanel := do
  let lags ← pts.mapM fun p => convScale s unit p.x
  let xvals := (List.range 100).map (linspace range.1 range.2 100).get
  let conv ← xvals.mapM (convScale s unit)
  let model ← fittedModel fit (xvals.map log10)
  let lo ← convScale s unit range.1
  let hi ← convScale s unit range.2
  let resid ← deltavarResid fit lags pts showResid
  return { points := ((lags.zip pts).filter fun x => x.2.fin).map fun x => (x.1, x.2.y)
           curve := (conv.zip model).map fun x => (x.1, (10 : ℝ) ^ x.2)
           limits := (lo, hi)
           resid := resid }

/-- wavelet_transform.py:483-524 `Wavelet.plot_transform`, with the scales in pixels.  The residuals of all scales are given the errors
of the finite ones: different lengths raise ValueError. -/
noncomputable def waveletPlot (s : Spatial) (fit : ShownFit) (range : ℝ × ℝ) (pts : List CurvePt) (unit : SUnit) (showResid : Bool) :
    Py FitPanel := do
  let scales ← pts.mapM fun p => convScale s unit p.x
  let lo ← convScale s unit range.1
  let hi ← convScale s unit range.2
  let model ← fittedModel fit (pts.map fun p => log10 p.x)
  if showResid ∧ ¬ pts.all CurvePt.fin then .error .valueError
  else return { points := ((scales.zip pts).filter fun x => x.2.fin).map fun x => (x.1, x.2.y)
                curve := (scales.zip model).map fun x => (x.1, (10 : ℝ) ^ x.2)
                limits := (lo, hi)
                resid := if showResid then
                    some ((scales.zip (pts.zip model)).map fun x => (x.1, x.2.1.y.map fun y => y - (10 : ℝ) ^ x.2.2))
                  else none }

/-- scf.py:403-428 `SCF.fitted_model` at a quantity. -/
noncomputable def scfModelAt (s : Spatial) (a b : ℝ) (q : SQ) : Py ℝ := do
  let p ← toPixel s q
  return (10 : ℝ) ^ (a + b * log10 p)

/-- scf.py:688-728 the radial panel of `SCF.plot_fit`, with the lags in pixels (there is no fit with a break). -/
noncomputable def scfPlot (s : Spatial) (a b : ℝ) (range : ℝ × ℝ) (pts : List CurvePt) (unit : SUnit) (showResid : Bool) :
    Py FitPanel := do
  let lags ← pts.mapM fun p => convScale s unit p.x
  let mn ← npMin lags
  let mx ← npMax lags
  let xvals := (List.range 50).map (linspace (mn * 0.95) (mx * 1.05) 50).get
  let model ← xvals.mapM fun x => scfModelAt s a b ⟨x, unit⟩
  let lo ← convScale s unit range.1
  let hi ← convScale s unit range.2
  let resid ← pts.mapM fun p => scfModelAt s a b ⟨p.x, .pix⟩
  return { points := (lags.zip pts).map fun x => (x.1, x.2.y)
           curve := xvals.zip model
           limits := (lo, hi)
           resid := if showResid then some ((lags.zip (pts.zip resid)).map fun x => (x.1, x.2.1.y.map fun y => y - x.2.2)) else none }

/-- vcs.py:325-327 the residuals, of all frequencies. -/
noncomputable def vcsResid (c : ℝ) (p : List ℝ) (brk : ℝ) (bins : List (ℝ × ℝ)) (showResid : Bool) :
    Py (Option (List (ℝ × Option ℝ))) :=
  if showResid then do
    let m ← segModel p brk (bins.map fun b => log10 b.1)
    return some ((bins.zip m).map fun x => (x.1.1 / c, some (x.1.2 - (10 : ℝ) ^ x.2)))
  else return none

/-- vcs.py:296-334 `VCS.plot_fit`: `bins` are the pairs of frequency (1/channel) and power that were kept, `c` the width of a channel in
the unit of the axis (base_statistic.py:357-370), `p` and `brk` belong to the `Lm_Seg` of the fit. -/
noncomputable def vcsPlot (c : ℝ) (p : List ℝ) (brk : ℝ) (low high : ℝ) (bins : List (ℝ × ℝ)) (showResid : Bool) : Py FitPanel := do
  let good := bins.filter fun b => clipFunc low high (some b.1)
  let model ← segModel p brk (good.map fun b => log10 b.1)
  let resid ← vcsResid c p brk bins showResid
  return { points := bins.map fun b => (b.1 / c, some b.2)
           curve := (good.zip model).map fun x => (x.1.1 / c, (10 : ℝ) ^ x.2)
           limits := (low / c, high / c)
           resid := resid }

end TS
