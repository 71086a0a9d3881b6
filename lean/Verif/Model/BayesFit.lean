import Verif.Model.PcaFit
import Mathlib.Analysis.SpecialFunctions.Trigonometric.Basic

/-!
Model of `turbustat/statistics/fitting_utils.py`, `bayes_linear`, and of the branch of
`turbustat/statistics/pca/pca.py`, `fit_plaw` that calls it.

The sampler of `emcee` is external: a parameter that gets the log-probability and the starting positions
and returns the flattened chain.  Plots are not modelled.
-/

namespace TS

/-- One entry of the arrays `x`, `y`, `x_err`, `y_err` (`none` = NaN). -/
structure ErrPt where
  x : Option ℝ
  y : Option ℝ
  sx : Option ℝ
  sy : Option ℝ

/-- A value of the log-probability. -/
inductive LogP where
  | negInf
  | posInf
  | nan
  | fin (v : ℝ)

/-- fitting_utils.py:164 `Delta` of one point. -/
noncomputable def bayesDelta (θ b : ℝ) (p : ErrPt) : Option ℝ := do
  let x ← p.x
  let y ← p.y
  return (Real.cos θ * y - Real.sin θ * x - b * Real.cos θ) ^ 2

/-- fitting_utils.py:165 `Sigma` of one point. -/
noncomputable def bayesSigma (θ : ℝ) (p : ErrPt) : Option ℝ := do
  let sx ← p.sx
  let sy ← p.sy
  return Real.sin θ ^ 2 * sx ^ 2 + Real.cos θ ^ 2 * sy ^ 2

open Classical in
/-- fitting_utils.py:166 the two sums and their difference.  A vanishing `Sigma` makes the second sum
minus infinity; the first one is infinite too unless its numerator vanishes (0/0 is NaN and dropped). -/
noncomputable def bayesSums (terms : List (Option ℝ × Option ℝ)) : LogP :=
  if ∃ t ∈ terms, t.2 = some 0 then
    if ∃ t ∈ terms, t.2 = some 0 ∧ ∃ d, t.1 = some d ∧ d ≠ 0 then .nan else .posInf
  else
    .fin (-0.5 * nansum (terms.map fun t => divO t.1 t.2) - 0.5 * nansum (terms.map fun t => t.2.map Real.log))

/-- fitting_utils.py:160-168 `_logprob` at the angle `θ` and the intercept `b`. -/
noncomputable def bayesLogProb (pts : List ErrPt) (θ b : ℝ) : LogP :=
  if Real.pi / 4 < |θ - Real.pi / 4| then .negInf
  else bayesSums (pts.map fun p => (bayesDelta θ b p, bayesSigma θ p))

/-- fitting_utils.py:170-173 the starting positions, from pairs of standard normal draws, one per walker. -/
noncomputable def bayesStart (ys : List ℝ) (draws : List (ℝ × ℝ)) : List (ℝ × ℝ) :=
  let mean := ys.sum / ys.length
  let std := Real.sqrt ((ys.map fun y => (y - mean) ^ 2).sum / ys.length)
  draws.map fun z => (Real.pi / 4 + z.1 * 0.1, z.2 * std + mean)

/-- `np.median` (numpy: the middle value, or the mean of the two middle values). -/
noncomputable def npMedian (v : List ℝ) : ℝ :=
  let s := v.insertionSort (· ≤ ·)
  if v.length % 2 = 1 then s.getD (v.length / 2) 0
  else (s.getD (v.length / 2 - 1) 0 + s.getD (v.length / 2) 0) / 2

/-- What `bayes_linear` returns with `return_samples=True`. -/
structure BayesOut where
  params : ℝ × ℝ
  slopeRange : ℝ × ℝ
  interceptRange : ℝ × ℝ
  samples : List (ℝ × ℝ)

/-- fitting_utils.py:181-192, 268-271 from the flattened chain to the returned arrays.
Simplified: at an angle of exactly `pi/2` the tangent is 0 here and about 1.6e16 in the program. -/
noncomputable def bayesResult (conf : ℝ × ℝ) (chain : List (ℝ × ℝ)) : BayesOut :=
  let slopes := chain.map fun s => Real.tan s.1
  let intercepts := chain.map fun s => s.2
  ⟨(npMedian slopes, npMedian intercepts),
   (npPercentile slopes conf.1, npPercentile slopes conf.2),
   (npPercentile intercepts conf.1, npPercentile intercepts conf.2),
   chain.map fun s => (Real.tan s.1, s.2)⟩

/-- The external sampler (fitting_utils.py:175-179): log-probability and starting positions to the
flattened chain. -/
abbrev McmcSampler := (ℝ → ℝ → LogP) → List (ℝ × ℝ) → Py (List (ℝ × ℝ))

/-- fitting_utils.py:110-271 `bayes_linear(x, y, x_err, y_err, conf_interval=conf)`.  A NaN in `y` makes
every starting intercept NaN (line 173), which the sampler refuses with a ValueError.  Percentiles
outside 0…100 raise ValueError. -/
noncomputable def bayesLinear (mcmc : McmcSampler) (draws : List (ℝ × ℝ)) (conf : ℝ × ℝ) (pts : List ErrPt) :
    Py BayesOut :=
  if pts.any (fun p => p.y.isNone) then .error .valueError
  else do
    let chain ← mcmc (bayesLogProb pts) (bayesStart (validVals (pts.map ErrPt.y)) draws)
    if conf.1 < 0 ∨ 100 < conf.1 ∨ conf.2 < 0 ∨ 100 < conf.2 then .error .valueError
    else .ok (bayesResult conf chain)

/-- A finite number, otherwise NaN. -/
def FVal.toOpt : FVal → Option ℝ
  | .fin v => some v
  | _ => none

/-- pca.py:565-571 the arrays handed to `bayes_linear`.  Simplified: the infinite logarithm and relative
error of a width that is exactly 0 are treated as NaN. -/
noncomputable def bayesPoint (p : WidthPt) : ErrPt :=
  let q := odrPoint p
  ⟨q.x.toOpt, q.y.toOpt, q.sx.toOpt, q.sy.toOpt⟩

/-- pca.py:578-590 what `fit_plaw` stores after `bayes_linear`. -/
noncomputable def storeBayes (r : BayesOut) : PcaFit × List (ℝ × ℝ) :=
  (⟨r.params.1, r.slopeRange, (10 : ℝ) ^ r.params.2,
    ((10 : ℝ) ^ r.interceptRange.1, (10 : ℝ) ^ r.interceptRange.2)⟩, r.samples)

/-- pca.py:472-590 `fit_plaw(xlow, xhigh, fit_method)` for any spelling of the method: the result of an
orthogonal regression has no samples. -/
noncomputable def fitPlawMethod (odr : List OdrIn → Py ((ℝ × ℝ) × (ℝ × ℝ))) (bayes : List ErrPt → Py BayesOut)
    (method : String) (s : Spatial) (xlow xhigh : WLim) (ws : List WidthPt) : Py (PcaFit × List (ℝ × ℝ)) :=
  if method = "odr" then do
    let f ← fitPlaw odr s xlow xhigh ws
    return (f, [])
  else if method = "bayes" then do
    let lo ← limPix s xlow
    let hi ← limPix s xhigh
    if ws.any (fun p => inLimits lo hi p.x) then
      let kept := ws.filter (fun p => inLimits lo hi p.x && widthFinite p)
      if kept.length < 2 then .error .warningRaised
      else do
        let r ← bayes (kept.map bayesPoint)
        return storeBayes r
    else .error .valueError
  else .error .typeError

end TS
