import Verif.Model.DvKernels

/-!
Model of `DeltaVariance.compute_deltavar` with `nan_treatment='interpolate'`
(`turbustat/statistics/delta_variance/delta_variance.py`).
-/

namespace TS
open Finset

/-- astropy's `convolve_fft(..., nan_treatment='interpolate')` (external): the share of the kernel at pixel `i, j` that falls on pixels
with a value.  The margin of a grid larger than the image counts as filled with `boundary='wrap'` (astropy sets `fill_value` to 0 there)
and as missing with `boundary='fill'` and the `fill_value=np.nan` of delta_variance.py:204.  The kernel is normalised. -/
noncomputable def validShare (coef : ℕ → ℕ → ℕ → ℕ → ℝ) (b : DvBoundary) (a : Arr2 (Option ℝ)) (i j : ℕ) : ℝ :=
  (∑ u ∈ range a.n, ∑ v ∈ range a.m, coef i j u v * (if (a.get u v).isSome then 1 else 0)) +
    (if b = .wrap then 1 - ∑ u ∈ range a.n, ∑ v ∈ range a.m, coef i j u v else 0)

/-- The convolution of `convolve_fft(..., nan_treatment='interpolate')` (external): missing pixels enter as 0 and the result is divided by
the share of the kernel on pixels with a value; NaN where that share is not positive (astropy's `min_wt=0`). -/
noncomputable def applyI (coef : ℕ → ℕ → ℕ → ℕ → ℝ) (b : DvBoundary) (a : Arr2 (Option ℝ)) : Arr2 (Option ℝ) :=
  ⟨a.n, a.m, fun i j =>
    if validShare coef b a i j ≤ 0 then none
    else some ((applyK coef (a.map (fun v => v.getD 0))).get i j / validShare coef b a i j)⟩

/-- delta_variance.py:202-247 the filtered map and its weights, for `nan_treatment='interpolate'`: the weights have no missing values
but pass through the same convolution. -/
noncomputable def dvFilterI (core ann : ℕ → ℕ → ℕ → ℕ → ℝ) (b : DvBoundary) (cutoff : ℝ) (preserve : Bool)
    (pi : Arr2 (Option ℝ)) (pw : Arr2 ℝ) : Arr2 (Option ℝ) × Arr2 (Option ℝ) :=
  let ic := applyI core b pi
  let ia := applyI ann b pi
  let wc := applyI core b (pw.map some)
  let wa := applyI ann b (pw.map some)
  (⟨pi.n, pi.m, fun i j =>
      if preserve ∧ (pi.get i j).isNone then none
      else subO (divO (ic.get i j) ((wc.get i j).bind (dvMask cutoff)))
        (divO (ia.get i j) ((wa.get i j).bind (dvMask cutoff)))⟩,
   ⟨pi.n, pi.m, fun i j => mulO ((wc.get i j).bind (dvMask cutoff)) ((wa.get i j).bind (dvMask cutoff))⟩)

/-- delta_variance.py:184-260 one lag with `nan_treatment='interpolate'`. -/
noncomputable def deltaVarAtI (junkI : ℕ → ℕ → Option ℝ) (junkW : ℕ → ℕ → ℝ)
    (core ann : ℕ → ℕ → ℕ → ℕ → ℝ) (b : DvBoundary) (frac : ℝ) (preserve : Bool) (lag : ℝ)
    (img : Arr2 (Option ℝ)) (w : Arr2 ℝ) : Py (Option (ℝ × ErrVal)) := do
  let (pi, pw) ← dvPad junkI junkW b lag img w
  let wmax ← npMax w.ravel
  let (arr, wt) := dvFilterI core ann b (frac * wmax) preserve pi pw
  return delvar arr wt lag

/-- delta_variance.py:184-263 one lag, with the kernels of kernels.py, `nan_treatment='interpolate'`. -/
noncomputable def deltaVarLagI (junkI : ℕ → ℕ → Option ℝ) (junkW : ℕ → ℕ → ℝ) (b : DvBoundary) (frac : ℝ) (preserve : Bool) (ratio lag : ℝ)
    (img : Arr2 (Option ℝ)) (w : Arr2 ℝ) : Py (Option (ℝ × ErrVal)) :=
  deltaVarAtI junkI junkW ((coreKernel lag).normalised.coef b img.n img.m) ((annulusKernel lag ratio).normalised.coef b img.n img.m) b frac
    preserve lag img w

/-- delta_variance.py:136-263 `compute_deltavar` with its option `nan_treatment`: the values at all lags. -/
noncomputable def computeDeltavarNan (interpolate : Bool) (junkI : ℕ → ℕ → Option ℝ) (junkW : ℕ → ℕ → ℝ) (b : DvBoundary) (frac : ℝ)
    (preserve : Bool) (ratio : ℝ) (lags : List ℝ) (img : Arr2 (Option ℝ)) (w : Arr2 ℝ) : Py (List (Option (ℝ × ErrVal))) :=
  if interpolate then lags.mapM fun lag => deltaVarLagI junkI junkW b frac preserve ratio lag img w
  else computeDeltavar junkI junkW b frac preserve ratio lags img w

/-- delta_variance.py:67-69 the default weights: 1 where the map has a value, 0 elsewhere. -/
def dvDefaultWeights (img : Arr2 (Option ℝ)) : Arr2 ℝ := img.map fun v => if v.isSome then 1 else 0

end TS
