import Verif.Model.StatsUtils
import Verif.Model.Psds
import Verif.Np.Reduce
import Mathlib.Analysis.SpecialFunctions.Log.Base
import Mathlib.Analysis.Real.Pi.Bounds

/-!
Model of `turbustat/statistics/delta_variance/delta_variance.py` (per-lag computation, curve distance),
`delta_variance/kernels.py` (annulus profile), `wavelets/wavelet_transform.py` (per-scale computation)
and of the lag setters shared by DeltaVariance, Wavelet and Tsallis.
-/

namespace TS
open Finset

/-! ### Lag setters -/

/-- What is given as lags or scales: without a unit, with a unit that cannot be converted to pixels, or
values in a unit of `perPixel` pixels (1 for pixels themselves). -/
inductive LagInput where
  | plain (values : List ℝ)
  | foreign
  | quantity (values : List ℝ) (perPixel : ℝ)

/-- base_statistic.py:245-263 `_to_pixel` for such an input. -/
def LagInput.toPixel : LagInput → Py (List ℝ)
  | .plain _ => .error .typeError
  | .foreign => .error .unitConversionError
  | .quantity v f => .ok (v.map (· * f))

/-- delta_variance.py:99-119, wavelet_transform.py:82-110, tsallis.py:58-83: the three setters are the
same code.  `side` is `min(self.data.shape)`; on success the values are stored as given. -/
noncomputable def checkLags (side : ℕ) (l : LagInput) : Py Unit := do
  let pix ← l.toPixel
  if pix.any (fun v => decide (v < 1)) then .error .valueError
  else if pix.any (fun v => decide (1e-10 < (⌊v⌋ : ℝ) - (side : ℝ) / 2)) then .error .valueError
  else return ()

/-- The object's lags after an assignment: unchanged when the setter raises. -/
noncomputable def setLags (side : ℕ) (old new : LagInput) : Py Unit × LagInput :=
  match checkLags side new with
  | .ok _ => (.ok (), new)
  | .error e => (.error e, old)

/-- delta_variance.py:76-87 default lags, or the given ones turned to pixels first (bare numbers are taken
as pixels). -/
noncomputable def deltaVarInitLags (side : ℕ) (nlags : ℕ) : Option LagInput → Py LagInput
  | none =>
    let l := logspace (log10 3) (log10 ((side : ℝ) / 2)) nlags
    (checkLags side (.quantity ((List.range l.n).map l.get) 1)).map
      (fun _ => .quantity ((List.range l.n).map l.get) 1)
  | some (.quantity v f) =>
    (checkLags side (.quantity (v.map (· * f)) 1)).map (fun _ => .quantity (v.map (· * f)) 1)
  | some .foreign => .error .unitConversionError
  | some (.plain v) => (checkLags side (.quantity v 1)).map (fun _ => .quantity v 1)

/-- wavelet_transform.py:67-74 default scales. -/
noncomputable def waveletDefault (side num : ℕ) : LagInput :=
  let l := logspace (log10 1.667) (log10 ((side : ℝ) / 2)) num
  .quantity ((List.range l.n).map l.get) 1

/-- tsallis.py:43-47 default lags: powers of two up to half the smaller side.  (`range` of a
non-positive number is empty.) -/
noncomputable def tsallisDefault (side : ℕ) : LagInput :=
  .quantity ((List.range (⌊Real.logb 2 ((side : ℝ) / 2)⌋ + 1).toNat).map (fun i => (2 : ℝ) ^ i)) 1

/-- delta_variance.py:184 `self.lags.value`: the numbers used as pixel lags by the computation. -/
def LagInput.rawValues : LagInput → List ℝ
  | .quantity v _ => v
  | _ => []

/-! ### Convolution -/

/-- Convolution of an image with a kernel (`astropy.convolution.convolve_fft`, external): a linear map of
the image, given by its coefficients.  Every kernel, normalisation and boundary rule is of this form. -/
def applyK (coef : ℕ → ℕ → ℕ → ℕ → ℝ) (a : Arr2 ℝ) : Arr2 ℝ :=
  ⟨a.n, a.m, fun i j => ∑ u ∈ range a.n, ∑ v ∈ range a.m, coef i j u v * a.get u v⟩

/-- kernels.py:71 amplitude of the annulus kernel. -/
noncomputable def annulusAmp (stddev ratio : ℝ) : ℝ := 1 / (2 * Real.pi * stddev ^ 2 * (ratio ^ 2 - 1))

/-- kernels.py:146-152 `GaussianAnnulus2D.evaluate`. -/
noncomputable def annulusEval (x y amplitude stddev ratio : ℝ) : ℝ :=
  amplitude * (Real.exp (-(x ^ 2 + y ^ 2) / (2 * (ratio * stddev) ^ 2)) -
    Real.exp (-(x ^ 2 + y ^ 2) / (2 * stddev ^ 2)))

/-! ### Delta-variance at one lag -/

/-- delta_variance.py:189-200 `boundary`. -/
inductive DvBoundary | wrap | fill | other
  deriving DecidableEq

/-- delta_variance.py:189-200 the (padded) weighted image and weights; `junk` are the unspecified margin
values numpy hands to the padding callback. -/
noncomputable def dvPad (junkI : ℕ → ℕ → Option ℝ) (junkW : ℕ → ℕ → ℝ) (b : DvBoundary) (lag : ℝ)
    (img : Arr2 (Option ℝ)) (w : Arr2 ℝ) : Py (Arr2 (Option ℝ) × Arr2 ℝ) :=
  match b with
  | .wrap => .ok (⟨img.n, img.m, fun i j => mulO (img.get i j) (some (w.get i j))⟩, w)
  | .fill =>
    let pw := npPad2 junkW (padWith 0) w (pyInt lag).toNat
    let pi := npPad2 junkI (padWith (some 0)) img (pyInt lag).toNat
    .ok (⟨pi.n, pi.m, fun i j => mulO (pi.get i j) (some (pw.get i j))⟩, pw)
  | .other => .error .valueError

/-- delta_variance.py:238-240 weights at or below the cut-off become NaN. -/
noncomputable def dvMask (cutoff x : ℝ) : Option ℝ := if x ≤ cutoff then none else some x

/-- delta_variance.py:202-247 the filtered map and its weights, for `nan_treatment='fill'` (missing
values enter the convolution as 0). -/
noncomputable def dvFilter (core ann : ℕ → ℕ → ℕ → ℕ → ℝ) (cutoff : ℝ) (preserve : Bool)
    (pi : Arr2 (Option ℝ)) (pw : Arr2 ℝ) : Arr2 (Option ℝ) × Arr2 (Option ℝ) :=
  let ic := applyK core (pi.map (fun v => v.getD 0))
  let ia := applyK ann (pi.map (fun v => v.getD 0))
  let wc := applyK core pw
  let wa := applyK ann pw
  (⟨pi.n, pi.m, fun i j =>
      if preserve ∧ (pi.get i j).isNone then none
      else subO (divO (some (ic.get i j)) (dvMask cutoff (wc.get i j)))
        (divO (some (ia.get i j)) (dvMask cutoff (wa.get i j)))⟩,
   ⟨pi.n, pi.m, fun i j => mulO (dvMask cutoff (wc.get i j)) (dvMask cutoff (wa.get i j))⟩)

/-- delta_variance.py:969 `kern_area`. -/
noncomputable def kernArea (lag : ℝ) : ℕ := ⌈0.5 * Real.pi * Real.log 2 * lag ^ 2⌉₊

/-- A standard error: a number or infinity. -/
inductive ErrVal where
  | fin (e : ℝ)
  | inf

/-- delta_variance.py:956-975 `_delvar` and 255-260: the value and its error, `none` when both are set to
NaN.  The error is infinite when there is less than one independent pixel.  (A zero weight sum gives a
non-finite value, NaN here.) -/
noncomputable def delvar (arr wt : Arr2 (Option ℝ)) (lag : ℝ) : Option (ℝ × ErrVal) :=
  let mean := divO (some arr.nansum) (some arr.nFinite)
  let cent : Arr2 (Option ℝ) := ⟨arr.n, arr.m, fun i j => subO (arr.get i j) mean⟩
  let mom := fun p : ℕ => (⟨arr.n, arr.m, fun i j => mulO ((cent.get i j).map (· ^ p)) (wt.get i j)⟩ :
    Arr2 (Option ℝ)).nansum
  if wt.nansum = 0 then none
  else
    let val := mom 2 / wt.nansum
    let arg := mom 4 / wt.nansum - val ^ 2
    let nindep := Real.sqrt ((cent.nFinite / kernArea lag : ℕ) : ℝ)
    if val ≤ 0 ∨ arg < 0 then none
    else if nindep = 0 then (if arg = 0 then none else some (val, .inf))
    else if Real.sqrt arg / nindep ≤ 0 then none
    else some (val, .fin (Real.sqrt arg / nindep))

/-- delta_variance.py:184-260 one lag. -/
noncomputable def deltaVarAt (junkI : ℕ → ℕ → Option ℝ) (junkW : ℕ → ℕ → ℝ)
    (core ann : ℕ → ℕ → ℕ → ℕ → ℝ) (b : DvBoundary) (frac : ℝ) (preserve : Bool) (lag : ℝ)
    (img : Arr2 (Option ℝ)) (w : Arr2 ℝ) : Py (Option (ℝ × ErrVal)) := do
  let (pi, pw) ← dvPad junkI junkW b lag img w
  let wmax ← npMax w.ravel
  let (arr, wt) := dvFilter core ann (frac * wmax) preserve pi pw
  return delvar arr wt lag

/-! ### Curve distance -/

/-- One computed curve: its lags and values (NaN where undefined) and the fitted range. -/
structure DvCurve where
  lags : List ℝ
  vals : List (Option ℝ)
  low : ℝ
  high : ℝ

/-- delta_variance.py:869-874 a usable value. -/
noncomputable def usable (v : Option ℝ) : Bool :=
  match v with
  | some x => decide (0 < x)
  | none => false

/-- delta_variance.py:887-901 the compared part of a curve: in the fit range, usable in both, divided by
its sum, in log10. -/
noncomputable def curvePart (c : DvCurve) (other : List (Option ℝ)) : List ℝ :=
  let keep := (List.range c.vals.length).filter (fun i =>
    decide (c.low ≤ c.lags.getD i 0 ∧ c.lags.getD i 0 ≤ c.high) &&
      (usable (c.vals.getD i none) && usable (other.getD i none)))
  let v := keep.map (fun i => (c.vals.getD i none).getD 0)
  v.map (fun x => log10 (x / v.sum))

/-- delta_variance.py:865-913 the value of `curve_distance` set in `distance_metric` (`none` = NaN).  Arrays of unequal length raise (a length
of one would broadcast; not modelled). -/
noncomputable def curveDistance (common : Bool) (a b : DvCurve) : Py (Option ℝ) :=
  if common then
    if a.vals.length ≠ b.vals.length then .error .valueError
    else if a.low = b.low ∧ a.high = b.high then
      let p := curvePart a b.vals
      let q := curvePart b a.vals
      if p.length = q.length then
        .ok (some (Real.sqrt ((List.range p.length).map (fun i => (p.getD i 0 - q.getD i 0) ^ 2)).sum))
      else .error .valueError
    else .ok none
  else .ok none

/-! ### Wavelets -/

/-- wavelet_transform.py:59-62 missing pixels become 0 at construction. -/
noncomputable def waveletData (img : Arr2 (Option ℝ)) : Arr2 ℝ := img.map (fun v => v.getD 0)

/-- wavelet_transform.py:175-183 the convolved map at scale `an`. -/
noncomputable def waveletMap (psi : ℕ → ℕ → ℕ → ℕ → ℝ) (scaleNorm : Bool) (an : ℝ) (img : Arr2 (Option ℝ)) :
    Arr2 ℝ :=
  (applyK psi (waveletData img)).map (fun v => v * an ^ (if scaleNorm then 2 else 4))

/-- wavelet_transform.py:175 astropy's `RickerWavelet2DKernel(an)` (external) at offset `x, y`; its finite
support is not modelled. -/
noncomputable def rickerKernel (an x y : ℝ) : ℝ :=
  1 / (Real.pi * an ^ 4) * (1 - (x ^ 2 + y ^ 2) / (2 * an ^ 2)) * Real.exp (-(x ^ 2 + y ^ 2) / (2 * an ^ 2))

/-- wavelet_transform.py:188 the value at a scale: mean of the positive pixels (NaN when none). -/
noncomputable def waveletValue (psi : ℕ → ℕ → ℕ → ℕ → ℝ) (scaleNorm : Bool) (an : ℝ)
    (img : Arr2 (Option ℝ)) : Option ℝ :=
  meanO ((waveletMap psi scaleNorm an img).ravel.filter (fun v => decide (0 < v)))

/-- wavelet_transform.py:190-195 the standard deviation at a scale (NaN or infinite when there is less
than one independent pixel). -/
noncomputable def waveletStd (psi : ℕ → ℕ → ℕ → ℕ → ℝ) (scaleNorm : Bool) (an : ℝ)
    (img : Arr2 (Option ℝ)) : Option ℝ :=
  let c := waveletMap psi scaleNorm an img
  divO ((varO (c.ravel.filter (fun v => decide (0 < v)))).map Real.sqrt)
    (some (Real.sqrt ((c.n * c.m / kernArea an : ℕ) : ℝ)))

end TS
