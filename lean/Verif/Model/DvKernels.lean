import Verif.Model.DeltaVariance
import Mathlib.Algebra.Order.Ring.Int
import Mathlib.Data.Int.Interval

/-!
Model of `turbustat/statistics/delta_variance/kernels.py`, of the kernel arrays of `wavelets/wavelet_transform.py` and of the convolution
both use (`turbustat/statistics/convolve_wrapper.py`, astropy's `convolve_fft`), with which the per-lag computations of
`Model/DeltaVariance.lean` become functions of the map alone.
-/

namespace TS
open Finset

/-- astropy `_round_up_to_odd_integer` (external), the size of a kernel array. -/
noncomputable def roundUpOdd (v : ℝ) : ℕ := if ⌈v⌉₊ % 2 = 0 then ⌈v⌉₊ + 1 else ⌈v⌉₊

/-- A kernel array of `2 r + 1` pixels on a side, indexed by the offset from its centre (astropy's `Kernel2D`, discretised at the
pixel centres). -/
structure Kern where
  r : ℕ
  val : ℤ → ℤ → ℝ

/-- The half-size of an array of width `8 s`, kernels.py:74 and astropy. -/
noncomputable def kernRadius (s : ℝ) : ℕ := (roundUpOdd (8 * s) - 1) / 2

/-- kernels.py:13-34 `core_kernel`: astropy's `Gaussian2DKernel(lag / (2 sqrt 2))`; the grid size arguments are not used. -/
noncomputable def coreKernel (lag : ℝ) : Kern :=
  ⟨kernRadius (lag / (2 * Real.sqrt 2)), fun a b =>
    1 / (2 * Real.pi * (lag / (2 * Real.sqrt 2)) ^ 2) *
      Real.exp (-((a : ℝ) ^ 2 + (b : ℝ) ^ 2) / (2 * (lag / (2 * Real.sqrt 2)) ^ 2))⟩

/-- kernels.py:37-76 `annulus_kernel`, `AnnulusKernel.__init__`: the size of the array does not depend on the ratio. -/
noncomputable def annulusKernel (lag ratio : ℝ) : Kern :=
  ⟨kernRadius (lag / (2 * Real.sqrt 2)), fun a b =>
    annulusEval a b (annulusAmp (lag / (2 * Real.sqrt 2)) ratio) (lag / (2 * Real.sqrt 2)) ratio⟩

/-- wavelet_transform.py:175 `RickerWavelet2DKernel(an)`: astropy's default size is eight times the width. -/
noncomputable def rickerKern (an : ℝ) : Kern := ⟨kernRadius an, fun a b => rickerKernel an a b⟩

/-- The sum of a kernel array. -/
noncomputable def Kern.sum (k : Kern) : ℝ := ∑ a ∈ Icc (-(k.r : ℤ)) k.r, ∑ b ∈ Icc (-(k.r : ℤ)) k.r, k.val a b

/-- convolve_wrapper.py:56-61 `normalize_kernel=True`. -/
noncomputable def Kern.normalised (k : Kern) : Kern := ⟨k.r, fun a b => k.val a b / k.sum⟩

/-- `convolve_fft(..., boundary='wrap')` (external): a cyclic convolution on a grid that is as large as the larger of image and kernel in
each direction, where a larger grid is filled with zeros outside the image. -/
noncomputable def Kern.wrapCoef (k : Kern) (n m i j u v : ℕ) : ℝ :=
  ∑ a ∈ Icc (-(k.r : ℤ)) k.r, ∑ b ∈ Icc (-(k.r : ℤ)) k.r,
    if ((max n (2 * k.r + 1) : ℕ) : ℤ) ∣ (i : ℤ) - u - a ∧ ((max m (2 * k.r + 1) : ℕ) : ℤ) ∣ (j : ℤ) - v - b then k.val a b else 0

/-- `convolve_fft(..., boundary='fill', fill_value=0)` (external): a convolution of the image continued by zeros. -/
noncomputable def Kern.fillCoef (k : Kern) (i j u v : ℕ) : ℝ :=
  ∑ a ∈ Icc (-(k.r : ℤ)) k.r, ∑ b ∈ Icc (-(k.r : ℤ)) k.r, if (i : ℤ) - u = a ∧ (j : ℤ) - v = b then k.val a b else 0

/-- The convolution with the chosen boundary rule for an image of shape `n, m`. -/
noncomputable def Kern.coef (k : Kern) (b : DvBoundary) (n m : ℕ) : ℕ → ℕ → ℕ → ℕ → ℝ :=
  match b with
  | .wrap => k.wrapCoef n m
  | _ => k.fillCoef

/-- delta_variance.py:184-263 one lag, with the kernels of kernels.py. -/
noncomputable def deltaVarLag (junkI : ℕ → ℕ → Option ℝ) (junkW : ℕ → ℕ → ℝ) (b : DvBoundary) (frac : ℝ) (preserve : Bool) (ratio lag : ℝ)
    (img : Arr2 (Option ℝ)) (w : Arr2 ℝ) : Py (Option (ℝ × ErrVal)) :=
  deltaVarAt junkI junkW ((coreKernel lag).normalised.coef b img.n img.m) ((annulusKernel lag ratio).normalised.coef b img.n img.m) b frac
    preserve lag img w

/-- delta_variance.py:178-263 `compute_deltavar`: the values at all lags. -/
noncomputable def computeDeltavar (junkI : ℕ → ℕ → Option ℝ) (junkW : ℕ → ℕ → ℝ) (b : DvBoundary) (frac : ℝ) (preserve : Bool) (ratio : ℝ)
    (lags : List ℝ) (img : Arr2 (Option ℝ)) (w : Arr2 ℝ) : Py (List (Option (ℝ × ErrVal))) :=
  lags.mapM fun lag => deltaVarLag junkI junkW b frac preserve ratio lag img w

/-- wavelet_transform.py:169-195 `compute_transform`: the values and standard deviations at all scales (`boundary` can be set through
`convolve_kwargs`; astropy's default is 'fill'). -/
noncomputable def computeTransform (b : DvBoundary) (scaleNorm : Bool) (scales : List ℝ) (img : Arr2 (Option ℝ)) :
    List (Option ℝ × Option ℝ) :=
  scales.map fun an => (waveletValue ((rickerKern an).coef b img.n img.m) scaleNorm an img,
    waveletStd ((rickerKern an).coef b img.n img.m) scaleNorm an img)

end TS
