import Verif.Np.Nan
import Verif.Np.Ranges
import Verif.Model.DeltaVariance
import Mathlib.Analysis.SpecialFunctions.Exp

/-!
Model of the smoothing helpers: `gauss_kern` and `moment_masking` of `turbustat/moments/make_moments.py`, `convolution_wrapper` of
`turbustat/statistics/convolve_wrapper.py` and `GaussianAnnulus2D.evaluate` of `turbustat/statistics/delta_variance/kernels.py`.
-/

namespace TS
open Finset

/-! ### the kernel -/

/-- make_moments.py:482-490 the half-size of one axis: an optional size that is `None` or 0 is replaced by the first one. -/
noncomputable def kernHalf (size : ℝ) (o : Option ℝ) : ℤ :=
  match o with
  | none => pyInt size
  | some v => if v = 0 then pyInt size else pyInt v

/-- make_moments.py:492 the number of points of `np.mgrid[-s:s + 1]`. -/
def gridLen (s : ℤ) : ℕ := (s + 1 - (-s)).toNat

/-- make_moments.py:492-494 `x ** 2 / float(s)` at point `i` of the axis; `0 / 0` is NaN. -/
noncomputable def sqOver (s : ℤ) (i : ℕ) : Option ℝ := divO (some ((((i : ℤ) + -s : ℤ) : ℝ) ^ 2)) (some (s : ℝ))

/-- make_moments.py:493-494 `g`. -/
noncomputable def gaussRaw (a b c : ℤ) : Arr3 (Option ℝ) :=
  ⟨gridLen a, gridLen b, gridLen c, fun i j k => (addO (addO (sqOver a i) (sqOver b j)) (sqOver c k)).map fun t => Real.exp (-t)⟩

open Classical in
/-- `ndarray.sum()` of a 3D array: NaN if one value is. -/
noncomputable def Arr3.npSum (a : Arr3 (Option ℝ)) : Option ℝ :=
  if ∃ i < a.n, ∃ j < a.m, ∃ k < a.p, a.get i j k = none then none
  else some (∑ i ∈ range a.n, ∑ j ∈ range a.m, ∑ k ∈ range a.p, (a.get i j k).getD 0)

/-- make_moments.py:480-495 `gauss_kern`. -/
noncomputable def gaussKern (size : ℝ) (ysize zsize : Option ℝ) : Arr3 (Option ℝ) :=
  let g := gaussRaw (pyInt size) (kernHalf size ysize) (kernHalf size zsize)
  ⟨g.n, g.m, g.p, fun i j k => divO (g.get i j k) g.npSum⟩

/-! ### smoothing a cube -/

/-- The value at a position of the cube continued by zeros (astropy's `boundary='fill', fill_value=0`). -/
def Arr3.filled (a : Arr3 (Option ℝ)) (i j k : ℤ) : Option ℝ :=
  if 0 ≤ i ∧ i < a.n ∧ 0 ≤ j ∧ j < a.m ∧ 0 ≤ k ∧ k < a.p then a.get i.toNat j.toNat k.toNat else some 0

/-- The sum over the kernel `K` of its values times `f` of the voxel met there, for the voxel `i, j, k`. -/
noncomputable def kernelSum (K : Arr3 (Option ℝ)) (a : Arr3 (Option ℝ)) (f : Option ℝ → ℝ) (i j k : ℕ) : ℝ :=
  ∑ u ∈ range K.n, ∑ v ∈ range K.m, ∑ w ∈ range K.p, (K.get u v w).getD 0 *
    f (a.filled ((i : ℤ) - ((u : ℤ) - (K.n / 2 : ℕ))) ((j : ℤ) - ((v : ℤ) - (K.m / 2 : ℕ))) ((k : ℤ) - ((w : ℤ) - (K.p / 2 : ℕ))))

/-- make_moments.py:461 `convolve(cube, kernel)` (astropy, external) with its defaults `nan_treatment='interpolate'`,
`normalize_kernel=True`: the weighted mean of the voxels that are not NaN; an even kernel is refused. -/
noncomputable def convolve3 (a K : Arr3 (Option ℝ)) : Py (Arr3 (Option ℝ)) :=
  if K.n % 2 = 0 ∨ K.m % 2 = 0 ∨ K.p % 2 = 0 then .error .runtimeError
  else .ok ⟨a.n, a.m, a.p, fun i j k =>
    match K.npSum with
    | none => none
    | some _ => divO (some (kernelSum K a (fun v => v.getD 0) i j k)) (some (kernelSum K a (fun v => if v.isSome then 1 else 0) i j k))⟩

/-! ### the mask -/

/-- `generate_binary_structure(3, conn)` (scipy): the offsets of at most one pixel per axis in at most `conn` axes. -/
def binStruct (conn : ℕ) (x y z : ℤ) : Bool := decide (|x| ≤ 1 ∧ |y| ≤ 1 ∧ |z| ≤ 1 ∧ |x| + |y| + |z| ≤ conn)

open Classical in
/-- One pass of `binary_dilation` (scipy): outside the cube nothing is set. -/
noncomputable def dilate3 (conn : ℕ) (m : Arr3 Bool) : Arr3 Bool :=
  ⟨m.n, m.m, m.p, fun i j k => decide (∃ u < m.n, ∃ v < m.m, ∃ w < m.p,
    binStruct conn ((i : ℤ) - u) ((j : ℤ) - v) ((k : ℤ) - w) = true ∧ m.get u v w = true)⟩

/-- `binary_dilation(..., iterations=it)` (scipy): with `it < 1` until nothing changes, which takes at most as many passes as there are
voxels. -/
noncomputable def dilations3 (conn : ℕ) (it : ℤ) (m : Arr3 Bool) : Arr3 Bool :=
  (dilate3 conn)^[if it < 1 then m.n * m.m * m.p else it.toNat] m

/-- The global names `moment_masking` looks up that could be missing: make_moments.py:23-28 are the only lines that define them. -/
structure MaskNames where
  signalIdFlag : Option Bool
  noise : Option (Arr3 (Option ℝ) → ℝ)

/-- make_moments.py:1-30 the module as it is: lines 23-28 are comments. -/
def makeMomentsNames : MaskNames := ⟨none, none⟩

/-- make_moments.py:453-477 `moment_masking`.  The scale of the noise is a function of the smoothed cube. -/
noncomputable def momentMasking (names : MaskNames) (cube : Arr3 (Option ℝ)) (size clip : ℝ) (it : ℤ) : Py (Arr3 Bool) :=
  match names.signalIdFlag with
  | none => .error .nameError
  | some false => .error .importError
  | some true => do
    let s ← convolve3 cube (gaussKern size none none)
    match names.noise with
    | none => .error .nameError
    | some noise =>
      .ok (dilations3 3 it ⟨s.n, s.m, s.p, fun i j k =>
        match s.get i j k with
        | none => false
        | some v => decide (clip * noise s < v)⟩)

/-! ### the convolution wrapper -/

/-- The two libraries of Fourier transforms. -/
inductive FftLib | numpy | pyfftw
  deriving DecidableEq

/-- convolve_wrapper.py:44-54 `use_fftn`, `use_ifftn`. -/
def pickFft (installed usePyfftw : Bool) : FftLib :=
  if usePyfftw then (if installed then .pyfftw else .numpy) else .numpy

/-- convolve_wrapper.py:56 `int(astro_version[0])`. -/
def versionDigit (version : List Char) : Py ℕ :=
  match version with
  | [] => .error .indexError
  | c :: _ => if c.isDigit then .ok (c.toNat - '0'.toNat) else .error .valueError

/-- convolve_wrapper.py:17-76 `convolution_wrapper`: `conv` is astropy's `convolve_fft` with the image, the kernel and the other options.
The bare `Exception` of line 64 is `runtimeError` here; `threads` and `pyfftw_kwargs` are not used. -/
def convolutionWrapper {α : Type} (installed : Bool) (version : List Char) (conv : FftLib → α) (usePyfftw : Bool) (_threads : ℕ) : Py α := do
  let lib := pickFft installed usePyfftw
  let d ← versionDigit version
  if 2 ≤ d then return conv lib else .error .runtimeError

/-! ### the annulus -/

/-- kernels.py:145-152 `GaussianAnnulus2D.evaluate` with all its parameters. -/
noncomputable def annulusEvaluate (x y amplitude _xMean _yMean stddev ratio : ℝ) : ℝ :=
  amplitude * (Real.exp (-(x ^ 2 + y ^ 2) / (2 * (ratio * stddev) ^ 2)) - Real.exp (-(x ^ 2 + y ^ 2) / (2 * stddev ^ 2)))

end TS
