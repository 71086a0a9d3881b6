import Verif.Np.Core
import Verif.Np.Nan
import Verif.Np.Ranges
import Verif.Np.Dft
import Verif.Model.Psds

/-! Model of `turbustat/statistics/stats_utils.py` and `dendrograms/mecdf.py`. -/

namespace TS
open Finset

/-- `np.sqrt` on one element: NaN for NaN and for negative numbers. -/
noncomputable def sqrtO (a : Option ℝ) : Option ℝ := do
  let x ← a
  if x < 0 then none else some (Real.sqrt x)

/-- `np.sqrt(data1) - np.sqrt(data2)` squared, per bin; NaN counts as 0 in `nansum`. -/
noncomputable def hellTerm (a b : Option ℝ) : ℝ :=
  ((subO (sqrtO a) (sqrtO b)).map (· ^ 2)).getD 0

/-- stats_utils.py:10-29 `hellinger(data1, data2, bin_width)`; arrays of different length raise
ValueError (broadcasting of a length-1 array is not modelled). -/
noncomputable def hellinger (d1 d2 : Arr1 (Option ℝ)) (binWidth : ℝ) : Py ℝ :=
  if d1.n ≠ d2.n then .error .valueError
  else .ok (binWidth / Real.sqrt 2 * Real.sqrt (∑ i ∈ range d1.n, hellTerm (d1.get i) (d2.get i)))

/-- stats_utils.py:32-36 `standardize` (the array flattened; a zero spread gives NaN). -/
noncomputable def standardize (x : List (Option ℝ)) : List (Option ℝ) :=
  x.map (fun v => divO (subO v (nanmean x)) (nanstd x))

/-- stats_utils.py:39-43 `normalize_by_mean`. -/
noncomputable def normalizeByMean (x : List (Option ℝ)) : List (Option ℝ) :=
  x.map (fun v => divO v (nanmean x))

/-- stats_utils.py:46-50 `center`. -/
noncomputable def center (x : List (Option ℝ)) : List (Option ℝ) :=
  x.map (fun v => subO v (nanmean x))

/-- stats_utils.py:53-57 `normalize`. -/
noncomputable def normalize (x : List (Option ℝ)) : List (Option ℝ) :=
  x.map (fun v => divO (subO v (nanmin x)) (subO (nanmax x) (nanmin x)))

/-- stats_utils.py:60-86 `data_normalization`. -/
noncomputable def dataNormalization (x : List (Option ℝ)) (normType : String) :
    Py (List (Option ℝ)) :=
  if normType = "standardize" then .ok (standardize x)
  else if normType = "center" then .ok (center x)
  else if normType = "normalize" then .ok (normalize x)
  else if normType = "normalize_by_mean" then .ok (normalizeByMean x)
  else .error .valueError

/-- numpy broadcasting of two 1D arrays. -/
def bcast (p q : List ℝ) : Py (List (ℝ × ℝ)) :=
  if p.length = q.length then .ok (p.zip q)
  else match p, q with
    | [a], q => .ok (q.map (fun b => (a, b)))
    | p, [b] => .ok (p.map (fun a => (a, b)))
    | _, _ => .error .valueError

/-- One term of `np.where(Q != 0, P * np.log(P / Q), 0)` under `nansum`: `P log(P/Q)`; the
logarithm of a negative ratio, and `0 * log 0`, are NaN and count as 0. -/
noncomputable def klTerm (p q : ℝ) : ℝ :=
  if q = 0 then 0 else if p / q ≤ 0 then 0 else p * Real.log (p / q)

/-- stats_utils.py:89-108 `kl_divergence`: missing values are removed from `P` and `Q` separately. -/
noncomputable def klDivergence (P Q : List (Option ℝ)) : Py ℝ := do
  let pairs ← bcast (validVals P) (validVals Q)
  return (pairs.map (fun t => klTerm t.1 t.2)).sum

/-- Options of `common_histogram_bins`. -/
structure BinArgs where
  nbins : Option ℕ := none
  logscale : Bool := false
  minVal : Option ℝ := none
  maxVal : Option ℝ := none

/-- stats_utils.py:111-161 `common_histogram_bins` on 1D data (`ndim` is the dimension of the given
arrays); an array without any valid number gives NaN limits, which is reported as an error here. -/
noncomputable def commonHistogramBins (ndim1 ndim2 : ℕ) (d1 d2 : List (Option ℝ)) (o : BinArgs) :
    Py (Arr1 ℝ) :=
  if 1 < ndim1 ∨ 1 < ndim2 then .error .valueError
  else match nanmin d1, nanmin d2, nanmax d1, nanmax d2 with
    | some a1, some a2, some b1, some b2 =>
      let gmin := min a1 a2
      let gmin := match o.minVal with | none => gmin | some v => max gmin v
      let gmax := max b1 b2
      let gmax := match o.maxVal with | none => gmax | some v => min gmax v
      let nbins := match o.nbins with
        | some k => k
        | none => (⌊Real.sqrt (((d1.length + d2.length : ℕ) : ℝ) / 2)⌋).toNat
      .ok (if o.logscale then logspace (log10 gmin) (log10 gmax) nbins
           else linspace gmin gmax nbins)
    | _, _, _, _ => .error .valueError

/-- stats_utils.py:158 the centres of the bins. -/
noncomputable def binCentres (e : Arr1 ℝ) : Arr1 ℝ :=
  ⟨e.n - 1, fun k => (e.get k + e.get (k + 1)) / 2⟩

/-- What `common_scale` uses of a WCS: whether it is distorted and the two celestial pixel
scales (non-negative, from `np.abs(proj_plane_pixel_scales(...))`). -/
structure WcsScales where
  distorted : Bool
  s0 : ℝ
  s1 : ℝ

/-- stats_utils.py:490-535 `common_scale` (a zero first scale would give inf: `zeroDivision`). -/
noncomputable def commonScale (w1 w2 : WcsScales) (tol : ℝ) : Py ℝ :=
  if w1.distorted then .error .wcsError
  else if w2.distorted then .error .wcsError
  else if tol < |w1.s0 - w1.s1| then .error .valueError
  else if tol < |w2.s0 - w2.s1| then .error .valueError
  else if w1.s0 = 0 then .error .zeroDivision
  else .ok (w2.s0 / w1.s0)

/-- stats_utils.py:568-576 `_shifter` on one line of `n` numbers:
`real(ifft(fft(x) * exp(-2 pi i fftfreq(n) shift)))`. -/
noncomputable def shifter (n : ℕ) (x : ℕ → ℝ) (shift : ℝ) (j : ℕ) : ℝ :=
  (idft1 n (fun k => dft1 n (fun i => (x i : ℂ)) k *
    Complex.exp (-2 * Real.pi * ((fftfreq n).get k : ℝ) * Complex.I * shift)) j).re

/-- stats_utils.py:538-565 `fourier_shift` on one line of the array (the FFT acts on every line of
the chosen axis separately): NaNs are zeroed, and restored where the shifted mask exceeds 0.5. -/
noncomputable def fourierShift (x : Arr1 (Option ℝ)) (shift : ℝ) : Arr1 (Option ℝ) :=
  ⟨x.n, fun j =>
    if 1 / 2 < shifter x.n (fun i => if (x.get i).isSome then 0 else 1) shift j then none
    else some (shifter x.n (fun i => (x.get i).getD 0) shift j)⟩

/-- A shift argument: an int or a float. -/
inductive ShiftArg where
  | int (k : ℤ)
  | float (r : ℝ)

/-- stats_utils.py:599-600 the conversion to int. -/
noncomputable def ShiftArg.toInt : ShiftArg → ℤ
  | .int k => k
  | .float r => pyInt r

/-- stats_utils.py:579-602 `pixel_shift` along an axis of a 3D array (2D and 1D arrays are the
special cases with axes of length one); other axes raise (numpy AxisError, a ValueError). -/
noncomputable def pixelShift {α : Type*} (x : Arr3 α) (shift : ShiftArg) (axis : ℤ) : Py (Arr3 α) :=
  if axis = 0 ∨ axis = -3 then .ok (x.roll0 shift.toInt)
  else if axis = 1 ∨ axis = -2 then .ok (x.roll1 shift.toInt)
  else if axis = 2 ∨ axis = -1 then .ok (x.roll2 shift.toInt)
  else .error .valueError

/-- `vector[s] = v` for a scalar. -/
def Arr1.fill {α : Type*} (a : Arr1 α) (s : PySlice) (v : α) : Arr1 α :=
  let r := s.resolve a.n
  ⟨a.n, fun i => if (r.find i).isSome then v else a.get i⟩

/-- stats_utils.py:605-617 `padwithzeros` / `padwithnans` (fill value `v`). -/
def padWith {α : Type*} (v : α) (vector : Arr1 α) (p0 p1 : ℕ) : Arr1 α :=
  (vector.fill ⟨none, some p0, 1⟩ v).fill ⟨some (-(p1 : ℤ)), none, 1⟩ v

/-- `np.pad(a, p, callback)` for a 2D array and one integer width: the array is enlarged by `p` on
all sides (the margin holds unspecified values `junk`), then the callback is run on every line of
axis 0 and of axis 1. -/
def npPad2 {α : Type*} (junk : ℕ → ℕ → α) (cb : Arr1 α → ℕ → ℕ → Arr1 α) (a : Arr2 α) (p : ℕ) :
    Arr2 α :=
  let big : Arr2 α := ⟨a.n + 2 * p, a.m + 2 * p, fun i j =>
    if p ≤ i ∧ i < a.n + p ∧ p ≤ j ∧ j < a.m + p then a.get (i - p) (j - p) else junk i j⟩
  let s1 : Arr2 α := ⟨big.n, big.m, fun i j => (cb ⟨big.n, fun r => big.get r j⟩ p p).get i⟩
  ⟨big.n, big.m, fun i j => (cb ⟨big.m, fun c => s1.get i c⟩ p p).get j⟩

/-- `np.sum` of a row with NaN: NaN as soon as one entry is. -/
noncomputable def rowSum (row : ℕ → Option ℝ) (n : ℕ) : Option ℝ :=
  (List.range n).foldl (fun acc k => addO acc (row k)) (some 0)

/-- dendrograms/mecdf.py:16-40 `mecdf`: per row, `cumsum(row / sum(row))`. -/
noncomputable def mecdf (a : Arr2 (Option ℝ)) : Arr2 (Option ℝ) :=
  ⟨a.n, a.m, fun i j =>
    rowSum (fun k => divO (a.get i k) (rowSum (a.get i) a.m)) (j + 1)⟩

end TS
