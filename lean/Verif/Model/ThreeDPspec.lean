import Verif.Model.Psds
import Verif.Np.Dft

/-! Model of turbustat/simulator/threeD_pspec.py. -/

namespace TS
open Finset

/-- `np.arange(a, b, s)` for a positive step, in real arithmetic. -/
noncomputable def arange (a b s : ℝ) : Arr1 ℝ := ⟨⌈(b - a) / s⌉.toNat, fun k => a + k * s⟩

/-- threeD_pspec.py:37 `max(arr.shape)`. -/
def maxSide (a : Arr3 ℝ) : ℕ := max (max a.n a.m) a.p

/-- threeD_pspec.py:27 `np.abs(np.fft.fftn(arr))**2`. -/
noncomputable def ps3D (a : Arr3 ℝ) (c : ℕ × ℕ × ℕ) : ℝ :=
  ‖dft3 a.n a.m a.p (fun i j t => (a.get i j t : ℂ)) c.1 c.2.1 c.2.2‖ ^ 2

/-- threeD_pspec.py:29-35 radius of a mode. -/
noncomputable def modeRadius (a : Arr3 ℝ) (c : ℕ × ℕ × ℕ) : ℝ :=
  Real.sqrt ((fftfreq a.n).get c.1 ^ 2 + (fftfreq a.m).get c.2.1 ^ 2 + (fftfreq a.p).get c.2.2 ^ 2)

/-- All modes (`.flat`). -/
def allModes (a : Arr3 ℝ) : Finset (ℕ × ℕ × ℕ) := range a.n ×ˢ range a.m ×ˢ range a.p

/-- threeD_pspec.py:37-40 the frequency bins. -/
noncomputable def freqBins3 (a : Arr3 ℝ) : Arr1 ℝ := arange (1 / (maxSide a : ℝ)) (1 / 2) (1 / (maxSide a : ℝ))

/-- threeD_pspec.py:42 `np.digitize(rr.flat, freq_bins)`. -/
noncomputable def whichBin3 (a : Arr3 ℝ) (c : ℕ × ℕ × ℕ) : ℕ := digitize (freqBins3 a) (modeRadius a c)

/-- threeD_pspec.py:49 `np.mean(ps3D.flat[whichbin == n])` (none: NaN of an empty mean). -/
noncomputable def binMean3 (a : Arr3 ℝ) (n : ℕ) : Option ℝ :=
  let s := (allModes a).filter (fun c => whichBin3 a c = n)
  if s.card = 0 then none else some ((∑ c ∈ s, ps3D a c) / s.card)

/-- threeD_pspec.py:50 `np.std(ps3D.flat[whichbin == n])`. -/
noncomputable def binStd3 (a : Arr3 ℝ) (n : ℕ) : Option ℝ :=
  let s := (allModes a).filter (fun c => whichBin3 a c = n)
  match binMean3 a n with
  | none => none
  | some μ => some (Real.sqrt ((∑ c ∈ s, (ps3D a c - μ) ^ 2) / s.card))

/-- threeD_pspec.py:5-52 `threeD_pspec`; `ndim` is the number of dimensions of the argument and `a` the argument
when that is 3.  `len(np.bincount(w)) - 1` is the largest entry of `w`.  An empty axis makes the FFT raise. -/
noncomputable def threeDPspec (ndim : ℕ) (a : Arr3 ℝ) : Py (Arr1 ℝ × Arr1 (Option ℝ) × Arr1 (Option ℝ)) :=
  if ndim ≠ 3 then .error .valueError
  else if a.n = 0 ∨ a.m = 0 ∨ a.p = 0 then .error .valueError
  else
    let len := (allModes a).sup (whichBin3 a)
    .ok (freqBins3 a, ⟨len, fun k => binMean3 a (k + 1)⟩, ⟨len, fun k => binStd3 a (k + 1)⟩)

end TS
