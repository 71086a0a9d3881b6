import Mathlib.Analysis.SpecialFunctions.Trigonometric.Basic
import Mathlib.Analysis.Real.Sqrt
import Mathlib.Algebra.BigOperators.Ring.Finset
import Mathlib.Algebra.BigOperators.Field

/-! Specification vocabulary for radial profiles and azimuthal wedges. -/

namespace TS.Spec
open Finset

/-- The frequency coordinate of row `i` in an `n`-row centred spectrum whose rows are listed
from the highest to the lowest frequency (the order of the public `ps2D`): an integer. -/
def rowFreq (n i : ℕ) : ℤ := (n : ℤ) - 1 - i - (n / 2 : ℕ)

/-- The frequency coordinate of column `j` in an `m`-column centred spectrum: an integer. -/
def colFreq (m j : ℕ) : ℤ := (j : ℤ) - (m / 2 : ℕ)

/-- Radius of pixel `(i, j)` in cycles per pixel; zero frequency is given half of the smallest
non-zero radius `1 / max n m`. -/
noncomputable def freqRadius (n m i j : ℕ) : ℝ :=
  if rowFreq n i = 0 ∧ colFreq m j = 0 then 1 / (2 * (max n m : ℕ))
  else Real.sqrt (((rowFreq n i : ℝ) / n) ^ 2 + ((colFreq m j : ℝ) / m) ^ 2)

/-- Radius of pixel `(i, j)` in pixels from `(n // 2, m // 2)`. -/
noncomputable def pixRadius (n m i j : ℕ) : ℝ :=
  Real.sqrt (((i : ℝ) - (n / 2 : ℕ)) ^ 2 + ((j : ℝ) - (m / 2 : ℕ)) ^ 2)

/-- Average over a finite set of pixels. -/
noncomputable def pixMean (S : Finset (ℕ × ℕ)) (v : ℕ × ℕ → ℝ) : ℝ := (∑ p ∈ S, v p) / S.card

/-- The direction `t` lies within `delta/2` of `theta0`, angles being taken modulo a full turn. -/
def AngWithin (theta0 delta t : ℝ) : Prop :=
  ∃ k : ℤ, |t + 2 * Real.pi * k - theta0| ≤ delta / 2

end TS.Spec

namespace TS.Spec

/-- The radius used for binning: in frequency units, or in pixels. -/
noncomputable def binRadius (freqs : Bool) (n m i j : ℕ) : ℝ :=
  if freqs then freqRadius n m i j else pixRadius n m i j

/-- Lower end of the binned range for the given options (psds.py docstring: `min_bin`, else one
cycle across the shorter side, or half a pixel). -/
noncomputable def lowBin (freqs : Bool) (minBin : Option ℝ) (n m : ℕ) : ℝ :=
  minBin.getD (if freqs then 1 / ((min n m : ℕ) : ℝ) else 1 / 2)

/-- `b` is the upper end of the binned range: `max_bin`, else the Nyquist frequency `1/2`, or
the largest pixel radius. -/
def IsHighBin (freqs : Bool) (maxBin : Option ℝ) (n m : ℕ) (b : ℝ) : Prop :=
  match maxBin with
  | some c => b = c
  | none => if freqs then b = 1 / 2
            else IsGreatest {r | ∃ i < n, ∃ j < m, pixRadius n m i j = r} b

end TS.Spec
