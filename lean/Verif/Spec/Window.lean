import Verif.Np.Core
import Mathlib.Data.Real.Basic

/-! Specification: what a taper window is. -/

namespace TS

/-- The specification of a taper on an `(n, m)` grid: shape, range `[0,1]`, symmetric under
flipping either axis, and never larger at a pixel that is farther from the centre. -/
structure IsTaper (w : Arr2 ℝ) (n m : ℕ) : Prop where
  shape : w.n = n ∧ w.m = m
  nonneg : ∀ i < n, ∀ j < m, 0 ≤ w.get i j
  le_one : ∀ i < n, ∀ j < m, w.get i j ≤ 1
  flip0 : ∀ i < n, ∀ j < m, w.get (n - 1 - i) j = w.get i j
  flip1 : ∀ i < n, ∀ j < m, w.get i (m - 1 - j) = w.get i j
  antitone : ∀ i < n, ∀ j < m, ∀ i' < n, ∀ j' < m,
    (2 * (i : ℤ) - (n - 1)) ^ 2 + (2 * (j : ℤ) - (m - 1)) ^ 2 ≤
      (2 * (i' : ℤ) - (n - 1)) ^ 2 + (2 * (j' : ℤ) - (m - 1)) ^ 2 →
    w.get i' j' ≤ w.get i j

end TS
