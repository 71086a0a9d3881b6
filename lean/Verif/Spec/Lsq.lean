import Mathlib.Data.Real.Basic
import Mathlib.Algebra.BigOperators.Group.List.Basic

/-! Specification of a weighted straight-line regression. -/

namespace TS.Spec

/-- Weighted sum of squared residuals of the line `p.1 + p.2 x`. -/
def rss (pts : List (ℝ × ℝ × ℝ)) (p : ℝ × ℝ) : ℝ :=
  (pts.map (fun q => q.2.2 * (q.2.1 - (p.1 + p.2 * q.1)) ^ 2)).sum

/-- The contract of the external regression: whenever the weights are non-negative the returned
line is no worse than any other. -/
def LeastSquares (lsq : List (ℝ × ℝ × ℝ) → ℝ × ℝ) : Prop :=
  ∀ pts : List (ℝ × ℝ × ℝ), (∀ q ∈ pts, 0 ≤ q.2.2) → ∀ p, rss pts (lsq pts) ≤ rss pts p

end TS.Spec
