import Mathlib.Data.Real.Basic
import Mathlib.Algebra.BigOperators.Fin

/-! Specification of a straight-line fit with errors in both variables (orthogonal distance regression). -/

namespace TS.Spec

/-- A point with its errors. -/
structure OdrPt where
  x : ℝ
  y : ℝ
  sx : ℝ
  sy : ℝ

/-- Cost of the line `p.1 x + p.2` when point `i` is attributed to the abscissa `ξ i`: squared distances
in units of the errors. -/
noncomputable def odrCost (pts : List OdrPt) (p : ℝ × ℝ) (ξ : Fin pts.length → ℝ) : ℝ :=
  ∑ i, (((pts[i].y - (p.1 * ξ i + p.2)) / pts[i].sy) ^ 2 + ((pts[i].x - ξ i) / pts[i].sx) ^ 2)

/-- A best line. -/
def IsOdr (pts : List OdrPt) (p : ℝ × ℝ) : Prop := ∃ ξ, ∀ p' ξ', odrCost pts p ξ ≤ odrCost pts p' ξ'

end TS.Spec
