import Verif.Model.LmSegFit

/-! Specification of the regression with the columns `1`, `x`, `U`, `V`. -/

namespace TS.Spec

/-- Weighted sum of squared residuals. -/
def rss4 (rows : List SegRow) (p : Coef4) : ℝ :=
  (rows.map (fun r => r.w * (r.y - (p.c0 + p.c1 * r.x + p.c2 * r.u + p.c3 * r.v)) ^ 2)).sum

/-- The contract of the external regression: whenever the weights are non-negative the returned
coefficients are no worse than any others. -/
def LeastSquares4 (lsq4 : List SegRow → Coef4) : Prop :=
  ∀ rows : List SegRow, (∀ r ∈ rows, 0 ≤ r.w) → ∀ p, rss4 rows (lsq4 rows) ≤ rss4 rows p

end TS.Spec
