import Mathlib.Data.Real.Sqrt
import Mathlib.Algebra.BigOperators.Fin

/-! Specification for bootstrapped errors: linear least squares in any number of parameters, and the spread of a sample. -/

namespace TS.Spec

/-- The value at point `i` of the combination `b` of the columns of `X`. -/
def predict {n p : ℕ} (X : Fin n → Fin p → ℝ) (b : Fin p → ℝ) (i : Fin n) : ℝ := ∑ j, X i j * b j

/-- `b` minimises the weighted sum of squared residuals of `y` over the combinations of the columns of `X`. -/
def IsWlsq {n p : ℕ} (X : Fin n → Fin p → ℝ) (w y : Fin n → ℝ) (b : Fin p → ℝ) : Prop :=
  ∀ b', ∑ i, w i * (y i - predict X b i) ^ 2 ≤ ∑ i, w i * (y i - predict X b' i) ^ 2

/-- The same with equal weights. -/
def IsLsq {n p : ℕ} (X : Fin n → Fin p → ℝ) (y : Fin n → ℝ) (b : Fin p → ℝ) : Prop :=
  ∀ b', ∑ i, (y i - predict X b i) ^ 2 ≤ ∑ i, (y i - predict X b' i) ^ 2

/-- The columns of `X` are independent, so that parameters are determined by the values. -/
def Independent {n p : ℕ} (X : Fin n → Fin p → ℝ) : Prop := ∀ b, (∀ i, predict X b i = 0) → b = 0

/-- Contract of the external regression: it returns a least-squares solution. -/
def Regression (ols : ∀ n p : ℕ, (Fin n → Fin p → ℝ) → (Fin n → ℝ) → Fin p → ℝ) : Prop :=
  ∀ n p (X : Fin n → Fin p → ℝ) (y : Fin n → ℝ), IsLsq X y (ols n p X y)

/-- Mean of a sample. -/
noncomputable def sampleMean (l : List ℝ) : ℝ := l.sum / l.length

/-- `s` is the (population) standard deviation of the sample `l`. -/
def IsSpread (l : List ℝ) (s : ℝ) : Prop := 0 ≤ s ∧ s ^ 2 = sampleMean (l.map fun v => (v - sampleMean l) ^ 2)

end TS.Spec
