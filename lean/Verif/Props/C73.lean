import Verif.Model.BreakFit
import Mathlib.Tactic.LinearCombination
import Mathlib.Tactic.FieldSimp

/-! C73: the errors reported by the segmented regression are the standard errors of the reported
quantities.  The break is `ψ + γ/β` (`β`, `γ` the coefficients of the `U` and `V` columns), the
slopes are `b` and `b + β`. -/

namespace TS

namespace Spec

/-- Variance of a linear combination `u X + v Y`. -/
def varLin (u v varX varY cov : ℝ) : ℝ := u ^ 2 * varX + v ^ 2 * varY + 2 * u * v * cov

/-- First-order (delta method) standard error of the break `ψ + γ/β`: the gradient of `γ/β` is
`(-γ/β², 1/β)`. -/
noncomputable def breakStdErr (β γ varβ varγ cov : ℝ) : ℝ :=
  Real.sqrt (varLin (-γ / β ^ 2) (1 / β) varβ varγ cov)

/-- The entries of a covariance matrix of two quantities. -/
def IsCov (varX varY cov : ℝ) : Prop := 0 ≤ varX ∧ 0 ≤ varY ∧ cov ^ 2 ≤ varX * varY

end Spec

open Spec

theorem varLin_nonneg {u v a b c : ℝ} (h : IsCov a b c) : 0 ≤ varLin u v a b c := by
  obtain ⟨ha, hb, hc⟩ := h
  unfold varLin
  rcases ha.lt_or_eq with ha | ha
  · have h1 : 0 ≤ a * (u ^ 2 * a + v ^ 2 * b + 2 * u * v * c) := by
      nlinarith [sq_nonneg (u * a + v * c), mul_nonneg (sq_nonneg v) (sub_nonneg.2 hc)]
    exact nonneg_of_mul_nonneg_right h1 ha
  · subst ha
    have : c = 0 := by nlinarith [sq_nonneg c]
    subst this
    nlinarith [mul_nonneg (sq_nonneg v) hb]

/-- **C73 (defined).** For any covariance matrix and any change of slope the break error is a non-negative number, never
NaN. -/
theorem C73_break_error_defined (β γ a b c : ℝ) (hβ : β ≠ 0) (h : IsCov a b c) :
    ∃ e, 0 ≤ e ∧ brkErrs β γ a b c = some e := by
  have : 0 ≤ b + a * (γ / β) ^ 2 + 2 * c * (γ / β) := by
    have := varLin_nonneg (u := γ / β) (v := 1) h
    unfold varLin at this
    linarith
  exact ⟨_, Real.sqrt_nonneg _, by unfold brkErrs; simp only; rw [if_neg hβ, if_neg (not_lt.2 this)]⟩

/-- **C73 (break error).** When the iteration has converged (`γ = 0`) and the slope changes by
exactly `±1`, the break error is its standard error.  Missing compared with the full property:
other slope changes and `γ ≠ 0`. -/
theorem C73_break_error_partial (β varβ varγ cov : ℝ) (hβ : |β| = 1) (h : IsCov varβ varγ cov) :
    brkErrs β 0 varβ varγ cov = some (breakStdErr β 0 varβ varγ cov) := by
  have h2 : β ^ 2 = 1 := by rw [← sq_abs, hβ, one_pow]
  have h0 : β ≠ 0 := by rintro rfl; simp at hβ
  unfold brkErrs breakStdErr varLin
  simp only [zero_div, neg_zero]
  rw [if_neg h0, if_neg (by have := h.2.1; norm_num; exact this)]
  congr 2
  rw [div_pow, h2]; ring

/-- **C73 (break error).** In general, at convergence, the reported error is the standard error
multiplied by the size of the slope change. Missing: a factor of 1 (`C73_break_error_violated`). -/
theorem C73_break_error_factor_partial (β varβ varγ cov : ℝ) (hβ : β ≠ 0) (h : IsCov varβ varγ cov) :
    brkErrs β 0 varβ varγ cov = some (|β| * breakStdErr β 0 varβ varγ cov) := by
  unfold brkErrs breakStdErr varLin
  simp only [zero_div, neg_zero]
  rw [if_neg hβ, if_neg (by have := h.2.1; norm_num; exact this)]
  congr 1
  rw [← Real.sqrt_sq_eq_abs, ← Real.sqrt_mul (sq_nonneg β)]
  congr 1
  field_simp
  ring

/-- **C73 (violation).** The factor is real: a slope change of 2 with `Var γ = 1` reports an error
of 1 for a break whose standard error is 1/2. -/
theorem C73_break_error_violated :
    brkErrs 2 0 1 1 0 = some 1 ∧ breakStdErr 2 0 1 1 0 = 1 / 2 ∧ IsCov 1 1 0 := by
  refine ⟨by norm_num [brkErrs], ?_, by norm_num [IsCov]⟩
  unfold breakStdErr varLin
  rw [show (-0 / 2 ^ 2 : ℝ) ^ 2 * 1 + (1 / 2) ^ 2 * 1 + 2 * (-0 / 2 ^ 2) * (1 / 2) * 0 = (1 / 2) ^ 2 by
    norm_num]
  exact Real.sqrt_sq (by norm_num)

/-- **C73 (violation).** Multiplying the ordinates by `c` multiplies both coefficients by `c` and
their covariances by `c²`, and leaves the break where it is, but the reported break error is
multiplied by `|c|`. -/
theorem C73_ordinate_scale_violated (c β γ a b d : ℝ) (hc : c ≠ 0) (hβ : β ≠ 0) (h : IsCov a b d) :
    (brkErrs (c * β) (c * γ) (c ^ 2 * a) (c ^ 2 * b) (c ^ 2 * d) =
      (brkErrs β γ a b d).map (|c| * ·)) ∧
    breakStdErr (c * β) (c * γ) (c ^ 2 * a) (c ^ 2 * b) (c ^ 2 * d) = breakStdErr β γ a b d := by
  constructor
  · have h0 : 0 ≤ b + a * (γ / β) ^ 2 + 2 * d * (γ / β) := by
      have := varLin_nonneg (u := γ / β) (v := 1) h
      unfold varLin at this
      linarith
    unfold brkErrs
    simp only
    have e : c ^ 2 * b + c ^ 2 * a * (c * γ / (c * β)) ^ 2 + 2 * (c ^ 2 * d) * (c * γ / (c * β)) =
        c ^ 2 * (b + a * (γ / β) ^ 2 + 2 * d * (γ / β)) := by
      rw [mul_div_mul_left _ _ hc]; ring
    rw [e, if_neg hβ, if_neg (mul_ne_zero hc hβ), if_neg (not_lt.2 h0), if_neg (not_lt.2 (mul_nonneg (sq_nonneg c) h0)),
      Real.sqrt_mul (sq_nonneg c), Real.sqrt_sq_eq_abs]
    rfl
  · unfold breakStdErr varLin
    congr 1
    have e1 : -(c * γ) / (c * β) ^ 2 = (1 / c) * (-γ / β ^ 2) := by
      by_cases hβ : β = 0
      · subst hβ; simp
      · field_simp
    have e2 : 1 / (c * β) = (1 / c) * (1 / β) := by rw [one_div_mul_one_div]
    rw [e1, e2]
    have : c * (1 / c) = 1 := mul_one_div_cancel hc
    have h2 : c ^ 2 * (1 / c) ^ 2 = 1 := by rw [← mul_pow, this, one_pow]
    linear_combination ((-γ / β ^ 2) ^ 2 * a + (1 / β) ^ 2 * b + 2 * (-γ / β ^ 2) * (1 / β) * d) * h2

/-- **C73 (slope errors).** The first slope error is that of the coefficient; the second is the
standard error of `b + β` when the two coefficients are uncorrelated.  Missing compared with the
full property: correlated coefficients, which is the usual case (see
`C73_slope_error_violated`). -/
theorem C73_slope_errors_partial (varb varβ : ℝ) (hb : 0 ≤ varb) (hβ : 0 ≤ varβ) :
    segSlopeErrs (Real.sqrt varb) (Real.sqrt varβ) =
      [Real.sqrt varb, Real.sqrt (varLin 1 1 varb varβ 0)] := by
  unfold segSlopeErrs varLin
  rw [Real.sq_sqrt hb, Real.sq_sqrt hβ]
  congr 3; ring

/-- **C73 (violation).** Correlated coefficients: the second slope can be known exactly while its
reported error is not 0. -/
theorem C73_slope_error_violated :
    IsCov 1 1 (-1) ∧ Real.sqrt (varLin 1 1 1 1 (-1)) = 0 ∧
    segSlopeErrs (Real.sqrt 1) (Real.sqrt 1) = [1, Real.sqrt 2] := by
  refine ⟨by norm_num [IsCov], by norm_num [varLin], ?_⟩
  norm_num [segSlopeErrs]

/-- A fit whose slopes are equal on both sides of the break has no break error: the quotient is undefined (NaN in the code). -/
theorem C73_no_slope_change_violated (γ a b c : ℝ) : brkErrs 0 γ a b c = none := by simp [brkErrs]

end TS
