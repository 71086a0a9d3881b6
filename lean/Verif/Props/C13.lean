import Verif.Model.EllipPlaw
import Mathlib.Analysis.SpecialFunctions.Exp

/-! C13 — the interval transform is a bijection of `(a, b)` with the real line. -/

namespace TS

private theorem exp_neg_transform {x a b : ℝ} (h1 : a < x) (h2 : x < b) :
    Real.exp (-(intervalTransform x a b)) = (b - x) / (x - a) := by
  rw [intervalTransform, neg_sub, Real.exp_sub, Real.exp_log (by linarith), Real.exp_log (by linarith)]

/-- Transforming and transforming back returns the value. -/
theorem C13_inverse_left (x a b : ℝ) (h1 : a < x) (h2 : x < b) :
    inverseIntervalTransform (intervalTransform x a b) a b = x := by
  rw [inverseIntervalTransform, exp_neg_transform h1 h2]
  have h3 : x - a ≠ 0 := by intro h; linarith
  have h4 : b - a ≠ 0 := by intro h; linarith
  have h5 : 1 + (b - x) / (x - a) = (b - a) / (x - a) := by field_simp; ring
  rw [h5, div_div_eq_mul_div, mul_div_assoc, mul_comm, div_mul_cancel₀ _ h4]
  ring

/-- The inverse transform always lands strictly inside the interval. -/
theorem C13_inverse_range (t a b : ℝ) (hab : a < b) :
    a < inverseIntervalTransform t a b ∧ inverseIntervalTransform t a b < b := by
  have he := Real.exp_pos (-t)
  have h1 : 0 < b - a := by linarith
  unfold inverseIntervalTransform
  constructor
  · have : 0 < (b - a) / (1 + Real.exp (-t)) := by positivity
    linarith
  · have : (b - a) / (1 + Real.exp (-t)) < b - a := by
      rw [div_lt_iff₀ (by positivity)]; nlinarith
    linarith

/-- Transforming back and forth returns the value: the transform is onto the real line. -/
theorem C13_inverse_right (t a b : ℝ) (hab : a < b) :
    intervalTransform (inverseIntervalTransform t a b) a b = t := by
  have he := Real.exp_pos (-t)
  have h1 : 0 < b - a := by linarith
  unfold intervalTransform inverseIntervalTransform
  have e1 : (b - a) / (1 + Real.exp (-t)) + a - a = (b - a) / (1 + Real.exp (-t)) := by ring
  have e2 : b - ((b - a) / (1 + Real.exp (-t)) + a) = (b - a) / (1 + Real.exp (-t)) * Real.exp (-t) := by
    field_simp; ring
  rw [e1, e2, Real.log_mul (by positivity) (by positivity), Real.log_exp]
  ring

/-- Both maps are strictly increasing. -/
theorem C13_strictly_increasing (a b : ℝ) (hab : a < b) :
    (∀ x y, a < x → x < y → y < b → intervalTransform x a b < intervalTransform y a b) ∧
    (∀ s t, s < t → inverseIntervalTransform s a b < inverseIntervalTransform t a b) := by
  constructor
  · intro x y h1 h2 h3
    have l1 := Real.log_lt_log (by linarith : 0 < x - a) (by linarith : x - a < y - a)
    have l2 := Real.log_lt_log (by linarith : 0 < b - y) (by linarith : b - y < b - x)
    unfold intervalTransform
    linarith
  · intro s t h
    unfold inverseIntervalTransform
    have h1 : 0 < b - a := by linarith
    have h2 : Real.exp (-t) < Real.exp (-s) := Real.exp_lt_exp.2 (by linarith)
    have := Real.exp_pos (-t)
    have := div_lt_div_of_pos_left h1 (by positivity) (by linarith : 1 + Real.exp (-t) < 1 + Real.exp (-s))
    linarith

/-- The two standard-error propagations undo each other (both orders), and never turn a
non-negative error negative. -/
theorem C13_stderr_inverse (x a b d : ℝ) (h1 : a < x) (h2 : x < b) :
    inverseIntervalTransformStderr (intervalTransformStderr d x a b) (intervalTransform x a b) a b = d ∧
    intervalTransformStderr (inverseIntervalTransformStderr d (intervalTransform x a b) a b) x a b = d ∧
    (0 ≤ d → 0 ≤ intervalTransformStderr d x a b ∧
      0 ≤ inverseIntervalTransformStderr d (intervalTransform x a b) a b) := by
  have h3 : 0 < x - a := by linarith
  have h4 : 0 < b - x := by linarith
  have h5 : 0 < b - a := by linarith
  have k1 : |1 / (x - a) + 1 / (b - x)| = (b - a) / ((x - a) * (b - x)) := by
    rw [abs_of_pos (by positivity)]; field_simp; ring
  have k2 : |(b - a) * Real.exp (-(intervalTransform x a b)) /
      (1 + Real.exp (-(intervalTransform x a b))) ^ 2| = (x - a) * (b - x) / (b - a) := by
    rw [exp_neg_transform h1 h2]
    have e : 1 + (b - x) / (x - a) = (b - a) / (x - a) := by field_simp; ring
    rw [e, abs_of_pos (by positivity)]
    field_simp
  refine ⟨?_, ?_, ?_⟩
  · rw [inverseIntervalTransformStderr, k2, intervalTransformStderr, k1]
    field_simp
  · rw [intervalTransformStderr, k1, inverseIntervalTransformStderr, k2]
    field_simp
  · intro hd
    rw [intervalTransformStderr, k1, inverseIntervalTransformStderr, k2]
    constructor <;> positivity

example : inverseIntervalTransform (intervalTransform (1 / 4) 0 1) 0 1 = 1 / 4 :=
  C13_inverse_left _ _ _ (by norm_num) (by norm_num)

end TS
