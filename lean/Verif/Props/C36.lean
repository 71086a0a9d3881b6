import Verif.Model.Pca
import Mathlib.Tactic.Linarith

/-! C36 — the corrected PCA index and its range. -/

namespace TS

/-- The corrected index lies in the corrected range, for every index down to -10/9 and every range that
contains it. -/
theorem C36_brackets (alpha low up : ℝ) (h1 : low ≤ alpha) (h2 : alpha ≤ up) (h : -(10 / 9) ≤ alpha) :
    (bruntRange low up).1 ≤ bruntCorrect alpha ∧ bruntCorrect alpha ≤ (bruntRange low up).2 := by
  unfold bruntRange bruntCorrect
  constructor <;> simp only <;> norm_num <;> linarith

/-- The bound is exact: below -10/9 the range of the index alone misses it on both sides. -/
theorem C36_exact (alpha : ℝ) :
    ((bruntRange alpha alpha).1 ≤ bruntCorrect alpha ↔ -(10 / 9) ≤ alpha) ∧
    (bruntCorrect alpha ≤ (bruntRange alpha alpha).2 ↔ -(10 / 9) ≤ alpha) := by
  unfold bruntRange bruntCorrect
  norm_num
  constructor <;> constructor <;> intro h <;> linarith

/-- Both ends and the correction increase with their arguments: a wider range stays wider. -/
theorem C36_monotone (a b c d : ℝ) (h1 : a ≤ b) (h2 : c ≤ d) :
    bruntCorrect a ≤ bruntCorrect b ∧ (bruntRange a c).1 ≤ (bruntRange b d).1 ∧
      (bruntRange a c).2 ≤ (bruntRange b d).2 := by
  unfold bruntRange bruntCorrect
  refine ⟨?_, ?_, ?_⟩ <;> norm_num <;> linarith

/-- The published calibration: slope 1.52 ± 0.18, offset 0.19 ± 0.20, the range being attained at the
extreme calibrations. -/
theorem C36_calibration (s o alpha low up : ℝ) (hs : |s - 1.52| ≤ 0.18) (ho : |o - 0.19| ≤ 0.2)
    (h0 : 0 ≤ low) (h1 : low ≤ alpha) (h2 : alpha ≤ up) :
    (bruntRange low up).1 ≤ s * alpha - o ∧ s * alpha - o ≤ (bruntRange low up).2 := by
  rw [abs_le] at hs ho
  unfold bruntRange
  simp only
  have a0 : 0 ≤ alpha := le_trans h0 h1
  constructor
  · nlinarith [mul_le_mul_of_nonneg_right (show (1.52 - 0.18 : ℝ) ≤ s by linarith [hs.1]) a0]
  · nlinarith [mul_le_mul_of_nonneg_right (show s ≤ (1.52 + 0.18 : ℝ) by linarith [hs.2]) a0]

example : bruntCorrect 0.5 = 0.57 ∧ (bruntRange 0.4 0.6).1 ≤ 0.57 := by
  constructor <;> norm_num [bruntCorrect, bruntRange]

end TS
