import Mathlib.Analysis.InnerProductSpace.PiL2
import Mathlib.Algebra.BigOperators.Fin

/-! Minkowski and Cauchy–Schwarz for finite sums indexed by `range n`. -/

namespace TS
open Finset

/-- `sqrt (∑ f i ^ 2)`. -/
noncomputable def l2 (n : ℕ) (f : ℕ → ℝ) : ℝ := Real.sqrt (∑ i ∈ range n, f i ^ 2)

theorem l2_nonneg (n : ℕ) (f : ℕ → ℝ) : 0 ≤ l2 n f := Real.sqrt_nonneg _

theorem l2_eq_norm (n : ℕ) (f : ℕ → ℝ) :
    l2 n f = ‖(WithLp.toLp 2 (fun i : Fin n => f i) : EuclideanSpace ℝ (Fin n))‖ := by
  rw [EuclideanSpace.norm_eq, l2, Finset.sum_range]
  simp

theorem l2_triangle (n : ℕ) (f g : ℕ → ℝ) : l2 n (fun i => f i + g i) ≤ l2 n f + l2 n g := by
  rw [l2_eq_norm, l2_eq_norm, l2_eq_norm]
  exact norm_add_le (WithLp.toLp 2 (fun i : Fin n => f i) : EuclideanSpace ℝ (Fin n))
    (WithLp.toLp 2 (fun i : Fin n => g i))

theorem l2_congr {n : ℕ} {f g : ℕ → ℝ} (h : ∀ i < n, f i ^ 2 = g i ^ 2) : l2 n f = l2 n g := by
  unfold l2; congr 1
  exact Finset.sum_congr rfl (fun i hi => h i (Finset.mem_range.1 hi))

theorem l2_eq_zero {n : ℕ} {f : ℕ → ℝ} : l2 n f = 0 ↔ ∀ i < n, f i = 0 := by
  unfold l2
  rw [Real.sqrt_eq_zero (Finset.sum_nonneg (fun i _ => sq_nonneg _)),
    Finset.sum_eq_zero_iff_of_nonneg (fun i _ => sq_nonneg _)]
  simp

/-- The triangle inequality for differences. -/
theorem l2_sub_triangle (n : ℕ) (f g h : ℕ → ℝ) :
    l2 n (fun i => f i - h i) ≤ l2 n (fun i => f i - g i) + l2 n (fun i => g i - h i) := by
  have := l2_triangle n (fun i => f i - g i) (fun i => g i - h i)
  refine le_trans (le_of_eq ?_) this
  apply l2_congr; intro i _; ring

theorem l2_sub_comm (n : ℕ) (f g : ℕ → ℝ) : l2 n (fun i => f i - g i) = l2 n (fun i => g i - f i) := by
  apply l2_congr; intro i _; ring

theorem l2_const_mul (n : ℕ) (c : ℝ) (f : ℕ → ℝ) : l2 n (fun i => c * f i) = |c| * l2 n f := by
  unfold l2
  rw [← Real.sqrt_sq_eq_abs, ← Real.sqrt_mul (sq_nonneg c), Finset.mul_sum]
  congr 1
  exact Finset.sum_congr rfl (fun i _ => by ring)

end TS
