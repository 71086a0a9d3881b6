import Mathlib.Analysis.InnerProductSpace.PiL2

/-! Minkowski's inequality for weighted sums over a finite set. -/

namespace TS
open Finset

theorem minkowski {ι : Type*} (s : Finset ι) (f g : ι → ℝ) :
    Real.sqrt (∑ i ∈ s, (f i + g i) ^ 2) ≤ Real.sqrt (∑ i ∈ s, f i ^ 2) + Real.sqrt (∑ i ∈ s, g i ^ 2) := by
  have key : ∀ h : ι → ℝ, Real.sqrt (∑ i ∈ s, h i ^ 2) =
      ‖(WithLp.toLp 2 (fun i : s => h i) : EuclideanSpace ℝ s)‖ := by
    intro h
    rw [EuclideanSpace.norm_eq, ← Finset.sum_coe_sort]
    simp
  rw [key, key, key]
  exact norm_add_le (WithLp.toLp 2 (fun i : s => f i) : EuclideanSpace ℝ s)
    (WithLp.toLp 2 (fun i : s => g i))

/-- With non-negative weights. -/
theorem minkowski_weighted {ι : Type*} (s : Finset ι) (w f g h : ι → ℝ) (hw : ∀ i ∈ s, 0 ≤ w i) :
    Real.sqrt (∑ i ∈ s, (f i - h i) ^ 2 * w i) ≤
      Real.sqrt (∑ i ∈ s, (f i - g i) ^ 2 * w i) + Real.sqrt (∑ i ∈ s, (g i - h i) ^ 2 * w i) := by
  have key : ∀ u : ι → ℝ, ∑ i ∈ s, u i ^ 2 * w i = ∑ i ∈ s, (Real.sqrt (w i) * u i) ^ 2 := by
    intro u
    apply sum_congr rfl; intro i hi
    rw [mul_pow, Real.sq_sqrt (hw i hi)]; ring
  rw [key (fun i => f i - h i), key (fun i => f i - g i), key (fun i => g i - h i)]
  refine le_trans (le_of_eq ?_) (minkowski s _ _)
  congr 1
  apply sum_congr rfl; intro i _
  ring

end TS
