import Verif.Model.Apodizing

/-! Distances behind C08. -/

namespace TS

theorem radialDistance_flip0 {n m i j : ℕ} (hi : i < n) :
    radialDistance n m (n - 1 - i) j = radialDistance n m i j := by
  unfold radialDistance
  have : ((n - 1 - i : ℕ) : ℝ) = (n : ℝ) - 1 - i := by
    rw [Nat.cast_sub (by omega), Nat.cast_sub (by omega)]; simp
  simp only [this]; congr 1; ring

theorem radialDistance_flip1 {n m i j : ℕ} (hj : j < m) :
    radialDistance n m i (m - 1 - j) = radialDistance n m i j := by
  unfold radialDistance
  have : ((m - 1 - j : ℕ) : ℝ) = (m : ℝ) - 1 - j := by
    rw [Nat.cast_sub (by omega), Nat.cast_sub (by omega)]; simp
  simp only [this]; congr 1; ring

theorem radialDistance_mono {n m i j i' j' : ℕ}
    (h : (2 * (i : ℤ) - (n - 1)) ^ 2 + (2 * (j : ℤ) - (m - 1)) ^ 2 ≤
      (2 * (i' : ℤ) - (n - 1)) ^ 2 + (2 * (j' : ℤ) - (m - 1)) ^ 2) :
    radialDistance n m i j ≤ radialDistance n m i' j' := by
  unfold radialDistance
  apply Real.sqrt_le_sqrt
  have h' : ((2 * (i : ℝ) - (n - 1)) ^ 2 + (2 * (j : ℝ) - (m - 1)) ^ 2 : ℝ) ≤
      (2 * (i' : ℝ) - (n - 1)) ^ 2 + (2 * (j' : ℝ) - (m - 1)) ^ 2 := by exact_mod_cast h
  nlinarith

end TS
