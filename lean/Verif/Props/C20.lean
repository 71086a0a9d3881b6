import Verif.Model.StatsUtils

/-! C20 — the factor between two pixel scales. -/

namespace TS

namespace Spec
/-- Pixels are square to within `tol`. -/
def Square (w : WcsScales) (tol : ℝ) : Prop := |w.s0 - w.s1| ≤ tol
end Spec

/-- A result is given exactly for two undistorted grids with square pixels (of non-zero size), and it
is the factor that brings the first pixel scale to the second. -/
theorem C20_factor (w1 w2 : WcsScales) (tol : ℝ) (h0 : w1.s0 ≠ 0) :
    ((∃ s, commonScale w1 w2 tol = .ok s) ↔
      w1.distorted = false ∧ w2.distorted = false ∧ Spec.Square w1 tol ∧ Spec.Square w2 tol) ∧
    ∀ s, commonScale w1 w2 tol = .ok s → s * w1.s0 = w2.s0 := by
  unfold commonScale Spec.Square
  by_cases d1 : w1.distorted = true
  · simp [d1]
  by_cases d2 : w2.distorted = true
  · simp [d1, d2]
  by_cases t1 : tol < |w1.s0 - w1.s1|
  · simp [d1, d2, t1]
  by_cases t2 : tol < |w2.s0 - w2.s1|
  · simp [d1, d2, t1, t2]
  rw [not_lt] at t1 t2
  rw [Bool.not_eq_true] at d1 d2
  simp only [d1, d2, Bool.false_eq_true, if_false, if_neg (not_lt.2 t1), if_neg (not_lt.2 t2), if_neg h0]
  refine ⟨?_, ?_⟩
  · simp [t1, t2]
  · rintro s hs
    cases hs
    exact div_mul_cancel₀ _ h0

/-- Distorted grids raise `WcsError`, non-square pixels `ValueError`. -/
theorem C20_errors (w1 w2 : WcsScales) (tol : ℝ) :
    (w1.distorted = true ∨ w2.distorted = true → commonScale w1 w2 tol = .error .wcsError) ∧
    (w1.distorted = false → w2.distorted = false → ¬ (Spec.Square w1 tol ∧ Spec.Square w2 tol) →
      commonScale w1 w2 tol = .error .valueError) := by
  unfold commonScale Spec.Square
  refine ⟨?_, ?_⟩
  · rintro (h | h) <;> simp [h]
  · intro d1 d2 h
    by_cases t1 : tol < |w1.s0 - w1.s1|
    · simp [d1, d2, t1]
    · by_cases t2 : tol < |w2.s0 - w2.s1|
      · simp [d1, d2, t1, t2]
      · exact absurd ⟨not_lt.1 t1, not_lt.1 t2⟩ h

/-- Swapping the datasets inverts the factor, equal scales give 1, and factors chain: going from the
first grid to the third directly or through the second is the same. -/
theorem C20_group (w1 w2 w3 : WcsScales) (tol a b : ℝ) (h1 : 0 < w1.s0) (h2 : 0 < w2.s0)
    (ha : commonScale w1 w2 tol = .ok a) (hb : commonScale w2 w3 tol = .ok b) :
    commonScale w2 w1 tol = .ok a⁻¹ ∧ commonScale w1 w3 tol = .ok (a * b) ∧
    (w1.s0 = w2.s0 ↔ a = 1) ∧ 0 < a := by
  obtain ⟨i12, e12⟩ := C20_factor w1 w2 tol h1.ne'
  obtain ⟨i23, e23⟩ := C20_factor w2 w3 tol h2.ne'
  obtain ⟨i21, e21⟩ := C20_factor w2 w1 tol h2.ne'
  obtain ⟨i13, e13⟩ := C20_factor w1 w3 tol h1.ne'
  obtain ⟨d1, d2, q1, q2⟩ := i12.1 ⟨a, ha⟩
  obtain ⟨_, d3, _, q3⟩ := i23.1 ⟨b, hb⟩
  have fa := e12 a ha
  have fb := e23 b hb
  have ha0 : a ≠ 0 := by rintro rfl; rw [zero_mul] at fa; linarith
  obtain ⟨c, hc⟩ := i21.2 ⟨d2, d1, q2, q1⟩
  obtain ⟨f, hf⟩ := i13.2 ⟨d1, d3, q1, q3⟩
  have fc := e21 c hc
  have ff := e13 f hf
  refine ⟨?_, ?_, ?_, ?_⟩
  · rw [hc]; congr 1
    rw [← fa] at fc
    have : (c * a) * w1.s0 = 1 * w1.s0 := by linarith
    have := mul_right_cancel₀ h1.ne' this
    exact eq_inv_of_mul_eq_one_left this
  · rw [hf]; congr 1
    rw [← fb, ← fa] at ff
    have : f * w1.s0 = (a * b) * w1.s0 := by linarith
    exact mul_right_cancel₀ h1.ne' this
  · constructor
    · intro h
      rw [← h] at fa
      have : a * w1.s0 = 1 * w1.s0 := by linarith
      exact mul_right_cancel₀ h1.ne' this
    · rintro rfl; linarith
  · by_contra hneg
    have := mul_nonpos_of_nonpos_of_nonneg (not_lt.1 hneg) h1.le
    linarith

example : commonScale ⟨false, 1/100, 1/100⟩ ⟨false, 1/50, 1/50⟩ (1/100000) = .ok 2 := by
  norm_num [commonScale]

end TS
