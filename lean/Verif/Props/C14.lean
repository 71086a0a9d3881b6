import Verif.Model.EllipPlaw
import Verif.Props.C13

/-! C14 — symmetries of the elliptical power-law model. -/

namespace TS

/-- The quadratic form is that of an ellipse with axis ratio `q`, rotated by `theta`. -/
theorem C14_ellipse (x y q theta : ℝ) :
    ellipQuad x y q theta =
      q ^ 2 * (x * Real.cos theta - y * Real.sin theta) ^ 2
        + (x * Real.sin theta + y * Real.cos theta) ^ 2 := by
  simp only [ellipQuad]; ring

/-- The ellipticity is always in `(0, 1]`. -/
theorem C14_ellip_range (e : Option ℝ) : 0 < ellipOf e ∧ ellipOf e ≤ 1 := by
  cases e with
  | none => simp [ellipOf]
  | some e =>
    have := Real.exp_pos (-e)
    simp only [ellipOf]
    constructor
    · positivity
    · rw [div_le_one (by positivity)]; linarith

/-- Away from the origin the logarithm's argument is positive, so the model is finite there. -/
theorem C14_positive (x y theta : ℝ) (e : Option ℝ) (h : x ≠ 0 ∨ y ≠ 0) :
    0 < ellipQuad x y (ellipOf e) theta := by
  obtain ⟨hq, -⟩ := C14_ellip_range e
  rw [C14_ellipse]
  set u := x * Real.cos theta - y * Real.sin theta with hu
  set v := x * Real.sin theta + y * Real.cos theta with hv
  have hsum : u ^ 2 + v ^ 2 = x ^ 2 + y ^ 2 := by
    rw [hu, hv]
    have := Real.sin_sq_add_cos_sq theta
    nlinarith [this]
  have hpos : 0 < x ^ 2 + y ^ 2 := by
    rcases h with h | h
    · have := sq_nonneg y; have : 0 < x ^ 2 := by positivity
      linarith
    · have := sq_nonneg x; have : 0 < y ^ 2 := by positivity
      linarith
  by_cases hu0 : u = 0
  · rw [hu0] at hsum ⊢
    nlinarith
  · have h2 : 0 < (ellipOf e) ^ 2 * u ^ 2 := by positivity
    nlinarith [sq_nonneg v]

/-- The position angle only matters modulo `π` (hence modulo any multiple of it). -/
theorem C14_theta_mod_pi (x y amp gamma theta : ℝ) (e : Option ℝ) (k : ℤ) :
    ellipEvaluate x y amp e (theta + k * Real.pi) gamma = ellipEvaluate x y amp e theta gamma := by
  have : ellipQuad x y (ellipOf e) (theta + k * Real.pi) = ellipQuad x y (ellipOf e) theta := by
    have h1 : Real.cos (theta + k * Real.pi) = (-1) ^ k * Real.cos theta := Real.cos_add_int_mul_pi _ _
    have h2 : Real.sin (theta + k * Real.pi) = (-1) ^ k * Real.sin theta := Real.sin_add_int_mul_pi _ _
    have h3 : ((-1 : ℝ) ^ k) ^ 2 = 1 := by
      rw [← zpow_natCast, ← zpow_mul, mul_comm, zpow_mul]; norm_num
    rw [C14_ellipse, C14_ellipse, h1, h2]
    linear_combination (ellipOf e ^ 2 * (x * Real.cos theta - y * Real.sin theta) ^ 2
        + (x * Real.sin theta + y * Real.cos theta) ^ 2) * h3
  simp only [ellipEvaluate, this]

/-- An isotropic model (ellipticity 1) does not depend on the position angle: it is the plain
power law in the radius. -/
theorem C14_isotropic (x y amp gamma theta : ℝ) (h : x ≠ 0 ∨ y ≠ 0) :
    ellipEvaluate x y amp none theta gamma = amp + gamma * log10 (Real.sqrt (x ^ 2 + y ^ 2)) := by
  have hq : ellipQuad x y (ellipOf none) theta = x ^ 2 + y ^ 2 := by
    rw [C14_ellipse]
    have := Real.sin_sq_add_cos_sq theta
    simp only [ellipOf]
    nlinarith [this]
  have hpos := C14_positive x y theta none h
  simp only [ellipEvaluate]
  rw [if_neg hpos.ne', hq]
  rw [hq] at hpos
  simp only [log10, Real.logb, Real.log_sqrt hpos.le]
  ring

/-- Point symmetry about zero frequency. -/
theorem C14_point_symmetric (x y amp gamma theta : ℝ) (e : Option ℝ) :
    ellipEvaluate (-x) (-y) amp e theta gamma = ellipEvaluate x y amp e theta gamma := by
  have : ellipQuad (-x) (-y) (ellipOf e) theta = ellipQuad x y (ellipOf e) theta := by
    simp only [ellipQuad]; ring
  simp only [ellipEvaluate, this]

/-- Along every ray from the origin the (logarithmic) model has slope `gamma`. -/
theorem C14_slope_along_rays (x y amp gamma theta s : ℝ) (e : Option ℝ) (h : x ≠ 0 ∨ y ≠ 0)
    (hs : 0 < s) :
    ellipEvaluate (s * x) (s * y) amp e theta gamma
      = ellipEvaluate x y amp e theta gamma + gamma * log10 s := by
  have hq : ellipQuad (s * x) (s * y) (ellipOf e) theta = s ^ 2 * ellipQuad x y (ellipOf e) theta := by
    simp only [ellipQuad]; ring
  have hpos := C14_positive x y theta e h
  simp only [ellipEvaluate]
  rw [if_neg hpos.ne', hq, if_neg (by positivity)]
  simp only [log10, Real.logb, Real.log_mul (by positivity : s ^ 2 ≠ 0) hpos.ne', Real.log_pow]
  push_cast
  ring

/-- The effective radius lies between the true radius shrunk by the ellipticity and the true
radius. -/
theorem C14_effective_radius (x y theta : ℝ) (e : Option ℝ) :
    ellipOf e ^ 2 * (x ^ 2 + y ^ 2) ≤ ellipQuad x y (ellipOf e) theta ∧
    ellipQuad x y (ellipOf e) theta ≤ x ^ 2 + y ^ 2 := by
  obtain ⟨h0, h1⟩ := C14_ellip_range e
  rw [C14_ellipse]
  have hsum : (x * Real.cos theta - y * Real.sin theta) ^ 2
      + (x * Real.sin theta + y * Real.cos theta) ^ 2 = x ^ 2 + y ^ 2 := by
    have := Real.sin_sq_add_cos_sq theta
    nlinarith [this]
  have hq : ellipOf e ^ 2 ≤ 1 := by nlinarith
  rw [← hsum]
  constructor <;> nlinarith [sq_nonneg (x * Real.cos theta - y * Real.sin theta),
    sq_nonneg (x * Real.sin theta + y * Real.cos theta)]

/-- The value reported at the origin is 0. -/
theorem C14_origin (amp gamma theta : ℝ) (e : Option ℝ) :
    ellipEvaluate 0 0 amp e theta gamma = 0 := by
  simp [ellipEvaluate, ellipQuad]

/-- The reported angle `params[2] % pi` lies in `[0, π)` and describes the same model. -/
theorem C14_reported_theta (x y amp gamma p : ℝ) (e : Option ℝ) :
    0 ≤ modPi p ∧ modPi p < Real.pi ∧
    ellipEvaluate x y amp e (modPi p) gamma = ellipEvaluate x y amp e p gamma := by
  have hp := Real.pi_pos
  have h1 := Int.floor_le (p / Real.pi)
  have h2 := Int.lt_floor_add_one (p / Real.pi)
  rw [le_div_iff₀ hp] at h1
  rw [div_lt_iff₀ hp] at h2
  refine ⟨by unfold modPi; linarith, by unfold modPi; linarith, ?_⟩
  have : modPi p = p + (-⌊p / Real.pi⌋ : ℤ) * Real.pi := by unfold modPi; push_cast; ring
  rw [this, C14_theta_mod_pi]

/-- The reported ellipticity is the one used by the model, for every finite fitted value. -/
theorem C14_reported_ellip (p : ℝ) : inverseIntervalTransform p 0 1 = ellipOf (some p) := by
  simp [inverseIntervalTransform, ellipOf]

example : ellipEvaluate 1 2 0 (some 0) 0 (-2) ≠ ellipEvaluate 2 1 0 (some 0) 0 (-2) := by
  have h1 := C14_positive 1 2 0 (some 0) (by norm_num)
  have h2 := C14_positive 2 1 0 (some 0) (by norm_num)
  simp only [ellipEvaluate]
  rw [if_neg h1.ne', if_neg h2.ne']
  intro h
  have h3 : log10 (ellipQuad 1 2 (ellipOf (some 0)) 0) = log10 (ellipQuad 2 1 (ellipOf (some 0)) 0) := by
    linarith
  have h4 := Real.logb_injOn_pos (by norm_num : (1 : ℝ) < 10) (Set.mem_Ioi.2 h1) (Set.mem_Ioi.2 h2) h3
  rw [C14_ellipse, C14_ellipse] at h4
  norm_num [ellipOf] at h4

end TS
