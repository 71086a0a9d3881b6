import Verif.Np.Core
import Verif.Np.Ranges
import Mathlib.Analysis.SpecialFunctions.Trigonometric.Basic

/-! Model of `turbustat/statistics/elliptical_powerlaw.py` (model function and transforms) and of
the angle reported by `fit_2Dpspec` in `base_pspec2.py`. -/

namespace TS

/-- elliptical_powerlaw.py:302-304 `interval_transform` (for `a < x < b`; outside, numpy returns
NaN or infinities). -/
noncomputable def intervalTransform (x a b : ℝ) : ℝ := Real.log (x - a) - Real.log (b - x)

/-- elliptical_powerlaw.py:307-309 `inverse_interval_transform`. -/
noncomputable def inverseIntervalTransform (t a b : ℝ) : ℝ := (b - a) / (1 + Real.exp (-t)) + a

/-- elliptical_powerlaw.py:312-317 `interval_transform_stderr`. -/
noncomputable def intervalTransformStderr (dx x a b : ℝ) : ℝ := |1 / (x - a) + 1 / (b - x)| * dx

/-- elliptical_powerlaw.py:320-327 `inverse_interval_transform_stderr`. -/
noncomputable def inverseIntervalTransformStderr (dt t a b : ℝ) : ℝ :=
  |(b - a) * Real.exp (-t) / (1 + Real.exp (-t)) ^ 2| * dt

/-- elliptical_powerlaw.py:241 the ellipticity; `none` stands for `ellip_transf = np.inf`
(line 95, isotropic fit), for which `exp(-inf) = 0`. -/
noncomputable def ellipOf (ellipTransf : Option ℝ) : ℝ :=
  match ellipTransf with
  | none => 1
  | some e => 1 / (1 + Real.exp (-e))

/-- elliptical_powerlaw.py:246-253 argument of the logarithm. -/
noncomputable def ellipQuad (x y q theta : ℝ) : ℝ :=
  let c := Real.cos theta
  let s := Real.sin theta
  let term1 := (q * c) ^ 2 + s ^ 2
  let term2 := 2 * (1 - q ^ 2) * s * c
  let term3 := (q * s) ^ 2 + c ^ 2
  x ^ 2 * term1 + x * y * term2 + y ^ 2 * term3

/-- elliptical_powerlaw.py:237-259 `LogEllipticalPowerLaw2D.evaluate` at one point.  `np.log10(0)`
is `-inf`, so the value is non-finite and replaced by 0 (line 257); with `gamma = 0` it is
`0 * -inf = NaN`, also replaced by 0. -/
noncomputable def ellipEvaluate (x y logamp : ℝ) (ellipTransf : Option ℝ) (theta gamma : ℝ) : ℝ :=
  let r2 := ellipQuad x y (ellipOf ellipTransf) theta
  if r2 = 0 then 0 else logamp + 0.5 * gamma * log10 r2

/-- Python `x % pi` on floats (result takes the sign of the modulus). -/
noncomputable def modPi (x : ℝ) : ℝ := x - Real.pi * ⌊x / Real.pi⌋

end TS
