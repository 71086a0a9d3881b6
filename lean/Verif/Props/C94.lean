import Verif.Model.EllipseBoot
import Verif.Props.C90
import Verif.Props.C93
import Mathlib.Analysis.Calculus.Deriv.Basic
import Mathlib.Analysis.SpecialFunctions.Trigonometric.Deriv
import Mathlib.Topology.Order.Compact

/-! C94 — the residuals and the errors of a fitted ellipse. -/

namespace TS
open Matrix

namespace Spec

/-- Distance of two points of the plane. -/
noncomputable def planeDist (x y : ℝ × ℝ) : ℝ := Real.sqrt ((x.1 - y.1) ^ 2 + (x.2 - y.2) ^ 2)

/-- `d` is the shortest distance from `x` to the points of the curve. -/
def Shortest (curve : ℝ × ℝ → Prop) (x : ℝ × ℝ) (d : ℝ) : Prop :=
  (∃ y, curve y ∧ planeDist x y = d) ∧ ∀ y, curve y → d ≤ planeDist x y

/-- The ellipse with the given parameters. -/
def EllipseOf (p : EllipseParams) : ℝ × ℝ → Prop := OnEllipse p.xc p.yc p.a p.b p.theta

/-- The minimiser, started at `s`, finds the least value of `f`. -/
def FindsLeast (ls : (ℝ → ℝ) → ℝ → ℝ) (f : ℝ → ℝ) (s : ℝ) : Prop := ∀ t, f (ls f s) ≤ f t

/-- The minimiser does not end above its starting point. -/
def Descends (ls : (ℝ → ℝ) → ℝ → ℝ) : Prop := ∀ (f : ℝ → ℝ) (s : ℝ), f (ls f s) ≤ f s

/-- The minimiser stays where the derivative vanishes. -/
def StopsAtStationary (ls : (ℝ → ℝ) → ℝ → ℝ) : Prop := ∀ f s, HasDerivAt f 0 s → ls f s = s

/-- Half the distance of the two percentiles that enclose the fraction `alpha` of the values. -/
def HalfRange (v : List ℝ) (alpha e : ℝ) : Prop :=
  ∃ lo hi, IsPercentile v (50 - 50 * alpha) lo ∧ IsPercentile v (50 + 50 * alpha) hi ∧ e = (hi - lo) / 2

/-- Signs and weights as `np.random.choice([-1, 1])` and `np.random.dirichlet((1, 1))` draw them. -/
def LegalDraw {n : ℕ} (d : EllipseDraw n) : Prop :=
  Function.Bijective d.perm ∧ ∀ i, 0 ≤ (d.weight i).1 ∧ 0 ≤ (d.weight i).2 ∧ (d.weight i).1 + (d.weight i).2 = 1 ∧
    ((d.sign i).1 = 1 ∨ (d.sign i).1 = -1) ∧ ((d.sign i).2 = 1 ∨ (d.sign i).2 = -1)

end Spec
open Spec

/-! ### The points of the ellipse -/

private theorem unit_param (u v : ℝ) (h : u ^ 2 + v ^ 2 = 1) : ∃ t, Real.cos t = u ∧ Real.sin t = v := by
  have hz : (⟨u, v⟩ : ℂ) ≠ 0 := by
    intro h0
    have h1 : u = 0 := congrArg Complex.re h0
    have h2 : v = 0 := congrArg Complex.im h0
    rw [h1, h2] at h; norm_num at h
  have hn : ‖(⟨u, v⟩ : ℂ)‖ = 1 := by
    rw [Complex.norm_def, Complex.normSq_mk, ← sq, ← sq, h, Real.sqrt_one]
  exact ⟨Complex.arg ⟨u, v⟩, by rw [Complex.cos_arg hz, hn, div_one], by rw [Complex.sin_arg, hn, div_one]⟩

private theorem on_curve (p : EllipseParams) (ha : 0 < p.a) (hb : 0 < p.b) (x : ℝ × ℝ) : EllipseOf p x ↔ ∃ t, predictXY p t = x := by
  unfold EllipseOf OnEllipse predictXY
  set c := Real.cos p.theta with hc
  set s := Real.sin p.theta with hs
  have hcs : c ^ 2 + s ^ 2 = 1 := Real.cos_sq_add_sin_sq p.theta
  constructor
  · intro h
    obtain ⟨t, h1, h2⟩ := unit_param _ _ h
    refine ⟨t, Prod.ext ?_ ?_⟩
    · show p.xc + p.a * c * Real.cos t - p.b * s * Real.sin t = x.1
      rw [h1, h2]
      field_simp
      linear_combination (x.1 - p.xc) * hcs
    · show p.yc + p.a * s * Real.cos t + p.b * c * Real.sin t = x.2
      rw [h1, h2]
      field_simp
      linear_combination (x.2 - p.yc) * hcs
  · rintro ⟨t, rfl⟩
    have e1 : (c * (p.xc + p.a * c * Real.cos t - p.b * s * Real.sin t - p.xc) +
        s * (p.yc + p.a * s * Real.cos t + p.b * c * Real.sin t - p.yc)) / p.a = Real.cos t := by
      rw [div_eq_iff ha.ne']
      linear_combination p.a * Real.cos t * hcs
    have e2 : (-s * (p.xc + p.a * c * Real.cos t - p.b * s * Real.sin t - p.xc) +
        c * (p.yc + p.a * s * Real.cos t + p.b * c * Real.sin t - p.yc)) / p.b = Real.sin t := by
      rw [div_eq_iff hb.ne']
      linear_combination p.b * Real.sin t * hcs
    show ((_ : ℝ) / _) ^ 2 + (_ / _) ^ 2 = 1
    rw [e1, e2, Real.cos_sq_add_sin_sq]

private theorem sqDist_eq (p : EllipseParams) (x : ℝ × ℝ) (t : ℝ) : Real.sqrt (ellipseSqDist p x t) = planeDist x (predictXY p t) := rfl

/-! ### Residuals -/

/-- **C94 (a point of the ellipse).** Whatever the minimiser does, the residual is the distance to some point of the ellipse, so it is
never below the shortest distance. -/
theorem C94_residual_bound (ls : (ℝ → ℝ) → ℝ → ℝ) (p : EllipseParams) (ha : 0 < p.a) (hb : 0 < p.b) (x : ℝ × ℝ) :
    (∃ y, EllipseOf p y ∧ ellipseResidual ls p x = planeDist x y) ∧ ∀ d, Shortest (EllipseOf p) x d → d ≤ ellipseResidual ls p x := by
  have h : EllipseOf p (predictXY p (ls (ellipseSqDist p x) (ellipseStart p x))) := (on_curve p ha hb _).2 ⟨_, rfl⟩
  exact ⟨⟨_, h, rfl⟩, fun d hd => hd.2 _ h⟩

/-- **C94 (shortest distance).** With a minimiser that finds the least value the residual is the shortest distance to the ellipse.
Missing for the full claim: `leastsq` only finds a local minimum. -/
theorem C94_shortest_partial (ls : (ℝ → ℝ) → ℝ → ℝ) (p : EllipseParams) (ha : 0 < p.a) (hb : 0 < p.b) (x : ℝ × ℝ)
    (hls : FindsLeast ls (ellipseSqDist p x) (ellipseStart p x)) : Shortest (EllipseOf p) x (ellipseResidual ls p x) := by
  refine ⟨⟨_, (on_curve p ha hb _).2 ⟨_, rfl⟩, rfl⟩, fun y hy => ?_⟩
  obtain ⟨t, rfl⟩ := (on_curve p ha hb y).1 hy
  exact Real.sqrt_le_sqrt (hls t)

/-- The hypothesis of the theorem can be met for all ellipses and points at once. -/
theorem findsLeast_exists : ∃ ls : (ℝ → ℝ) → ℝ → ℝ, ∀ p x, FindsLeast ls (ellipseSqDist p x) (ellipseStart p x) := by
  classical
  have hmin : ∀ p x, ∃ t, ∀ s, ellipseSqDist p x t ≤ ellipseSqDist p x s := by
    intro p x
    have hcont : Continuous (ellipseSqDist p x) := by
      unfold ellipseSqDist predictXY
      fun_prop
    obtain ⟨t, -, ht⟩ := (isCompact_Icc (a := (0 : ℝ)) (b := 2 * Real.pi)).exists_isMinOn
      ⟨0, Set.left_mem_Icc.2 (by positivity)⟩ hcont.continuousOn
    refine ⟨t, fun s => ?_⟩
    have hper : Function.Periodic (ellipseSqDist p x) (2 * Real.pi) := by
      intro s
      unfold ellipseSqDist predictXY
      rw [Real.cos_add_two_pi, Real.sin_add_two_pi]
    obtain ⟨s', hs', he⟩ := hper.exists_mem_Ico₀ (by positivity) s
    rw [he]
    exact ht (Set.Ico_subset_Icc_self hs')
  refine ⟨fun f s => if h : ∃ t, ∀ u, f t ≤ f u then h.choose else s, fun p x t => ?_⟩
  have h := hmin p x
  have e : (if h : ∃ t, ∀ u, ellipseSqDist p x t ≤ ellipseSqDist p x u then h.choose else ellipseStart p x) = h.choose := dif_pos h
  show ellipseSqDist p x (if h : ∃ t, ∀ u, ellipseSqDist p x t ≤ ellipseSqDist p x u then h.choose else ellipseStart p x) ≤ _
  rw [e]
  exact h.choose_spec t

private theorem start_circle (p : EllipseParams) (r : ℝ) (ha : p.a = r) (hb : p.b = r) (x : ℝ × ℝ) (φ : ℝ) :
    predictXY p (φ - p.theta) = (p.xc + r * Real.cos φ, p.yc + r * Real.sin φ) := by
  unfold predictXY
  have hcs := Real.cos_sq_add_sin_sq p.theta
  rw [ha, hb, Real.cos_sub, Real.sin_sub]
  refine Prod.ext ?_ ?_
  · show p.xc + _ - _ = p.xc + _
    linear_combination r * Real.cos φ * hcs
  · show p.yc + _ + _ = p.yc + _
    linear_combination r * Real.sin φ * hcs

/-- **C94 (circle).** For a circle every minimiser that does not climb gives the exact distance `|r - distance to the centre|`: the
starting point is already the closest point. -/
theorem C94_circle (ls : (ℝ → ℝ) → ℝ → ℝ) (hls : Descends ls) (p : EllipseParams) (r : ℝ) (hr : 0 < r) (ha : p.a = r) (hb : p.b = r)
    (x : ℝ × ℝ) : ellipseResidual ls p x = |r - planeDist x (p.xc, p.yc)| := by
  set u := x.1 - p.xc with hu
  set v := x.2 - p.yc with hv
  set ρ := planeDist x (p.xc, p.yc) with hρ
  have hρ0 : 0 ≤ ρ := Real.sqrt_nonneg _
  have hρ2 : ρ ^ 2 = u ^ 2 + v ^ 2 := Real.sq_sqrt (by positivity)
  have hnorm : ‖(⟨u, v⟩ : ℂ)‖ = ρ := by
    rw [Complex.norm_def, Complex.normSq_mk, ← sq, ← sq]; rfl
  have hcos : ρ * Real.cos (arctan2 v u) = u := by
    rw [← hnorm]; exact Complex.norm_mul_cos_arg ⟨u, v⟩
  have hsin : ρ * Real.sin (arctan2 v u) = v := by
    rw [← hnorm]; exact Complex.norm_mul_sin_arg ⟨u, v⟩
  have val : ∀ φ, ellipseSqDist p x (φ - p.theta) = ρ ^ 2 + r ^ 2 - 2 * r * (u * Real.cos φ + v * Real.sin φ) := by
    intro φ
    unfold ellipseSqDist
    rw [start_circle p r ha hb x, hρ2]
    have := Real.cos_sq_add_sin_sq φ
    show (x.1 - (p.xc + r * Real.cos φ)) ^ 2 + (x.2 - (p.yc + r * Real.sin φ)) ^ 2 = _
    linear_combination r ^ 2 * this
  have hstart : ellipseSqDist p x (ellipseStart p x) = (r - ρ) ^ 2 := by
    show ellipseSqDist p x (arctan2 v u - p.theta) = _
    rw [val]
    have := Real.cos_sq_add_sin_sq (arctan2 v u)
    have h2 : u * Real.cos (arctan2 v u) + v * Real.sin (arctan2 v u) = ρ := by
      linear_combination ρ * this - Real.cos (arctan2 v u) * hcos - Real.sin (arctan2 v u) * hsin
    rw [h2]; ring
  have hlow : ∀ t, (r - ρ) ^ 2 ≤ ellipseSqDist p x t := by
    intro t
    rw [show t = t + p.theta - p.theta by ring, val]
    have h1 := Real.cos_sq_add_sin_sq (t + p.theta)
    have h2 : u * Real.cos (t + p.theta) + v * Real.sin (t + p.theta) ≤ ρ := by
      refine le_of_sq_le_sq ?_ hρ0
      rw [hρ2]
      nlinarith [sq_nonneg (u * Real.sin (t + p.theta) - v * Real.cos (t + p.theta))]
    nlinarith
  unfold ellipseResidual
  rw [← Real.sqrt_sq_eq_abs]
  congr 1
  exact le_antisymm ((hls _ _).trans hstart.le) (hlow _)

/-- **C94 violated (shortest distance).** Points on the long axis near the centre: the starting point is the end of the axis, where the
derivative vanishes, so a minimiser that stops at stationary points reports the distance to that end although other points of the
ellipse are closer. -/
theorem C94_shortest_violated (ls : (ℝ → ℝ) → ℝ → ℝ) (hls : StopsAtStationary ls) (p : EllipseParams) (hb : 0 < p.b) (hab : p.b < p.a)
    (u : ℝ) (hu : 0 < u) (hua : p.a * u < p.a ^ 2 - p.b ^ 2) :
    let x := (p.xc + u * Real.cos p.theta, p.yc + u * Real.sin p.theta)
    ellipseResidual ls p x = p.a - u ∧ ∃ y, EllipseOf p y ∧ planeDist x y < p.a - u := by
  intro x
  have ha : 0 < p.a := hb.trans hab
  set c := Real.cos p.theta with hc
  set s := Real.sin p.theta with hs
  have hcs : c ^ 2 + s ^ 2 = 1 := Real.cos_sq_add_sin_sq p.theta
  have hform : ∀ t, ellipseSqDist p x t = (u - p.a * Real.cos t) ^ 2 + (p.b * Real.sin t) ^ 2 := by
    intro t
    show (p.xc + u * c - (p.xc + p.a * c * Real.cos t - p.b * s * Real.sin t)) ^ 2 +
      (p.yc + u * s - (p.yc + p.a * s * Real.cos t + p.b * c * Real.sin t)) ^ 2 = _
    linear_combination ((u - p.a * Real.cos t) ^ 2 + (p.b * Real.sin t) ^ 2) * hcs
  have hua' : u < p.a := by nlinarith [sq_nonneg p.b]
  have hz : (⟨u * c, u * s⟩ : ℂ) ≠ 0 := by
    intro h
    have h1 : u * c = 0 := congrArg Complex.re h
    have h2 : u * s = 0 := congrArg Complex.im h
    have h3 : u ^ 2 = 0 := by linear_combination u * c * h1 + u * s * h2 - u ^ 2 * hcs
    exact hu.ne' (pow_eq_zero_iff two_ne_zero |>.1 h3)
  have hn : ‖(⟨u * c, u * s⟩ : ℂ)‖ = u := by
    rw [Complex.norm_def, Complex.normSq_mk, show u * c * (u * c) + u * s * (u * s) = u ^ 2 by linear_combination u ^ 2 * hcs,
      Real.sqrt_sq hu.le]
  have hst : ellipseStart p x = Complex.arg ⟨u * c, u * s⟩ - p.theta := by
    show arctan2 (p.yc + u * s - p.yc) (p.xc + u * c - p.xc) - p.theta = _
    rw [add_sub_cancel_left, add_sub_cancel_left]; rfl
  have hca : Real.cos (Complex.arg ⟨u * c, u * s⟩) = c := by
    rw [Complex.cos_arg hz, hn]; exact mul_div_cancel_left₀ c hu.ne'
  have hsa : Real.sin (Complex.arg ⟨u * c, u * s⟩) = s := by
    rw [Complex.sin_arg, hn]; exact mul_div_cancel_left₀ s hu.ne'
  have hc1 : Real.cos (ellipseStart p x) = 1 := by
    rw [hst, Real.cos_sub, hca, hsa]; linear_combination hcs
  have hs0 : Real.sin (ellipseStart p x) = 0 := by
    rw [hst, Real.sin_sub, hca, hsa]; ring
  have hder : HasDerivAt (ellipseSqDist p x) 0 (ellipseStart p x) := by
    have hfun : ellipseSqDist p x = fun t => (u - p.a * Real.cos t) ^ 2 + (p.b * Real.sin t) ^ 2 := funext hform
    rw [hfun]
    have h1 := (((Real.hasDerivAt_cos (ellipseStart p x)).const_mul p.a).const_sub u).pow 2
    have h2 := ((Real.hasDerivAt_sin (ellipseStart p x)).const_mul p.b).pow 2
    have h3 := h1.add h2
    rw [hs0] at h3
    refine h3.congr_deriv ?_
    ring
  constructor
  · unfold ellipseResidual
    rw [hls _ _ hder, hform, hc1, hs0, show (u - p.a * 1) ^ 2 + (p.b * 0) ^ 2 = (p.a - u) ^ 2 by ring, Real.sqrt_sq (by linarith)]
  · have hden : 0 < p.a ^ 2 - p.b ^ 2 := lt_trans (mul_pos ha hu) hua
    set k := p.a * u / (p.a ^ 2 - p.b ^ 2) with hk
    have hk1 : k < 1 := (div_lt_one hden).2 hua
    have hk0 : 0 < k := div_pos (mul_pos ha hu) hden
    have hkd : k * (p.a ^ 2 - p.b ^ 2) = p.a * u := div_mul_cancel₀ _ hden.ne'
    have hcos : Real.cos (Real.arccos k) = k := Real.cos_arccos (by linarith) hk1.le
    refine ⟨predictXY p (Real.arccos k), (on_curve p ha hb _).2 ⟨_, rfl⟩, ?_⟩
    rw [← sqDist_eq, hform, hcos]
    have hsin := Real.cos_sq_add_sin_sq (Real.arccos k)
    rw [hcos] at hsin
    refine (Real.sqrt_lt' (by linarith)).2 ?_
    have e : (p.a - u) ^ 2 - ((u - p.a * k) ^ 2 + (p.b * Real.sin (Real.arccos k)) ^ 2) = (p.a ^ 2 - p.b ^ 2) * (1 - k) ^ 2 := by
      linear_combination (-p.b ^ 2) * hsin + 2 * (1 - k) * hkd
    have : 0 < (p.a ^ 2 - p.b ^ 2) * (1 - k) ^ 2 := mul_pos hden (pow_pos (by linarith) 2)
    linarith

/-! ### Resampling -/

/-- **C94 violated (distance).** The resampled point is not at the resampled distance from the point of the data, as the comment in the
code says, but nearer, by a factor down to `1 / √2`, unless one of the weights is 0. -/
theorem C94_distance_violated {n : ℕ} (pts : Fin n → ℝ × ℝ) (resid : Fin n → ℝ) (d : EllipseDraw n) (hd : LegalDraw d) (i : Fin n)
    (hr : 0 < resid (d.perm i)) :
    planeDist (ellipseResample pts resid d i) (pts i) ≤ resid (d.perm i) ∧
    resid (d.perm i) / Real.sqrt 2 ≤ planeDist (ellipseResample pts resid d i) (pts i) ∧
    (planeDist (ellipseResample pts resid d i) (pts i) = resid (d.perm i) ↔ (d.weight i).1 = 0 ∨ (d.weight i).2 = 0) := by
  obtain ⟨w1, w2, hw, s1, s2⟩ := hd.2 i
  set r := resid (d.perm i) with hrd
  set a := (d.weight i).1 with ha
  set b := (d.weight i).2 with hb
  have e1 : (d.sign i).1 ^ 2 = 1 := by rcases s1 with h | h <;> rw [h] <;> norm_num
  have e2 : (d.sign i).2 ^ 2 = 1 := by rcases s2 with h | h <;> rw [h] <;> norm_num
  have hdist : planeDist (ellipseResample pts resid d i) (pts i) = r * Real.sqrt (a ^ 2 + b ^ 2) := by
    have : planeDist (ellipseResample pts resid d i) (pts i) = Real.sqrt (r ^ 2 * (a ^ 2 + b ^ 2)) := by
      show Real.sqrt (((pts i).1 + r * a * (d.sign i).1 - (pts i).1) ^ 2 + ((pts i).2 + r * b * (d.sign i).2 - (pts i).2) ^ 2) = _
      congr 1
      linear_combination r ^ 2 * a ^ 2 * e1 + r ^ 2 * b ^ 2 * e2
    rw [this, Real.sqrt_mul (sq_nonneg r), Real.sqrt_sq hr.le]
  have hsq : a ^ 2 + b ^ 2 = 1 - 2 * (a * b) := by
    have : (a + b) ^ 2 = 1 := by rw [hw, one_pow]
    linear_combination this
  have hab : 0 ≤ a * b := mul_nonneg w1 w2
  have hle : Real.sqrt (a ^ 2 + b ^ 2) ≤ 1 := Real.sqrt_le_one.2 (by linarith)
  rw [hdist]
  refine ⟨by nlinarith, ?_, ?_⟩
  · rw [div_le_iff₀ (by positivity), mul_assoc, ← Real.sqrt_mul (by positivity)]
    have : 1 ≤ Real.sqrt ((a ^ 2 + b ^ 2) * 2) := Real.one_le_sqrt.2 (by nlinarith [sq_nonneg (a - b)])
    nlinarith
  · constructor
    · intro h
      have h1 : Real.sqrt (a ^ 2 + b ^ 2) = 1 := by
        have : r * Real.sqrt (a ^ 2 + b ^ 2) = r * 1 := by rw [h, mul_one]
        exact mul_left_cancel₀ hr.ne' this
      have h2 : a ^ 2 + b ^ 2 = 1 := Real.sqrt_eq_one.1 h1
      exact mul_eq_zero.1 (by linarith)
    · intro h
      have : a * b = 0 := mul_eq_zero.2 h
      rw [hsq, this, mul_zero, sub_zero, Real.sqrt_one, mul_one]

/-- **C94 violated (base).** The resampled residuals are added to the data, not to the fitted ellipse: a point outside a fitted circle
that gets its own residual in an outward direction ends up farther from the circle than it was. -/
theorem C94_base_violated (ls : (ℝ → ℝ) → ℝ → ℝ) (hls : Descends ls) (p : EllipseParams) (r : ℝ) (hr : 0 < r) (ha : p.a = r) (hb : p.b = r)
    {n : ℕ} (pts : Fin n → ℝ × ℝ) (d : EllipseDraw n) (hd : LegalDraw d) (i : Fin n) (hperm : d.perm i = i)
    (hout : r < planeDist (pts i) (p.xc, p.yc)) (h1 : 0 < (d.sign i).1 * ((pts i).1 - p.xc)) (h2 : 0 ≤ (d.sign i).2 * ((pts i).2 - p.yc)) :
    let resid := fun i => ellipseResidual ls p (pts i)
    resid i < ellipseResidual ls p (ellipseResample pts resid d i) := by
  intro resid
  obtain ⟨w1, w2, hw, s1, s2⟩ := hd.2 i
  have e1 : (d.sign i).1 ^ 2 = 1 := by rcases s1 with h | h <;> rw [h] <;> norm_num
  have e2 : (d.sign i).2 ^ 2 = 1 := by rcases s2 with h | h <;> rw [h] <;> norm_num
  have hres : resid i = planeDist (pts i) (p.xc, p.yc) - r := by
    show ellipseResidual ls p (pts i) = _
    rw [C94_circle ls hls p r hr ha hb, abs_of_neg (by linarith)]; ring
  have hpos : 0 < resid i := by rw [hres]; linarith
  have hfar : planeDist (pts i) (p.xc, p.yc) < planeDist (ellipseResample pts resid d i) (p.xc, p.yc) := by
    unfold planeDist
    refine Real.sqrt_lt_sqrt (by positivity) ?_
    show _ < ((pts i).1 + resid (d.perm i) * (d.weight i).1 * (d.sign i).1 - p.xc) ^ 2 +
      ((pts i).2 + resid (d.perm i) * (d.weight i).2 * (d.sign i).2 - p.yc) ^ 2
    rw [hperm]
    show ((pts i).1 - p.xc) ^ 2 + ((pts i).2 - p.yc) ^ 2 < _
    generalize (d.weight i).1 = a at *
    generalize (d.weight i).2 = b at *
    generalize (d.sign i).1 = σ at *
    generalize (d.sign i).2 = τ at *
    generalize resid i = ρ at *
    have key : ((pts i).1 + ρ * a * σ - p.xc) ^ 2 + ((pts i).2 + ρ * b * τ - p.yc) ^ 2 =
        ((pts i).1 - p.xc) ^ 2 + ((pts i).2 - p.yc) ^ 2 + 2 * ρ * (a * (σ * ((pts i).1 - p.xc)) + b * (τ * ((pts i).2 - p.yc))) +
          ρ ^ 2 * (a ^ 2 + b ^ 2) := by
      linear_combination ρ ^ 2 * a ^ 2 * e1 + ρ ^ 2 * b ^ 2 * e2
    rw [key]
    have t1 : 0 ≤ 2 * ρ * (a * (σ * ((pts i).1 - p.xc)) + b * (τ * ((pts i).2 - p.yc))) := by positivity
    have t2 : 0 < a ^ 2 + b ^ 2 := by nlinarith [sq_nonneg (a - b)]
    have t3 : 0 < ρ ^ 2 * (a ^ 2 + b ^ 2) := by positivity
    linarith
  rw [C94_circle ls hls p r hr ha hb, abs_of_neg (by linarith), hres]
  linarith

/-! ### Errors -/

private theorem errsOf_some {alpha : ℝ} {fits : List (Option EllipseParams)} {E : EllipseParams} (h : ellipseErrsOf alpha fits = some E) :
    ∃ ps : List EllipseParams, fits = ps.map some ∧ E.xc = halfRange alpha (ps.map EllipseParams.xc) ∧
      E.yc = halfRange alpha (ps.map EllipseParams.yc) ∧ E.a = halfRange alpha (ps.map EllipseParams.a) ∧
      E.b = halfRange alpha (ps.map EllipseParams.b) ∧ E.theta = halfRange alpha (ps.map EllipseParams.theta) := by
  unfold ellipseErrsOf at h
  split_ifs at h with hn
  cases h
  refine ⟨fits.filterMap id, ?_, rfl, rfl, rfl, rfl, rfl⟩
  clear * - hn
  induction fits with
  | nil => rfl
  | cons f fs ih =>
    cases f with
    | none => simp at hn
    | some q => exact congrArg (some q :: ·) (ih (by simpa using hn))

private theorem half_spec {alpha : ℝ} (h0 : 0 ≤ alpha) (h1 : alpha < 1) {v : List ℝ} (hv : v ≠ []) :
    HalfRange v alpha (halfRange alpha v) ∧ 0 ≤ halfRange alpha v := by
  have elo : 100 * (0.5 - alpha / 2) = 50 - 50 * alpha := by ring
  have ehi : 100 * (0.5 + alpha / 2) = 50 + 50 * alpha := by ring
  have plo := pct_ok hv (q := 50 - 50 * alpha) (by linarith) (by linarith)
  have phi := pct_ok hv (q := 50 + 50 * alpha) (by linarith) (by linarith)
  have hval : validVals (v.map some) = v := by unfold validVals; simp
  unfold halfRange
  rw [elo, ehi]
  refine ⟨⟨npPercentile v (50 - 50 * alpha), npPercentile v (50 + 50 * alpha), ?_, ?_, ?_⟩, ?_⟩
  · have := (C85_percentile plo).1; rwa [hval] at this
  · have := (C85_percentile phi).1; rwa [hval] at this
  · ring
  · have := C85_percentile_mono plo phi (by linarith)
    linarith

private theorem half_mono {alpha beta : ℝ} (h0 : 0 ≤ alpha) (hab : alpha ≤ beta) (h1 : beta < 1) {v : List ℝ} (hv : v ≠ []) :
    halfRange alpha v ≤ halfRange beta v := by
  have e : ∀ z : ℝ, 100 * (0.5 - z / 2) = 50 - 50 * z ∧ 100 * (0.5 + z / 2) = 50 + 50 * z := fun z => ⟨by ring, by ring⟩
  unfold halfRange
  rw [(e alpha).1, (e alpha).2, (e beta).1, (e beta).2]
  have l1 := C85_percentile_mono (pct_ok hv (q := 50 - 50 * beta) (by linarith) (by linarith))
    (pct_ok hv (q := 50 - 50 * alpha) (by linarith) (by linarith)) (by linarith)
  have l2 := C85_percentile_mono (pct_ok hv (q := 50 + 50 * alpha) (by linarith) (by linarith))
    (pct_ok hv (q := 50 + 50 * beta) (by linarith) (by linarith)) (by linarith)
  linarith

private theorem half_const {alpha : ℝ} (h0 : 0 ≤ alpha) (h1 : alpha < 1) {v : List ℝ} (hv : v ≠ []) (c : ℝ) (hc : ∀ z ∈ v, z = c) :
    halfRange alpha v = 0 := by
  have val : ∀ q, 0 ≤ q → q ≤ 100 → npPercentile v q = c := by
    intro q hq0 hq1
    have hval : validVals (v.map some) = v := by unfold validVals; simp
    obtain ⟨-, ⟨a, ha, hle⟩, b, hb, hge⟩ := C85_percentile (pct_ok hv hq0 hq1)
    rw [hval] at ha hb
    rw [hc a ha] at hle
    rw [hc b hb] at hge
    exact le_antisymm hge hle
  unfold halfRange
  rw [val _ (by linarith) (by linarith), val _ (by linarith) (by linarith), sub_self, mul_zero]

private theorem stderrs_ok {ext : EllipseExt} {p : Option EllipseParams} {n : ℕ} {pts : Fin n → ℝ × ℝ} {draws : List (EllipseDraw n)}
    {alpha : ℝ} {E : Option EllipseParams} (h : ellipseStderrs ext p pts draws alpha = .ok E) :
    ∃ q, p = some q ∧ 0 ≤ alpha ∧ alpha < 1 ∧ draws ≠ [] ∧ E = ellipseErrsOf alpha
      (draws.map fun d => ellipseEstimate ext.eig (ellipseResample pts (fun i => ellipseResidual ext.leastsq q (pts i)) d)) := by
  unfold ellipseStderrs at h
  cases p with
  | none => cases h
  | some q =>
    dsimp only at h
    split_ifs at h with h1 h2
    push Not at h1
    cases h
    exact ⟨q, rfl, h1.1, h1.2, h2, rfl⟩

/-- **C94 (errors).** Errors are returned only if every resampled fit succeeded; then the error of each of the five parameters is half the
distance of the percentiles `50 ∓ 50 alpha` of its values in the resampled fits, and is not negative. -/
theorem C94_errors {ext : EllipseExt} {p : Option EllipseParams} {n : ℕ} {pts : Fin n → ℝ × ℝ} {draws : List (EllipseDraw n)}
    {alpha : ℝ} {E : EllipseParams} (h : ellipseStderrs ext p pts draws alpha = .ok (some E)) :
    ∃ q, p = some q ∧ 0 ≤ alpha ∧ alpha < 1 ∧ ∃ ps : List EllipseParams,
      List.Forall₂ (fun d P => ellipseEstimate ext.eig (fun i => ((pts i).1 + ellipseResidual ext.leastsq q (pts (d.perm i)) * (d.weight i).1 * (d.sign i).1,
        (pts i).2 + ellipseResidual ext.leastsq q (pts (d.perm i)) * (d.weight i).2 * (d.sign i).2)) = some P) draws ps ∧
      ∀ (f : EllipseParams → ℝ), f ∈ [EllipseParams.xc, EllipseParams.yc, EllipseParams.a, EllipseParams.b, EllipseParams.theta] →
        HalfRange (ps.map f) alpha (f E) ∧ 0 ≤ f E := by
  obtain ⟨q, hq, h0, h1, hne, hE⟩ := stderrs_ok h
  obtain ⟨ps, hps, e1, e2, e3, e4, e5⟩ := errsOf_some hE.symm
  refine ⟨q, hq, h0, h1, ps, ?_, ?_⟩
  · have h2 : List.Forall₂ (fun a b => a = some b) (draws.map fun d => ellipseEstimate ext.eig (ellipseResample pts
        (fun i => ellipseResidual ext.leastsq q (pts i)) d)) ps := by
      rw [hps, List.forall₂_map_left_iff]
      exact List.forall₂_same.2 fun _ _ => rfl
    exact List.forall₂_map_left_iff.1 h2
  · have hpn : ps ≠ [] := by
      rintro rfl
      exact hne (List.map_eq_nil_iff.1 hps)
    have hmn : ∀ f : EllipseParams → ℝ, ps.map f ≠ [] := fun f hf => hpn (List.map_eq_nil_iff.1 hf)
    intro f hf
    simp only [List.mem_cons, List.not_mem_nil, or_false] at hf
    rcases hf with rfl | rfl | rfl | rfl | rfl
    · rw [e1]; exact half_spec h0 h1 (hmn _)
    · rw [e2]; exact half_spec h0 h1 (hmn _)
    · rw [e3]; exact half_spec h0 h1 (hmn _)
    · rw [e4]; exact half_spec h0 h1 (hmn _)
    · rw [e5]; exact half_spec h0 h1 (hmn _)

/-- **C94 (confidence).** With the same random numbers a larger `alpha` never gives smaller errors, and `alpha = 0` gives errors 0. -/
theorem C94_alpha {ext : EllipseExt} {p : Option EllipseParams} {n : ℕ} {pts : Fin n → ℝ × ℝ} {draws : List (EllipseDraw n)}
    {alpha beta : ℝ} {E F : EllipseParams} (h : ellipseStderrs ext p pts draws alpha = .ok (some E))
    (h' : ellipseStderrs ext p pts draws beta = .ok (some F)) (hab : alpha ≤ beta) (f : EllipseParams → ℝ)
    (hf : f ∈ [EllipseParams.xc, EllipseParams.yc, EllipseParams.a, EllipseParams.b, EllipseParams.theta]) :
    f E ≤ f F ∧ (alpha = 0 → f E = 0) := by
  obtain ⟨q, hq, h0, h1, hne, hE⟩ := stderrs_ok h
  obtain ⟨q', hq', h0', h1', -, hF⟩ := stderrs_ok h'
  have hqq : q' = q := Option.some.inj (hq'.symm.trans hq)
  subst hqq
  obtain ⟨ps, hps, e1, e2, e3, e4, e5⟩ := errsOf_some hE.symm
  obtain ⟨ps', hps', f1, f2, f3, f4, f5⟩ := errsOf_some hF.symm
  have hpp : ps' = ps := List.map_injective_iff.2 (Option.some_injective _) (hps'.symm.trans hps)
  subst hpp
  have hmn : ∀ f : EllipseParams → ℝ, ps'.map f ≠ [] := by
    intro f hf
    rw [List.map_eq_nil_iff.1 hf] at hps
    exact hne (List.map_eq_nil_iff.1 hps)
  have hz : ∀ v : List ℝ, alpha = 0 → halfRange alpha v = 0 := by
    intro v h0
    unfold halfRange
    rw [h0, zero_div, add_zero, sub_zero, sub_self, mul_zero]
  simp only [List.mem_cons, List.not_mem_nil, or_false] at hf
  rcases hf with rfl | rfl | rfl | rfl | rfl
  · rw [e1, f1]; exact ⟨half_mono h0 hab h1' (hmn _), hz _⟩
  · rw [e2, f2]; exact ⟨half_mono h0 hab h1' (hmn _), hz _⟩
  · rw [e3, f3]; exact ⟨half_mono h0 hab h1' (hmn _), hz _⟩
  · rw [e4, f4]; exact ⟨half_mono h0 hab h1' (hmn _), hz _⟩
  · rw [e5, f5]; exact ⟨half_mono h0 hab h1' (hmn _), hz _⟩

/-- **C94 (exact data).** Five or more different points of an ellipse have residuals 0 and errors 0, whatever the random numbers, when the
minimiser finds the closest points of the fitted ellipse for the data.  Missing
for the full claim: ellipses tilted by exactly 45 degrees, for which the fitted angle is wrong (`C90_tilt_violated`). -/
theorem C94_exact_partial (ext : EllipseExt) {n : ℕ} (pts : Fin n → ℝ × ℝ) (x0 y0 p q th : ℝ)
    (hp : 0 < p) (hq : 0 < q) (hon : ∀ i, OnEllipse x0 y0 p q th (pts i)) (h5 : 5 ≤ (Finset.univ.image pts).card)
    (hth : p = q ∨ Real.cos (2 * th) ≠ 0) (heig : Eigenbasis (reducedScatter pts) (ext.eig (reducedScatter pts)))
    (hls : ∀ P i, ellipseEstimate ext.eig pts = some P → FindsLeast ext.leastsq (ellipseSqDist P (pts i)) (ellipseStart P (pts i)))
    (draws : List (EllipseDraw n)) (hdr : draws ≠ []) (alpha : ℝ) (h0 : 0 ≤ alpha) (h1 : alpha < 1) :
    ∃ P, ellipseEstimate ext.eig pts = some P ∧ (∀ i, ellipseResidual ext.leastsq P (pts i) = 0) ∧
      ellipseStderrs ext (some P) pts draws alpha = .ok (some ⟨0, 0, 0, 0, 0⟩) ∧
      fit2DEllipseErrs ext pts draws alpha = .ok ⟨some (P.b / Real.sqrt 2), some (P.a / Real.sqrt 2), some 0, some 0⟩ := by
  obtain ⟨P, hP, -, -, -, hcurve⟩ := C90_exact_partial ext.eig pts x0 y0 p q th hp hq hon h5 heig
  have hres : ∀ i, ellipseResidual ext.leastsq P (pts i) = 0 := by
    intro i
    obtain ⟨t, ht⟩ := (hcurve hth (pts i)).1 (hon i)
    unfold ellipseResidual
    refine Real.sqrt_eq_zero'.2 ((hls P i hP t).trans (le_of_eq ?_))
    unfold ellipseSqDist
    rw [ht]; ring
  have hsame : ∀ d : EllipseDraw n, ellipseResample pts (fun i => ellipseResidual ext.leastsq P (pts i)) d = pts := by
    intro d
    funext i
    unfold ellipseResample
    simp only [hres, zero_mul, add_zero]
  have herr : ellipseStderrs ext (some P) pts draws alpha = .ok (some ⟨0, 0, 0, 0, 0⟩) := by
    unfold ellipseStderrs
    simp only [hsame, hP]
    rw [if_neg (by push Not; exact ⟨h0, h1⟩), if_neg hdr]
    congr 1
    unfold ellipseErrsOf
    have hany : ((draws.map fun _ => some P).any fun f => f.isNone) = false := by simp
    have hfil : (draws.map fun _ => some P).filterMap id = draws.map fun _ => P := by
      rw [List.filterMap_map]
      simp [Function.comp_def]
    rw [hany, hfil, if_neg (by simp)]
    have hz : ∀ f : EllipseParams → ℝ, halfRange alpha ((draws.map fun _ => P).map f) = 0 := by
      intro f
      refine half_const h0 h1 (by simpa using hdr) (f P) ?_
      intro z hz
      simp only [List.map_map, List.mem_map, Function.comp_apply] at hz
      obtain ⟨_, _, rfl⟩ := hz
      rfl
    simp only [hz]
  refine ⟨P, hP, hres, herr, ?_⟩
  unfold fit2DEllipseErrs
  simp only [hP, herr, Option.map_some, zero_div]

/-- **C94 violated (one failed fit).** One resampled fit that fails makes the errors of all five parameters NaN, although the widths are
returned. -/
theorem C94_failed_violated (ext : EllipseExt) {n : ℕ} (pts : Fin n → ℝ × ℝ) (P : EllipseParams) (hP : ellipseEstimate ext.eig pts = some P)
    (draws : List (EllipseDraw n)) (alpha : ℝ) (h0 : 0 ≤ alpha) (h1 : alpha < 1) (d : EllipseDraw n) (hd : d ∈ draws)
    (hfail : ellipseEstimate ext.eig (ellipseResample pts (fun i => ellipseResidual ext.leastsq P (pts i)) d) = none) :
    ellipseStderrs ext (some P) pts draws alpha = .ok none ∧
    fit2DEllipseErrs ext pts draws alpha = .ok ⟨some (P.b / Real.sqrt 2), some (P.a / Real.sqrt 2), none, none⟩ := by
  have herr : ellipseStderrs ext (some P) pts draws alpha = .ok none := by
    unfold ellipseStderrs
    dsimp only
    rw [if_neg (by push Not; exact ⟨h0, h1⟩), if_neg (List.ne_nil_of_mem hd)]
    congr 1
    unfold ellipseErrsOf
    refine if_pos (List.any_eq_true.2 ⟨none, List.mem_map.2 ⟨d, hd, hfail⟩, rfl⟩)
  refine ⟨herr, ?_⟩
  unfold fit2DEllipseErrs
  simp only [hP, herr, Option.map_some, Option.map_none]

/-- **C94 (refusals).** Without fitted parameters, or with `alpha` outside `[0, 1)`, the errors are refused with ValueError. -/
theorem C94_refused (ext : EllipseExt) (p : Option EllipseParams) {n : ℕ} (pts : Fin n → ℝ × ℝ) (draws : List (EllipseDraw n)) (alpha : ℝ) :
    ellipseStderrs ext p pts draws alpha = .error .valueError ↔ p = none ∨ alpha < 0 ∨ 1 ≤ alpha := by
  unfold ellipseStderrs
  cases p with
  | none => simp
  | some q =>
    dsimp only
    split_ifs with h1 h2 <;> simp [h1]

/-- **C94 (no iterations).** Without iterations (`niters=0`) a successful fit ends with the IndexError of `np.percentile`, which
`fit_2D_ellipse` does not catch. -/
theorem C94_no_iterations (ext : EllipseExt) {n : ℕ} (pts : Fin n → ℝ × ℝ) (P : EllipseParams) (hP : ellipseEstimate ext.eig pts = some P)
    (alpha : ℝ) (h0 : 0 ≤ alpha) (h1 : alpha < 1) :
    ellipseStderrs ext (some P) pts [] alpha = .error .indexError ∧ fit2DEllipseErrs ext pts [] alpha = .error .indexError := by
  have h : ellipseStderrs ext (some P) pts [] alpha = .error .indexError := by
    unfold ellipseStderrs
    dsimp only
    rw [if_neg (by push Not; exact ⟨h0, h1⟩), if_pos rfl]
  refine ⟨h, ?_⟩
  unfold fit2DEllipseErrs
  simp only [hP, h]

/-- **C94 (widths).** If the fit and the errors succeed, the widths along y and x are the second and the first semi-axis over `√2`, and
their errors the errors of those semi-axes over `√2`; if the fit fails all four are NaN. -/
theorem C94_widths (ext : EllipseExt) {n : ℕ} (pts : Fin n → ℝ × ℝ) (draws : List (EllipseDraw n)) (alpha : ℝ) :
    (∀ P E, ellipseEstimate ext.eig pts = some P → ellipseStderrs ext (some P) pts draws alpha = .ok (some E) →
      fit2DEllipseErrs ext pts draws alpha =
        .ok ⟨some (P.b / Real.sqrt 2), some (P.a / Real.sqrt 2), some (E.b / Real.sqrt 2), some (E.a / Real.sqrt 2)⟩) ∧
    (ellipseEstimate ext.eig pts = none → fit2DEllipseErrs ext pts draws alpha = .ok ⟨none, none, none, none⟩) := by
  constructor
  · intro P E hP hE
    unfold fit2DEllipseErrs
    simp only [hP, hE, Option.map_some]
  · intro h
    unfold fit2DEllipseErrs
    simp only [h, ellipseStderrs]

/-- **C94 violated (bad alpha).** `fit_2D_ellipse` does not report an `alpha` outside `[0, 1)`: the widths of a successful fit become
NaN. -/
theorem C94_bad_alpha_violated (ext : EllipseExt) {n : ℕ} (pts : Fin n → ℝ × ℝ) (draws : List (EllipseDraw n)) (alpha : ℝ)
    (h : alpha < 0 ∨ 1 ≤ alpha) : fit2DEllipseErrs ext pts draws alpha = .ok ⟨none, none, none, none⟩ := by
  unfold fit2DEllipseErrs
  simp only [(C94_refused ext (ellipseEstimate ext.eig pts) pts draws alpha).2 (Or.inr h)]

/-! ### The sign of the eigenvectors -/

private theorem conic_neg (a b c d f g : ℝ) :
    (conicParams (-a) (-b) (-c) (-d) (-f) (-g)).xc = (conicParams a b c d f g).xc ∧
    (conicParams (-a) (-b) (-c) (-d) (-f) (-g)).yc = (conicParams a b c d f g).yc ∧
    (conicParams (-a) (-b) (-c) (-d) (-f) (-g)).a = (conicParams a b c d f g).b ∧
    (conicParams (-a) (-b) (-c) (-d) (-f) (-g)).b = (conicParams a b c d f g).a := by
  unfold conicParams
  dsimp only
  have hT : Real.sqrt ((-a - -c) ^ 2 + 4 * (-b / 2) ^ 2) = Real.sqrt ((a - c) ^ 2 + 4 * (b / 2) ^ 2) := by congr 1; ring
  rw [hT]
  generalize Real.sqrt ((a - c) ^ 2 + 4 * (b / 2) ^ 2) = T
  refine ⟨by congr 1 <;> ring, by congr 1 <;> ring, ?_, ?_⟩
  · congr 1
    rw [← neg_div_neg_eq]
    congr 1 <;> ring
  · congr 1
    rw [← neg_div_neg_eq]
    congr 1 <;> ring

/-- **C94 violated (sign).** Eigenvectors are determined up to their sign, and the fit depends on it: with the opposite signs, which are
eigenvectors as well, the two semi-axes change places, hence the widths along x and y do. -/
theorem C94_sign_violated (eig : Matrix (Fin 3) (Fin 3) ℝ → Matrix (Fin 3) (Fin 3) ℝ) {n : ℕ} (pts : Fin n → ℝ × ℝ) (P : EllipseParams)
    (hP : ellipseEstimate eig pts = some P) :
    (∀ M, Eigenbasis M (eig M) → Eigenbasis M (-eig M)) ∧
    ∃ Q, ellipseEstimate (fun M => -eig M) pts = some Q ∧ Q.xc = P.xc ∧ Q.yc = P.yc ∧ Q.a = P.b ∧ Q.b = P.a := by
  constructor
  · rintro M ⟨hd, he⟩
    refine ⟨?_, fun j => ?_⟩
    · rw [Matrix.det_neg]; simpa using hd
    · obtain ⟨l, hl⟩ := he j
      refine ⟨l, ?_⟩
      have e : (fun i => (-eig M) i j) = -(fun i => eig M i j) := rfl
      rw [e, Matrix.mulVec_neg, hl, smul_neg]
  · unfold ellipseEstimate at hP ⊢
    split_ifs at hP ⊢ with hdet
    have hell : ∀ j, ellipticity (fun i => (-eig (reducedScatter pts)) i j) = ellipticity (fun i => eig (reducedScatter pts) i j) := by
      intro j
      unfold ellipticity
      simp only [Matrix.neg_apply]
      ring
    simp only [hell]
    dsimp only at hP
    generalize (List.finRange 3).filter (fun j => decide (0 < ellipticity (fun i => eig (reducedScatter pts) i j))) = l at hP
    match l, hP with
    | [j], hP =>
      dsimp only at hP ⊢
      refine ⟨_, rfl, ?_⟩
      have hlin : linearPart pts (fun i => (-eig (reducedScatter pts)) i j) = -linearPart pts (fun i => eig (reducedScatter pts) i j) := by
        have e : (fun i => (-eig (reducedScatter pts)) i j) = -(fun i => eig (reducedScatter pts) i j) := rfl
        unfold linearPart
        rw [e, Matrix.mulVec_neg]
      rw [hlin]
      rw [← Option.some.inj hP]
      exact conic_neg _ _ _ _ _ _

/-! ### Concrete cases -/

/-- Twelve points of a circle: errors 0 with any random numbers. -/
example : ∃ ext : EllipseExt, ext.eig = eigTwelve ∧ ∀ draws : List (EllipseDraw 12), draws ≠ [] →
    ∃ P, ellipseStderrs ext (some P) twelve draws 0.6827 = .ok (some ⟨0, 0, 0, 0, 0⟩) := by
  obtain ⟨ls, hls⟩ := findsLeast_exists
  refine ⟨⟨eigTwelve, ls⟩, rfl, fun draws hd => ?_⟩
  obtain ⟨P, -, -, h, -⟩ := C94_exact_partial ⟨eigTwelve, ls⟩ twelve 0 0 5 5 0 (by norm_num) (by norm_num) twelve_on twelve_card (Or.inl rfl)
    twelve_eig (fun P i _ => hls P (twelve i)) draws hd 0.6827 (by norm_num) (by norm_num)
  exact ⟨P, h⟩

/-- The point `(1/2, 0)` and the ellipse with semi-axes 2 and 1: the distance reported is 3/2. -/
example : ellipseResidual (fun _ s => s) ⟨0, 0, 2, 1, 0⟩ (1 / 2, 0) = 3 / 2 := by
  have h := (C94_shortest_violated (fun _ s => s) (fun _ _ _ => rfl) ⟨0, 0, 2, 1, 0⟩ one_pos (by norm_num) (1 / 2) (by norm_num)
    (by norm_num)).1
  simp only [Real.cos_zero, Real.sin_zero] at h
  norm_num at h ⊢
  exact h

/-- A legal draw for one point, which moves the point `(2, 0)` outside the unit circle away from it. -/
example : ∃ d : EllipseDraw 1, LegalDraw d ∧
    ellipseResidual (fun _ s => s) ⟨0, 0, 1, 1, 0⟩ (2, 0) <
      ellipseResidual (fun _ s => s) ⟨0, 0, 1, 1, 0⟩ (ellipseResample (fun _ => (2, 0))
        (fun _ => ellipseResidual (fun _ s => s) ⟨0, 0, 1, 1, 0⟩ (2, 0)) d 0) := by
  have hd : LegalDraw (n := 1) ⟨id, fun _ => (1 / 2, 1 / 2), fun _ => (1, 1)⟩ :=
    ⟨Function.bijective_id, fun _ => ⟨by norm_num, by norm_num, by norm_num, Or.inl rfl, Or.inl rfl⟩⟩
  refine ⟨_, hd, ?_⟩
  refine C94_base_violated (fun _ s => s) (fun _ _ => le_rfl) ⟨0, 0, 1, 1, 0⟩ 1 one_pos rfl rfl (fun _ => (2, 0)) _ hd 0 rfl ?_ ?_ ?_
  · have : planeDist (2, 0) (0, 0) = 2 := by
      unfold planeDist
      rw [show ((2 : ℝ) - 0) ^ 2 + (0 - 0) ^ 2 = 2 ^ 2 by norm_num, Real.sqrt_sq (by norm_num)]
    show (1 : ℝ) < planeDist (2, 0) (0, 0)
    rw [this]; norm_num
  · norm_num
  · norm_num

private theorem flat_fails (eig : Matrix (Fin 3) (Fin 3) ℝ → Matrix (Fin 3) (Fin 3) ℝ) {n : ℕ} (pts : Fin n → ℝ × ℝ) (h : ∀ i, (pts i).2 = 0) :
    ellipseEstimate eig pts = none := by
  unfold ellipseEstimate
  refine if_pos ?_
  refine Matrix.det_eq_zero_of_row_eq_zero 1 fun j => ?_
  unfold scatter3
  rw [Matrix.mul_apply]
  refine Finset.sum_eq_zero fun i _ => ?_
  have : (designLin pts)ᵀ 1 i = 0 := h i
  rw [this, zero_mul]

/-- A legal draw for the twelve points of a circle for which a minimiser that stops at the mirrored points makes the resampled fit fail. -/
example : ∃ (ext : EllipseExt) (P : EllipseParams) (d : EllipseDraw 12), LegalDraw d ∧ ellipseEstimate ext.eig twelve = some P ∧
    ellipseStderrs ext (some P) twelve [d] 0.6827 = .ok none := by
  obtain ⟨P, h, hx, hy, hab, -⟩ :=
    C90_exact_partial eigTwelve twelve 0 0 5 5 0 (by norm_num) (by norm_num) twelve_on twelve_card twelve_eig
  have ha : P.a = 5 := by rcases hab with h | h <;> exact h.1
  have hb : P.b = 5 := by rcases hab with h | h <;> exact h.2
  let ls : (ℝ → ℝ) → ℝ → ℝ := fun _ s => -(s + P.theta) - P.theta
  let d : EllipseDraw 12 := ⟨id, fun _ => (1 / 2, 1 / 2), fun i => (1, if 0 ≤ (twelve i).2 then -1 else 1)⟩
  have hd : LegalDraw d := by
    refine ⟨Function.bijective_id, fun i => ⟨by norm_num [d], by norm_num [d], by norm_num [d], Or.inl rfl, ?_⟩⟩
    show (if 0 ≤ (twelve i).2 then (-1 : ℝ) else 1) = 1 ∨ (if 0 ≤ (twelve i).2 then (-1 : ℝ) else 1) = -1
    split_ifs
    · exact Or.inr rfl
    · exact Or.inl rfl
  have hres : ∀ i, ellipseResidual ls P (twelve i) = 2 * |(twelve i).2| := by
    intro i
    have hon := twelve_on i
    unfold OnEllipse at hon
    rw [Real.cos_zero, Real.sin_zero] at hon
    have hnorm : ‖(⟨(twelve i).1, (twelve i).2⟩ : ℂ)‖ = 5 := by
      rw [Complex.norm_def, Complex.normSq_mk, show (twelve i).1 * (twelve i).1 + (twelve i).2 * (twelve i).2 = 5 ^ 2 by
        field_simp at hon; linarith, Real.sqrt_sq (by norm_num)]
    have hc : 5 * Real.cos (Complex.arg ⟨(twelve i).1, (twelve i).2⟩) = (twelve i).1 := by
      rw [← hnorm]; exact Complex.norm_mul_cos_arg ⟨(twelve i).1, (twelve i).2⟩
    have hs : 5 * Real.sin (Complex.arg ⟨(twelve i).1, (twelve i).2⟩) = (twelve i).2 := by
      rw [← hnorm]; exact Complex.norm_mul_sin_arg ⟨(twelve i).1, (twelve i).2⟩
    have hst : ls (ellipseSqDist P (twelve i)) (ellipseStart P (twelve i)) = -Complex.arg ⟨(twelve i).1, (twelve i).2⟩ - P.theta := by
      show -(arctan2 ((twelve i).2 - P.yc) ((twelve i).1 - P.xc) - P.theta + P.theta) - P.theta = _
      rw [hx, hy, sub_zero, sub_zero, sub_add_cancel]
      rfl
    unfold ellipseResidual ellipseSqDist
    rw [hst, start_circle P 5 ha hb (twelve i), Real.cos_neg, Real.sin_neg, hx, hy]
    show Real.sqrt (((twelve i).1 - (0 + 5 * Real.cos _)) ^ 2 + ((twelve i).2 - (0 + 5 * -Real.sin _)) ^ 2) = _
    rw [show (5 : ℝ) * -Real.sin (Complex.arg ⟨(twelve i).1, (twelve i).2⟩) = -(5 * Real.sin (Complex.arg ⟨(twelve i).1, (twelve i).2⟩)) by ring, hc, hs,
      show ((twelve i).1 - (0 + (twelve i).1)) ^ 2 + ((twelve i).2 - (0 + -(twelve i).2)) ^ 2 = (2 * (twelve i).2) ^ 2 by ring,
      Real.sqrt_sq_eq_abs, abs_mul, abs_of_pos (by norm_num : (0 : ℝ) < 2)]
  refine ⟨⟨eigTwelve, ls⟩, P, d, hd, h, ?_⟩
  refine (C94_failed_violated ⟨eigTwelve, ls⟩ twelve P h [d] 0.6827 (by norm_num) (by norm_num) d List.mem_cons_self ?_).1
  refine flat_fails _ _ fun i => ?_
  show (twelve i).2 + ellipseResidual ls P (twelve i) * (1 / 2) * (if 0 ≤ (twelve i).2 then (-1 : ℝ) else 1) = 0
  rw [hres]
  split_ifs with h0
  · rw [abs_of_nonneg h0]; ring
  · rw [abs_of_neg (not_le.1 h0)]; ring

end TS
