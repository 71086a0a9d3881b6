import Verif.Model.BayesFit
import Verif.Props.C75
import Verif.Props.C85
import Mathlib.Analysis.SpecialFunctions.Gaussian.GaussianIntegral
import Mathlib.Analysis.SpecialFunctions.Trigonometric.Arctan

/-! C93: the Bayesian line fit (`bayes_linear`, `fit_plaw(fit_method='bayes')`). -/

namespace TS
open Spec Real

namespace Spec

/-- Normal density with standard deviation `σ` at the deviation `d`. -/
noncomputable def normalDensity (σ d : ℝ) : ℝ := exp (-(d / σ) ^ 2 / 2) / (σ * √(2 * π))

/-- Likelihood of a measured point when the true point lies somewhere on the line through `(0, b)` with the
direction `(cos θ, sin θ)`, all positions along the line being equally likely, and both coordinates have
independent normal errors. -/
noncomputable def lineLikelihood (θ b : ℝ) (q : OdrPt) : ℝ :=
  ∫ t : ℝ, normalDensity q.sx (q.x - t * cos θ) * normalDensity q.sy (q.y - (b + t * sin θ))

/-- `d` is the squared distance of a point from that line. -/
def IsSqDist (θ b : ℝ) (q : OdrPt) (d : ℝ) : Prop :=
  IsLeast {e | ∃ t : ℝ, e = (q.x - t * cos θ) ^ 2 + (q.y - (b + t * sin θ)) ^ 2} d

/-- A complete point as the program holds it. -/
def OdrPt.toErr (q : OdrPt) : ErrPt := ⟨some q.x, some q.y, some q.sx, some q.sy⟩

/-- The angles of lines that do not fall. -/
def RisingAngle (θ : ℝ) : Prop := 0 ≤ θ ∧ θ ≤ π / 2

/-- Contract of a sampler: it never returns positions of probability 0, and returns at least one. -/
def Samples (mcmc : McmcSampler) : Prop :=
  ∀ lp start chain, mcmc lp start = .ok chain → chain ≠ [] ∧ ∀ s ∈ chain, lp s.1 s.2 ≠ .negInf

/-- Order of log-probabilities that are numbers. -/
def LogP.Lt : LogP → LogP → Prop
  | .fin a, .fin b => a < b
  | .negInf, .fin _ => True
  | _, _ => False

end Spec

/-! ### Helpers -/

private theorem rising_iff (θ : ℝ) : ¬ (π / 4 < |θ - π / 4|) ↔ RisingAngle θ := by
  unfold RisingAngle
  rw [not_lt, abs_le]
  constructor
  · rintro ⟨h1, h2⟩
    constructor <;> linarith
  · rintro ⟨h1, h2⟩
    constructor <;> linarith

/-- `Sigma` of a complete point. -/
private noncomputable def sig (θ : ℝ) (q : OdrPt) : ℝ := sin θ ^ 2 * q.sx ^ 2 + cos θ ^ 2 * q.sy ^ 2

/-- `Delta` of a complete point. -/
private noncomputable def del (θ b : ℝ) (q : OdrPt) : ℝ := (cos θ * q.y - sin θ * q.x - b * cos θ) ^ 2

private theorem sig_pos (θ : ℝ) (q : OdrPt) (h : 0 < q.sx ∧ 0 < q.sy) : 0 < sig θ q := by
  unfold sig
  have hx := pow_pos h.1 2
  have hy := pow_pos h.2 2
  have h1 := sin_sq_add_cos_sq θ
  rcases (sq_nonneg (sin θ)).lt_or_eq with hs | hs
  · have := mul_pos hs hx
    have := mul_nonneg (sq_nonneg (cos θ)) hy.le
    linarith
  · have : cos θ ^ 2 = 1 := by linarith
    rw [← hs, this]
    linarith

/-- The value on complete points with positive errors. -/
private noncomputable def lpv (pts : List OdrPt) (θ b : ℝ) : ℝ :=
  -0.5 * (pts.map fun q => del θ b q / sig θ q).sum - 0.5 * (pts.map fun q => log (sig θ q)).sum

private theorem nansum_some (l : List ℝ) : nansum (l.map some) = l.sum := by
  unfold nansum
  rw [validVals_some]

private theorem lp_full (pts : List OdrPt) (hs : ∀ q ∈ pts, 0 < q.sx ∧ 0 < q.sy) {θ : ℝ} (hθ : RisingAngle θ) (b : ℝ) :
    bayesLogProb (pts.map OdrPt.toErr) θ b = .fin (lpv pts θ b) := by
  unfold bayesLogProb
  rw [if_neg ((rising_iff θ).2 hθ)]
  have hmap : ((pts.map OdrPt.toErr).map fun p => (bayesDelta θ b p, bayesSigma θ p)) =
      pts.map fun q => (some (del θ b q), some (sig θ q)) := by
    rw [List.map_map]
    rfl
  rw [hmap]
  unfold bayesSums
  rw [if_neg]
  · congr 1
    unfold lpv
    rw [List.map_map, List.map_map]
    congr 2
    · congr 1
      rw [← nansum_some, List.map_map]
      congr 1
      refine List.map_congr_left fun q hq => ?_
      simp [divO, (sig_pos θ q (hs q hq)).ne']
    · rw [← nansum_some, List.map_map]
      rfl
  · rintro ⟨t, ht, h0⟩
    obtain ⟨q, hq, rfl⟩ := List.mem_map.1 ht
    simp only [Option.some.injEq] at h0
    exact (sig_pos θ q (hs q hq)).ne' h0

/-- The line integral of the error ellipse. -/
private theorem line_integral (θ b : ℝ) (q : OdrPt) (h : 0 < q.sx ∧ 0 < q.sy) :
    lineLikelihood θ b q = exp (-(del θ b q / sig θ q) / 2) / √(2 * π * sig θ q) := by
  have hS := sig_pos θ q h
  have hx := h.1
  have hy := h.2
  set A := sig θ q / (2 * q.sx ^ 2 * q.sy ^ 2) with hA
  set t0 := (q.x * cos θ * q.sy ^ 2 + (q.y - b) * sin θ * q.sx ^ 2) / sig θ q with ht0
  have hApos : 0 < A := by positivity
  have hexp : ∀ t : ℝ, normalDensity q.sx (q.x - t * cos θ) * normalDensity q.sy (q.y - (b + t * sin θ)) =
      (exp (-(del θ b q / sig θ q) / 2) / (q.sx * √(2 * π) * (q.sy * √(2 * π)))) * exp (-A * (t - t0) ^ 2) := by
    intro t
    unfold normalDensity
    rw [div_mul_div_comm, ← Real.exp_add, div_mul_eq_mul_div, ← Real.exp_add]
    congr 2
    rw [hA, ht0]
    unfold del
    have hS' := hS.ne'
    field_simp
    unfold sig
    ring
  unfold lineLikelihood
  simp only [hexp]
  rw [MeasureTheory.integral_const_mul, MeasureTheory.integral_sub_right_eq_self (fun t => exp (-A * t ^ 2)) t0,
    integral_gaussian]
  have h2 : √(π / A) = √(2 * π) * (q.sx * q.sy) / √(sig θ q) := by
    rw [hA, show π / (sig θ q / (2 * q.sx ^ 2 * q.sy ^ 2)) = 2 * π * (q.sx * q.sy) ^ 2 / sig θ q by
      field_simp]
    rw [Real.sqrt_div (by positivity), Real.sqrt_mul (by positivity), Real.sqrt_sq (by positivity)]
  rw [h2, Real.sqrt_mul (by positivity : (0 : ℝ) ≤ 2 * π)]
  have hp : 0 < √(2 * π) := Real.sqrt_pos.2 (by positivity)
  have hs : 0 < √(sig θ q) := Real.sqrt_pos.2 hS
  field_simp

/-! ### The posterior -/

/-- **C93 (prior).** Exactly the lines that do not fall have positive probability: the log-probability is minus infinity if and only if
the angle is outside `[0, pi/2]`. -/
theorem C93_prior (pts : List ErrPt) (θ b : ℝ) : bayesLogProb pts θ b = .negInf ↔ ¬ RisingAngle θ := by
  rw [← rising_iff θ, not_not]
  unfold bayesLogProb
  split_ifs with h
  · simp [h]
  · simp only [h, iff_false]
    unfold bayesSums
    split_ifs <;> simp

/-- **C93 (likelihood).** For complete points with positive errors the probability of a line is, up to a factor that does not depend on
the line, the product of the likelihoods of the points when the true point may be anywhere on the line. -/
theorem C93_likelihood (pts : List OdrPt) (hs : ∀ q ∈ pts, 0 < q.sx ∧ 0 < q.sy) (θ b : ℝ) (hθ : RisingAngle θ) :
    ∃ v, bayesLogProb (pts.map OdrPt.toErr) θ b = .fin v ∧
      exp v = √(2 * π) ^ pts.length * (pts.map (lineLikelihood θ b)).prod := by
  refine ⟨_, lp_full pts hs hθ b, ?_⟩
  unfold lpv
  induction pts with
  | nil => simp
  | cons q l ih =>
    have hq := hs q (by simp)
    have ihl := ih fun r hr => hs r (List.mem_cons_of_mem _ hr)
    simp only [List.map_cons, List.sum_cons, List.prod_cons, List.length_cons, pow_succ]
    have hp : 0 < √(2 * π) := Real.sqrt_pos.2 (by positivity)
    have hS := sig_pos θ q hq
    have hv : exp (-(0.5 * log (sig θ q))) = (√(sig θ q))⁻¹ := by
      rw [Real.exp_neg, show (0.5 : ℝ) * log (sig θ q) = log (√(sig θ q)) by rw [Real.log_sqrt hS.le]; ring,
        Real.exp_log (Real.sqrt_pos.2 hS)]
    have hsq : 0 < √(sig θ q) := Real.sqrt_pos.2 hS
    rw [line_integral θ b q hq, Real.sqrt_mul (by positivity : (0 : ℝ) ≤ 2 * π),
      show √(2 * π) ^ l.length * √(2 * π) *
        (exp (-(del θ b q / sig θ q) / 2) / (√(2 * π) * √(sig θ q)) * (l.map (lineLikelihood θ b)).prod) =
        (exp (-(del θ b q / sig θ q) / 2) * (√(sig θ q))⁻¹) *
          (√(2 * π) ^ l.length * (l.map (lineLikelihood θ b)).prod) by field_simp,
      ← ihl, ← hv, ← Real.exp_add, ← Real.exp_add]
    congr 1
    ring

/-- **C93 (exchange).** The two variables are treated alike: exchanging them (with their errors) and describing the line
`y = x tan θ + b` as `x = y / tan θ - b / tan θ` leaves the log-probability unchanged. -/
theorem C93_exchange (pts : List ErrPt) (θ b : ℝ) (h : sin θ ≠ 0) :
    bayesLogProb (pts.map fun p => ⟨p.y, p.x, p.sy, p.sx⟩) (π / 2 - θ) (-(b * cos θ / sin θ)) = bayesLogProb pts θ b := by
  unfold bayesLogProb
  rw [show |π / 2 - θ - π / 4| = |θ - π / 4| by rw [← abs_neg]; congr 1; ring]
  congr 1
  rw [List.map_map]
  congr 1
  refine List.map_congr_left fun p _ => ?_
  refine Prod.ext ?_ ?_
  · simp only [Function.comp, bayesDelta, cos_pi_div_two_sub, sin_pi_div_two_sub, Option.bind_eq_bind, Option.pure_def]
    cases p.x <;> cases p.y <;> simp
    field_simp
    ring
  · simp only [Function.comp, bayesSigma, cos_pi_div_two_sub, sin_pi_div_two_sub, Option.bind_eq_bind, Option.pure_def]
    cases p.sx <;> cases p.sy <;> simp
    ring

/-- **C93 (units).** Moving the data (in logarithms: changing the units of the widths) moves the lines with it: no line that is not
vertical changes its log-probability, and its slope stays the same. -/
theorem C93_shift (pts : List ErrPt) (θ b s t : ℝ) (h : cos θ ≠ 0) :
    bayesLogProb (pts.map fun p => ⟨p.x.map (· + s), p.y.map (· + t), p.sx, p.sy⟩) θ (b + t - tan θ * s) =
      bayesLogProb pts θ b := by
  unfold bayesLogProb
  congr 1
  rw [List.map_map]
  congr 1
  refine List.map_congr_left fun p _ => ?_
  refine Prod.ext ?_ rfl
  simp only [Function.comp, bayesDelta, Option.bind_eq_bind, Option.pure_def]
  cases p.x <;> cases p.y <;> simp
  rw [tan_eq_sin_div_cos]
  field_simp
  ring

/-- Distances. -/
private theorem sqDist (θ b : ℝ) (q : OdrPt) : IsSqDist θ b q (del θ b q) := by
  have h1 := sin_sq_add_cos_sq θ
  refine ⟨⟨q.x * cos θ + (q.y - b) * sin θ, ?_⟩, ?_⟩
  · unfold del
    linear_combination (-(q.x ^ 2 * (cos θ ^ 2 - 1)) - (q.y - b) ^ 2 * (sin θ ^ 2 - 1) -
      2 * q.x * (q.y - b) * (sin θ * cos θ)) * h1
  · rintro e ⟨t, rfl⟩
    unfold del
    have : (cos θ * q.y - sin θ * q.x - b * cos θ) ^ 2 + (q.x * cos θ + (q.y - b) * sin θ - t) ^ 2 =
        (q.x - t * cos θ) ^ 2 + (q.y - (b + t * sin θ)) ^ 2 := by
      linear_combination (q.x ^ 2 + (q.y - b) ^ 2 - t ^ 2) * h1
    nlinarith [sq_nonneg (q.x * cos θ + (q.y - b) * sin θ - t)]

private theorem sum_lt_of_le {l : List OdrPt} {f g : OdrPt → ℝ} (h : ∀ q ∈ l, f q ≤ g q) (h' : ∃ q ∈ l, f q < g q) :
    (l.map f).sum < (l.map g).sum :=
  List.sum_lt_sum f g h h'

/-- **C93 (equal errors).** When the two errors of each point are equal, a line is more probable exactly if its sum of squared
distances in units of the errors is smaller. -/
theorem C93_equal_errors (pts : List OdrPt) (hs : ∀ q ∈ pts, 0 < q.sx ∧ q.sy = q.sx) (θ b θ' b' : ℝ) (h : RisingAngle θ)
    (h' : RisingAngle θ') (d d' : OdrPt → ℝ) (hd : ∀ q ∈ pts, IsSqDist θ b q (d q)) (hd' : ∀ q ∈ pts, IsSqDist θ' b' q (d' q)) :
    LogP.Lt (bayesLogProb (pts.map OdrPt.toErr) θ b) (bayesLogProb (pts.map OdrPt.toErr) θ' b') ↔
      (pts.map fun q => d' q / q.sx ^ 2).sum < (pts.map fun q => d q / q.sx ^ 2).sum := by
  have hp : ∀ q ∈ pts, 0 < q.sx ∧ 0 < q.sy := fun q hq => ⟨(hs q hq).1, (hs q hq).2 ▸ (hs q hq).1⟩
  rw [lp_full pts hp h, lp_full pts hp h']
  have hsig : ∀ θ, ∀ q ∈ pts, sig θ q = q.sx ^ 2 := by
    intro θ q hq
    unfold sig
    rw [(hs q hq).2, ← add_mul, sin_sq_add_cos_sq, one_mul]
  have hv : ∀ θ b (d : OdrPt → ℝ), (∀ q ∈ pts, IsSqDist θ b q (d q)) →
      lpv pts θ b = -0.5 * (pts.map fun q => d q / q.sx ^ 2).sum - 0.5 * (pts.map fun q => log (q.sx ^ 2)).sum := by
    intro θ b d hd
    unfold lpv
    rw [List.map_congr_left (g := fun q => d q / q.sx ^ 2) fun q hq => by
        rw [hsig θ q hq, (sqDist θ b q).unique (hd q hq)],
      List.map_congr_left (f := fun q => log (sig θ q)) (g := fun q => log (q.sx ^ 2)) fun q hq => by rw [hsig θ q hq]]
  simp only [LogP.Lt]
  rw [hv θ b d hd, hv θ' b' d' hd']
  constructor <;> intro h <;> norm_num at h ⊢ <;> linarith

/-- A line that misses one of the points, unless it is the line they lie on. -/
private theorem other_line {pts : List OdrPt} {θ₀ b₀ : ℝ} (h0 : 0 ≤ θ₀) (h1 : θ₀ < π / 2)
    (hex : ∀ q ∈ pts, q.y = tan θ₀ * q.x + b₀) (hne : ∃ q ∈ pts, ∃ r ∈ pts, q.x ≠ r.x) {θ b : ℝ} (hθ : RisingAngle θ)
    (hoth : (θ, b) ≠ (θ₀, b₀)) : ∃ q ∈ pts, 0 < del θ b q := by
  by_contra hcon
  push Not at hcon
  have hz : ∀ q ∈ pts, cos θ * q.y - sin θ * q.x - b * cos θ = 0 := fun q hq =>
    pow_eq_zero_iff two_ne_zero |>.1 (le_antisymm (hcon q hq) (sq_nonneg _))
  obtain ⟨q, hq, r, hr, hqr⟩ := hne
  have e1 := hz q hq
  have e2 := hz r hr
  rw [hex q hq] at e1
  rw [hex r hr] at e2
  have hm : (cos θ * tan θ₀ - sin θ) * (q.x - r.x) = 0 := by linear_combination e1 - e2
  have hm' : cos θ * tan θ₀ = sin θ := by
    rcases mul_eq_zero.1 hm with h | h
    · linarith
    · exact absurd (by linarith) hqr
  have hb : cos θ * (b₀ - b) = 0 := by linear_combination e1 - q.x * hm'
  have hc : cos θ ≠ 0 := by
    intro hc
    have := sin_sq_add_cos_sq θ
    rw [← hm', hc] at this
    norm_num at this
  have hlt : θ < π / 2 := by
    refine lt_of_le_of_ne hθ.2 ?_
    rintro rfl
    exact hc cos_pi_div_two
  have ht : tan θ = tan θ₀ := by
    rw [tan_eq_sin_div_cos, ← hm']
    field_simp
  have hpi := pi_pos
  have hθe : θ = θ₀ := injOn_tan ⟨by linarith [hθ.1], hlt⟩ ⟨by linarith, h1⟩ ht
  have hbe : b = b₀ := by
    rcases mul_eq_zero.1 hb with h | h
    · exact absurd h hc
    · linarith
  exact hoth (by rw [hθe, hbe])

private theorem del_exact {q : OdrPt} {θ₀ b₀ : ℝ} (hc : cos θ₀ ≠ 0) (h : q.y = tan θ₀ * q.x + b₀) : del θ₀ b₀ q = 0 := by
  unfold del
  rw [h, tan_eq_sin_div_cos]
  field_simp
  ring

/-- **C93 (exact line).** For points exactly on a line that does not fall, with equal errors in both variables, that line is the single
most probable one. Missing: unequal errors, where another line can be as probable or more (`C93_exact_violated`), and falling lines
(`C93_falling_violated`). -/
theorem C93_exact_partial (pts : List OdrPt) (hs : ∀ q ∈ pts, 0 < q.sx ∧ q.sy = q.sx) (θ₀ b₀ : ℝ) (h0 : 0 ≤ θ₀) (h1 : θ₀ < π / 2)
    (hex : ∀ q ∈ pts, q.y = tan θ₀ * q.x + b₀) (hne : ∃ q ∈ pts, ∃ r ∈ pts, q.x ≠ r.x) (θ b : ℝ) (hoth : (θ, b) ≠ (θ₀, b₀)) :
    LogP.Lt (bayesLogProb (pts.map OdrPt.toErr) θ b) (bayesLogProb (pts.map OdrPt.toErr) θ₀ b₀) := by
  have hp : ∀ q ∈ pts, 0 < q.sx ∧ 0 < q.sy := fun q hq => ⟨(hs q hq).1, (hs q hq).2 ▸ (hs q hq).1⟩
  have hc : cos θ₀ ≠ 0 := (cos_pos_of_mem_Ioo ⟨by linarith [pi_pos], h1⟩).ne'
  by_cases hθ : RisingAngle θ
  · rw [C93_equal_errors pts hs θ b θ₀ b₀ hθ ⟨h0, h1.le⟩ (del θ b) (del θ₀ b₀) (fun q _ => sqDist θ b q)
      (fun q _ => sqDist θ₀ b₀ q)]
    refine sum_lt_of_le ?_ ?_
    · intro q hq
      rw [del_exact hc (hex q hq), zero_div]
      exact div_nonneg (sq_nonneg _) (sq_nonneg _)
    · obtain ⟨q, hq, hd⟩ := other_line h0 h1 hex hne hθ hoth
      refine ⟨q, hq, ?_⟩
      rw [del_exact hc (hex q hq), zero_div]
      exact div_pos hd (pow_pos (hs q hq).1 2)
  · rw [(C93_prior _ θ b).2 hθ, lp_full pts hp ⟨h0, h1.le⟩]
    trivial

namespace Spec

/-- The same measurement with errors `ε` times as large. -/
def OdrPt.sharpen (ε : ℝ) (q : OdrPt) : OdrPt := ⟨q.x, q.y, ε * q.sx, ε * q.sy⟩

end Spec

private theorem sig_sharpen (ε θ : ℝ) (q : OdrPt) : sig θ (q.sharpen ε) = ε ^ 2 * sig θ q := by
  unfold sig OdrPt.sharpen
  ring

private theorem sum_sub_log (pts : List OdrPt) (f g : OdrPt → ℝ) (c : ℝ) :
    (pts.map fun q => c + f q).sum - (pts.map fun q => c + g q).sum = (pts.map f).sum - (pts.map g).sum := by
  induction pts with
  | nil => simp
  | cons q l ih =>
    simp only [List.map_cons, List.sum_cons]
    linarith

/-- **C93 (precise data).** For points exactly on a line that does not fall and any positive errors: as the errors shrink in proportion,
the odds of that line against any other line grow beyond all bounds. -/
theorem C93_precise (pts : List OdrPt) (hs : ∀ q ∈ pts, 0 < q.sx ∧ 0 < q.sy) (θ₀ b₀ : ℝ) (h0 : 0 ≤ θ₀) (h1 : θ₀ < π / 2)
    (hex : ∀ q ∈ pts, q.y = tan θ₀ * q.x + b₀) (hne : ∃ q ∈ pts, ∃ r ∈ pts, q.x ≠ r.x) (θ b : ℝ) (hθ : RisingAngle θ)
    (hoth : (θ, b) ≠ (θ₀, b₀)) (M : ℝ) :
    ∃ ε₀ > 0, ∀ ε, 0 < ε → ε < ε₀ → ∃ v v₀,
      bayesLogProb ((pts.map (OdrPt.sharpen ε)).map OdrPt.toErr) θ b = .fin v ∧
      bayesLogProb ((pts.map (OdrPt.sharpen ε)).map OdrPt.toErr) θ₀ b₀ = .fin v₀ ∧ M ≤ v₀ - v := by
  have hc : cos θ₀ ≠ 0 := (cos_pos_of_mem_Ioo ⟨by linarith [pi_pos], h1⟩).ne'
  set D := (pts.map fun q => del θ b q / sig θ q).sum with hD
  set c := (pts.map fun q => log (sig θ q)).sum - (pts.map fun q => log (sig θ₀ q)).sum with hcdef
  have hDpos : 0 < D := by
    have : (pts.map fun _ : OdrPt => (0 : ℝ)).sum < D := by
      refine sum_lt_of_le ?_ ?_
      · intro q hq
        exact div_nonneg (sq_nonneg _) (sig_pos θ q (hs q hq)).le
      · obtain ⟨q, hq, hd⟩ := other_line h0 h1 hex hne hθ hoth
        exact ⟨q, hq, div_pos hd (sig_pos θ q (hs q hq))⟩
    simpa using this
  set K := |M| + |c| + 1 with hK
  have hKpos : 0 < K := by positivity
  refine ⟨√(D / (2 * K)), Real.sqrt_pos.2 (by positivity), fun ε hε hlt => ?_⟩
  have hs' : ∀ q ∈ pts.map (OdrPt.sharpen ε), 0 < q.sx ∧ 0 < q.sy := by
    intro q hq
    obtain ⟨r, hr, rfl⟩ := List.mem_map.1 hq
    exact ⟨mul_pos hε (hs r hr).1, mul_pos hε (hs r hr).2⟩
  refine ⟨_, _, lp_full _ hs' hθ b, lp_full _ hs' ⟨h0, h1.le⟩ b₀, ?_⟩
  have hε2 : ε ^ 2 < D / (2 * K) := by
    rw [← Real.sq_sqrt (show (0 : ℝ) ≤ D / (2 * K) by positivity)]
    exact pow_lt_pow_left₀ hlt hε.le two_ne_zero
  have hlogs : ∀ θ, ∀ q ∈ pts, log (sig θ (q.sharpen ε)) = log (ε ^ 2) + log (sig θ q) := by
    intro θ q hq
    rw [sig_sharpen, Real.log_mul (by positivity) (sig_pos θ q (hs q hq)).ne']
  have hdv : ∀ q ∈ pts, del θ b (q.sharpen ε) / sig θ (q.sharpen ε) = (ε ^ 2)⁻¹ * (del θ b q / sig θ q) := by
    intro q hq
    rw [sig_sharpen]
    show del θ b q / _ = _
    rw [div_mul_eq_div_div_swap]
    field_simp
  have hz : ∀ q ∈ pts, del θ₀ b₀ (q.sharpen ε) / sig θ₀ (q.sharpen ε) = 0 := by
    intro q hq
    show del θ₀ b₀ q / _ = _
    rw [del_exact hc (hex q hq), zero_div]
  unfold lpv
  simp only [List.map_map, Function.comp_def]
  rw [List.map_congr_left hz, List.map_congr_left hdv, List.map_congr_left (hlogs θ), List.map_congr_left (hlogs θ₀),
    List.sum_map_mul_left]
  have hlog := sum_sub_log pts (fun q => log (sig θ q)) (fun q => log (sig θ₀ q)) (log (ε ^ 2))
  have hzero : (pts.map fun _ : OdrPt => (0 : ℝ)).sum = 0 := by simp
  rw [hzero]
  have hbig : 2 * K ≤ (ε ^ 2)⁻¹ * D := by
    rw [inv_mul_eq_div, le_div_iff₀ (by positivity)]
    rw [lt_div_iff₀ (by positivity)] at hε2
    linarith
  have hM := le_abs_self M
  have hc2 := neg_abs_le c
  rw [← hcdef] at hlog
  rw [← hD]
  linarith [abs_nonneg c]

/-- **C93 (exact line, violation).** With unequal errors the most probable line need not be the line on which the points lie exactly:
here a vertical line is preferred to the line `y = x` through both points. -/
theorem C93_exact_violated :
    ∃ pts : List OdrPt, (∀ q ∈ pts, 0 < q.sx ∧ 0 < q.sy ∧ q.y = tan (π / 4) * q.x + 0) ∧ (∃ q ∈ pts, ∃ r ∈ pts, q.x ≠ r.x) ∧
      ∀ b, LogP.Lt (bayesLogProb (pts.map OdrPt.toErr) (π / 4) 0) (bayesLogProb (pts.map OdrPt.toErr) (π / 2) b) := by
  have hpi := pi_pos
  set pts : List OdrPt := [⟨0, 0, 1, 10⟩, ⟨1, 1, 1, 10⟩] with hpts
  have hp : ∀ q ∈ pts, 0 < q.sx ∧ 0 < q.sy := by simp [hpts]
  refine ⟨pts, by simp [hpts], ⟨⟨0, 0, 1, 10⟩, by simp [hpts], ⟨1, 1, 1, 10⟩, by simp [hpts], by norm_num⟩, fun b => ?_⟩
  rw [lp_full pts hp ⟨by linarith, by linarith⟩, lp_full pts hp ⟨by linarith, le_rfl⟩]
  simp only [LogP.Lt, lpv, hpts, List.map_cons, List.map_nil, List.sum_cons, List.sum_nil, sig, del, sin_pi_div_two, cos_pi_div_two,
    sin_pi_div_four, cos_pi_div_four]
  have h2 : (√2 / 2 : ℝ) ^ 2 = 1 / 2 := by rw [div_pow, Real.sq_sqrt (by norm_num)]; norm_num
  rw [h2]
  have hl := Real.one_sub_inv_le_log_of_pos (show (0 : ℝ) < 101 / 2 by norm_num)
  norm_num at hl ⊢
  linarith

/-! ### Slope and ranges -/

private theorem median_eq (v : List ℝ) : npMedian v = npPercentile v 50 := by
  unfold npMedian npPercentile
  simp only
  rcases Nat.even_or_odd' v.length with ⟨k, hk | hk⟩
  · rw [if_neg (by omega)]
    rcases Nat.eq_zero_or_pos k with rfl | hpos
    · have hv : v = [] := List.length_eq_zero_iff.1 (by omega)
      subst hv
      simp
    · have e : (50 : ℝ) / 100 * ((v.length : ℝ) - 1) = ((k - 1 : ℕ) : ℝ) + 1 / 2 := by
        rw [hk, Nat.cast_sub hpos]
        push_cast
        ring
      have hfl : ⌊((k - 1 : ℕ) : ℝ) + 1 / 2⌋₊ = k - 1 := by
        rw [Nat.floor_eq_iff (by positivity)]
        constructor <;> linarith
      rw [e, hfl, show v.length / 2 = k by omega, show min (k - 1 + 1) (v.length - 1) = k by omega]
      ring
  · rw [if_pos (by omega)]
    have e : (50 : ℝ) / 100 * ((v.length : ℝ) - 1) = (k : ℝ) := by
      rw [hk]
      push_cast
      ring
    rw [e, Nat.floor_natCast, show v.length / 2 = k by omega]
    ring

theorem pct_ok {v : List ℝ} (hv : v ≠ []) {q : ℝ} (h0 : 0 ≤ q) (h1 : q ≤ 100) :
    nanpercentile (v.map some) q = .ok (npPercentile v q) := by
  unfold nanpercentile npPercentile
  rw [if_neg (by push Not; exact ⟨h0, h1⟩), validVals_some]
  have hne : v.insertionSort (· ≤ ·) ≠ [] := by
    intro h
    have := List.length_insertionSort (· ≤ ·) v
    rw [h] at this
    exact hv (List.length_eq_zero_iff.1 this.symm)
  simp only [hne, if_false, List.length_insertionSort]
  congr 1
  ring

private theorem bayes_ok {mcmc : McmcSampler} {draws : List (ℝ × ℝ)} {conf : ℝ × ℝ} {pts : List ErrPt} {out : BayesOut}
    (h : bayesLinear mcmc draws conf pts = .ok out) :
    ∃ start chain, mcmc (bayesLogProb pts) start = .ok chain ∧ out = bayesResult conf chain ∧
      0 ≤ conf.1 ∧ conf.1 ≤ 100 ∧ 0 ≤ conf.2 ∧ conf.2 ≤ 100 := by
  unfold bayesLinear at h
  by_cases h1 : (pts.any fun p => p.y.isNone) = true
  · rw [if_pos h1] at h
    cases h
  rw [if_neg h1] at h
  cases hm : mcmc (bayesLogProb pts) (bayesStart (validVals (pts.map ErrPt.y)) draws) with
  | error e => rw [hm] at h; cases h
  | ok chain =>
    rw [hm] at h
    simp only [bind, Except.bind] at h
    split_ifs at h with h2
    push Not at h2
    cases h
    exact ⟨_, chain, hm, rfl, h2.1, h2.2.1, h2.2.2.1, h2.2.2.2⟩

/-- **C93 (ranges).** The reported ranges are the requested percentiles of the samples, the reported slope and intercept their 50th
percentiles, and the values lie inside their ranges when the requested percentiles are on both sides of 50. -/
theorem C93_ranges (mcmc : McmcSampler) (hm : Samples mcmc) (draws : List (ℝ × ℝ)) (conf : ℝ × ℝ) (pts : List ErrPt)
    (out : BayesOut) (h : bayesLinear mcmc draws conf pts = .ok out) :
    (IsPercentile (out.samples.map Prod.fst) 50 out.params.1 ∧ IsPercentile (out.samples.map Prod.snd) 50 out.params.2) ∧
    (IsPercentile (out.samples.map Prod.fst) conf.1 out.slopeRange.1 ∧ IsPercentile (out.samples.map Prod.fst) conf.2 out.slopeRange.2) ∧
    (IsPercentile (out.samples.map Prod.snd) conf.1 out.interceptRange.1 ∧
      IsPercentile (out.samples.map Prod.snd) conf.2 out.interceptRange.2) ∧
    (conf.1 ≤ 50 → 50 ≤ conf.2 → out.slopeRange.1 ≤ out.params.1 ∧ out.params.1 ≤ out.slopeRange.2 ∧
      out.interceptRange.1 ≤ out.params.2 ∧ out.params.2 ≤ out.interceptRange.2) := by
  obtain ⟨start, chain, hc, rfl, a1, a2, a3, a4⟩ := bayes_ok h
  obtain ⟨hne, -⟩ := hm _ _ _ hc
  have e1 : ((bayesResult conf chain).samples.map Prod.fst) = chain.map fun s => tan s.1 := by
    simp [bayesResult, List.map_map, Function.comp_def]
  have e2 : ((bayesResult conf chain).samples.map Prod.snd) = chain.map fun s => s.2 := by
    simp [bayesResult, List.map_map, Function.comp_def]
  rw [e1, e2]
  have n1 : (chain.map fun s => tan s.1) ≠ [] := by simpa using hne
  have n2 : (chain.map fun s => s.2) ≠ [] := by simpa using hne
  have key : ∀ {v : List ℝ}, v ≠ [] → ∀ {q : ℝ}, 0 ≤ q → q ≤ 100 → IsPercentile v q (npPercentile v q) := by
    intro v hv q h0 h1
    have := (C85_percentile (pct_ok hv h0 h1)).1
    rwa [validVals_some] at this
  have mono : ∀ {v : List ℝ}, v ≠ [] → ∀ {q q' : ℝ}, 0 ≤ q → q ≤ q' → q' ≤ 100 → npPercentile v q ≤ npPercentile v q' :=
    fun hv _ _ h0 hq h1 => C85_percentile_mono (pct_ok hv h0 (hq.trans h1)) (pct_ok hv (h0.trans hq) h1) hq
  have f50 : (0 : ℝ) ≤ 50 := by norm_num
  have g50 : (50 : ℝ) ≤ 100 := by norm_num
  simp only [bayesResult, median_eq]
  exact ⟨⟨key n1 f50 g50, key n2 f50 g50⟩, ⟨key n1 a1 a2, key n1 a3 a4⟩, ⟨key n2 a1 a2, key n2 a3 a4⟩, fun h1 h2 =>
    ⟨mono n1 a1 h1 g50, mono n1 f50 h2 a4, mono n2 a1 h1 g50, mono n2 f50 h2 a4⟩⟩

/-- **C93 (rising lines only).** Every sampled slope, the reported slope and both ends of its range are at least 0, for all data. -/
theorem C93_rising (mcmc : McmcSampler) (hm : Samples mcmc) (draws : List (ℝ × ℝ)) (conf : ℝ × ℝ) (pts : List ErrPt)
    (out : BayesOut) (h : bayesLinear mcmc draws conf pts = .ok out) :
    (∀ s ∈ out.samples, 0 ≤ s.1) ∧ 0 ≤ out.params.1 ∧ 0 ≤ out.slopeRange.1 ∧ 0 ≤ out.slopeRange.2 := by
  obtain ⟨start, chain, hc, rfl, a1, a2, a3, a4⟩ := bayes_ok h
  obtain ⟨hne, hpos⟩ := hm _ _ _ hc
  have hs : ∀ s ∈ chain, 0 ≤ tan s.1 := by
    intro s hs
    have : RisingAngle s.1 := by
      by_contra hcon
      exact hpos s hs ((C93_prior _ _ _).2 hcon)
    exact tan_nonneg_of_nonneg_of_le_pi_div_two this.1 this.2
  have n1 : (chain.map fun s => tan s.1) ≠ [] := by simpa using hne
  have key : ∀ {q : ℝ}, 0 ≤ q → q ≤ 100 → 0 ≤ npPercentile (chain.map fun s => tan s.1) q := by
    intro q h0 h1
    obtain ⟨v, hv, hle⟩ := (C85_percentile (pct_ok n1 h0 h1)).2.1
    rw [validVals_some] at hv
    obtain ⟨s, hs', rfl⟩ := List.mem_map.1 hv
    exact (hs s hs').trans hle
  simp only [bayesResult, median_eq]
  refine ⟨?_, key (by norm_num) (by norm_num), key a1 a2, key a3 a4⟩
  intro s hs'
  obtain ⟨r, hr, rfl⟩ := List.mem_map.1 hs'
  exact hs r hr

/-- **C93 (falling lines, violation).** A falling relation is never recovered: however precise the data, and whatever sampler and
percentiles, the reported slope is off by at least the whole slope and the range does not contain it. -/
theorem C93_falling_violated (mcmc : McmcSampler) (hm : Samples mcmc) (draws : List (ℝ × ℝ)) (conf : ℝ × ℝ) (m b : ℝ) (hneg : m < 0)
    (pts : List OdrPt) (_hex : ∀ q ∈ pts, q.y = m * q.x + b) (out : BayesOut)
    (h : bayesLinear mcmc draws conf (pts.map OdrPt.toErr) = .ok out) :
    |m| ≤ |out.params.1 - m| ∧ ¬ (out.slopeRange.1 ≤ m) := by
  obtain ⟨-, h1, h2, -⟩ := C93_rising mcmc hm draws conf _ out h
  refine ⟨?_, by linarith⟩
  rw [abs_of_neg hneg, abs_of_nonneg (by linarith)]
  linarith

/-! ### Missing values and zero errors -/

/-- **C93 (missing errors).** A point with an unknown error does not influence the probabilities. -/
theorem C93_missing_error (pts : List ErrPt) (p : ErrPt) (h : p.sx = none ∨ p.sy = none) (θ b : ℝ) :
    bayesLogProb (p :: pts) θ b = bayesLogProb pts θ b := by
  have hs : bayesSigma θ p = none := by
    unfold bayesSigma
    rcases h with h | h
    · simp [h]
    · cases hx : p.sx <;> simp [h]
  have hd : ∀ a : Option ℝ, divO a none = none := by
    intro a
    cases a <;> rfl
  unfold bayesLogProb
  split_ifs
  · rfl
  · simp only [List.map_cons, bayesSums, hs, List.mem_cons, exists_eq_or_imp, reduceCtorEq, false_and, false_or, hd, Option.map_none]
    simp only [nansum, validVals, List.filterMap_cons, id]

/-- **C93 (missing `x`, violation).** A point whose abscissa is unknown should not influence the fit, but it does: it multiplies the
probability of every line by `1 / sqrt(sin² θ sx² + cos² θ sy²)`, so that with errors 1 and 10 a steep line gains a factor of up to ten
over a flat one. -/
theorem C93_missing_x_violated (pts : List OdrPt) (hs : ∀ q ∈ pts, 0 < q.sx ∧ 0 < q.sy) (y sx sy : ℝ) (hx : 0 < sx) (hy : 0 < sy)
    (θ b : ℝ) (hθ : RisingAngle θ) :
    ∃ v v', bayesLogProb (pts.map OdrPt.toErr) θ b = .fin v ∧
      bayesLogProb (⟨none, some y, some sx, some sy⟩ :: pts.map OdrPt.toErr) θ b = .fin v' ∧
      exp v' = exp v / √(sin θ ^ 2 * sx ^ 2 + cos θ ^ 2 * sy ^ 2) := by
  have hS : 0 < sin θ ^ 2 * sx ^ 2 + cos θ ^ 2 * sy ^ 2 := sig_pos θ ⟨0, 0, sx, sy⟩ ⟨hx, hy⟩
  refine ⟨_, lpv pts θ b - 0.5 * log (sin θ ^ 2 * sx ^ 2 + cos θ ^ 2 * sy ^ 2), lp_full pts hs hθ b, ?_, ?_⟩
  · have hfull := lp_full pts hs hθ b
    unfold bayesLogProb at hfull ⊢
    rw [if_neg ((rising_iff θ).2 hθ)] at hfull ⊢
    simp only [List.map_cons]
    unfold bayesSums at hfull ⊢
    split_ifs at hfull with h1
    rw [if_neg]
    · simp only [LogP.fin.injEq] at hfull ⊢
      rw [← hfull]
      have e1 : bayesDelta θ b ⟨none, some y, some sx, some sy⟩ = none := rfl
      have e2 : bayesSigma θ ⟨none, some y, some sx, some sy⟩ = some (sin θ ^ 2 * sx ^ 2 + cos θ ^ 2 * sy ^ 2) := rfl
      have e3 : ∀ a, divO none a = none := fun a => rfl
      simp only [e1, e2, e3, nansum, validVals, List.map_cons, List.filterMap_cons, id, Option.map_some, List.sum_cons]
      ring
    · rintro ⟨t, ht, h0⟩
      rcases List.mem_cons.1 ht with rfl | ht
      · simp only [bayesSigma, Option.bind_eq_bind, Option.bind_some, Option.pure_def, Option.some.injEq] at h0
        exact hS.ne' h0
      · exact h1 ⟨t, ht, h0⟩
  · rw [Real.exp_sub, show (0.5 : ℝ) * log (sin θ ^ 2 * sx ^ 2 + cos θ ^ 2 * sy ^ 2) = log (√(sin θ ^ 2 * sx ^ 2 + cos θ ^ 2 * sy ^ 2)) by
      rw [Real.log_sqrt hS.le]; ring, Real.exp_log (Real.sqrt_pos.2 hS)]

/-- **C93 (missing `y`).** A missing ordinate makes `bayes_linear` raise. -/
theorem C93_missing_y (mcmc : McmcSampler) (draws : List (ℝ × ℝ)) (conf : ℝ × ℝ) (pts : List ErrPt) (h : ∃ p ∈ pts, p.y = none) :
    bayesLinear mcmc draws conf pts = .error .valueError := by
  obtain ⟨p, hp, h0⟩ := h
  unfold bayesLinear
  rw [if_pos (List.any_eq_true.2 ⟨p, hp, by simp [h0]⟩)]

/-- **C93 (zero errors, violation).** One point without errors makes the log-probability NaN for every line that misses it. -/
theorem C93_zero_errors_violated (pts : List OdrPt) (q : OdrPt) (hq : q ∈ pts) (h0 : q.sx = 0 ∧ q.sy = 0) (θ b : ℝ) (hθ : RisingAngle θ)
    (d : ℝ) (hd : IsSqDist θ b q d) (hmiss : d ≠ 0) : bayesLogProb (pts.map OdrPt.toErr) θ b = .nan := by
  have hmem : (some (del θ b q), some (0 : ℝ)) ∈ (pts.map OdrPt.toErr).map fun p => (bayesDelta θ b p, bayesSigma θ p) := by
    rw [List.map_map]
    refine List.mem_map.2 ⟨q, hq, ?_⟩
    simp [OdrPt.toErr, bayesDelta, bayesSigma, del, h0.1, h0.2]
  unfold bayesLogProb
  rw [if_neg ((rising_iff θ).2 hθ)]
  unfold bayesSums
  have hne : del θ b q ≠ 0 := by
    rw [(sqDist θ b q).unique hd]
    exact hmiss
  rw [if_pos ⟨_, hmem, rfl⟩, if_pos ⟨_, hmem, rfl, _, rfl, hne⟩]

/-- **C93 (start).** The walkers start at positions of positive probability exactly when no draw for the angle exceeds `5 pi / 2`
standard deviations (about 7.85). -/
theorem C93_start (pts : List ErrPt) (ys : List ℝ) (draws : List (ℝ × ℝ)) :
    (∀ s ∈ bayesStart ys draws, bayesLogProb pts s.1 s.2 ≠ .negInf) ↔ ∀ z ∈ draws, |z.1| ≤ 5 * π / 2 := by
  unfold bayesStart
  simp only [List.mem_map, forall_exists_index, and_imp, forall_apply_eq_imp_iff₂, ne_eq, C93_prior, not_not]
  refine forall₂_congr fun z _ => ?_
  unfold RisingAngle
  rw [abs_le]
  constructor
  · rintro ⟨h1, h2⟩
    constructor <;> norm_num at h1 h2 ⊢ <;> linarith
  · rintro ⟨h1, h2⟩
    constructor <;> norm_num at h1 h2 ⊢ <;> linarith

/-! ### `fit_plaw` -/

private theorem bayesPoint_pt (w : Width) : bayesPoint w.pt = w.log.toErr := by
  obtain ⟨h1, -, h3, -⟩ := w.pos
  unfold bayesPoint odrPoint Width.pt Width.log OdrPt.toErr log10F relErr log10
  simp [FVal.toOpt, h1.ne', h1.not_gt, h3.ne', h3.not_gt]

open Classical in
/-- **C93 (`fit_plaw`).** With `fit_method='bayes'`, components with known positive widths and errors and limits in pixels: the
logarithms of exactly the components inside the limits are handed to `bayes_linear`; its slope and range are stored as the index, its
intercept, out of the logarithm, as the intercept. -/
theorem C93_fit (odr : List OdrIn → Py ((ℝ × ℝ) × (ℝ × ℝ))) (bayes : List ErrPt → Py BayesOut) (s : Spatial) (xlow xhigh : WLim)
    (lo hi : Option ℝ) (h1 : limPix s xlow = .ok lo) (h2 : limPix s xhigh = .ok hi)
    (hlo : ∀ l, lo = some l → 0 ≤ l) (hhi : ∀ h, hi = some h → 0 ≤ h) (ws : List Width)
    (hlen : 2 ≤ (ws.filter fun w => decide (Inside lo hi w.x)).length) (r : BayesOut)
    (hr : bayes ((ws.filter fun w => decide (Inside lo hi w.x)).map fun w => w.log.toErr) = .ok r) :
    ∃ f samps, fitPlawMethod odr bayes "bayes" s xlow xhigh (ws.map Width.pt) = .ok (f, samps) ∧ f.index = r.params.1 ∧
      f.indexRange = r.slopeRange ∧ Real.logb 10 f.intercept = r.params.2 ∧ Real.logb 10 f.interceptRange.1 = r.interceptRange.1 ∧
      Real.logb 10 f.interceptRange.2 = r.interceptRange.2 ∧ samps = r.samples := by
  have hkept : (ws.map Width.pt).filter (fun p => inLimits lo hi p.x && widthFinite p) =
      (ws.filter fun w => decide (Inside lo hi w.x)).map Width.pt := by
    rw [List.filter_map]
    congr 1
    refine List.filter_congr fun w _ => ?_
    have : widthFinite w.pt = true := rfl
    simp only [Function.comp, this, Bool.and_true]
    rw [Bool.eq_iff_iff, decide_eq_true_eq]
    exact inLimits_iff hlo hhi w.pos.1.le
  have hany : (ws.map Width.pt).any (fun p => inLimits lo hi p.x) = true := by
    obtain ⟨w, hw⟩ := List.length_pos_iff_exists_mem.1 (show 0 < (ws.filter fun w => decide (Inside lo hi w.x)).length by omega)
    obtain ⟨hw1, hw2⟩ := List.mem_filter.1 hw
    refine List.any_eq_true.2 ⟨w.pt, List.mem_map_of_mem hw1, ?_⟩
    exact (inLimits_iff hlo hhi w.pos.1.le).2 (of_decide_eq_true hw2)
  have hpts : ((ws.filter fun w => decide (Inside lo hi w.x)).map Width.pt).map bayesPoint =
      (ws.filter fun w => decide (Inside lo hi w.x)).map fun w => w.log.toErr := by
    rw [List.map_map]
    exact List.map_congr_left fun w _ => bayesPoint_pt w
  have hlb : ∀ z : ℝ, Real.logb 10 ((10 : ℝ) ^ z) = z := fun z => Real.logb_rpow (by norm_num) (by norm_num)
  refine ⟨(storeBayes r).1, (storeBayes r).2, ?_, rfl, rfl, hlb _, hlb _, hlb _, rfl⟩
  unfold fitPlawMethod
  rw [if_neg (by decide), if_pos rfl, h1, h2]
  simp only [bind, Except.bind, pure, Except.pure]
  rw [if_pos hany, hkept, hpts, if_neg (by rw [List.length_map]; omega), hr]

/-- **C93 (method).** `'odr'` fits by orthogonal regression, names other than `'odr'` and `'bayes'` raise TypeError. -/
theorem C93_method (odr : List OdrIn → Py ((ℝ × ℝ) × (ℝ × ℝ))) (bayes : List ErrPt → Py BayesOut) (s : Spatial) (xlow xhigh : WLim)
    (ws : List WidthPt) :
    (∀ f, (∃ samps, fitPlawMethod odr bayes "odr" s xlow xhigh ws = .ok (f, samps)) ↔ fitPlaw odr s xlow xhigh ws = .ok f) ∧
    ∀ m, m ≠ "odr" → m ≠ "bayes" → fitPlawMethod odr bayes m s xlow xhigh ws = .error .typeError := by
  constructor
  · intro f
    unfold fitPlawMethod
    rw [if_pos rfl]
    cases fitPlaw odr s xlow xhigh ws with
    | error e => simp [bind, Except.bind]
    | ok g => simp [bind, Except.bind, pure, Except.pure]
  · intro m h1 h2
    unfold fitPlawMethod
    rw [if_neg h1, if_neg h2]

/-- Non-vacuity: three points on `y = x / 1 + 1` at 45 degrees, a sampler that stays at that line, and what is reported. -/
example :
    let pts : List OdrPt := [⟨0, 1, 1, 1⟩, ⟨1, 2, 1, 1⟩, ⟨2, 3, 2, 2⟩]
    let mcmc : McmcSampler := fun lp _ => by classical exact if lp (π / 4) 1 = .negInf then .error .valueError else .ok [(π / 4, 1)]
    (∀ q ∈ pts, 0 < q.sx ∧ q.sy = q.sx ∧ q.y = tan (π / 4) * q.x + 1) ∧ Samples mcmc ∧
      ∃ out, bayesLinear mcmc [] (15.9, 84.1) (pts.map OdrPt.toErr) = .ok out ∧ out.params = (1, 1) := by
  intro pts mcmc
  have hpi := pi_pos
  refine ⟨by simp [pts]; norm_num, ?_, ?_⟩
  · intro lp start chain h
    simp only [mcmc] at h
    split_ifs at h with hn
    cases h
    refine ⟨by simp, fun s hs => ?_⟩
    simp only [List.mem_singleton] at hs
    subst hs
    exact hn
  · refine ⟨bayesResult (15.9, 84.1) [(π / 4, 1)], ?_, ?_⟩
    · unfold bayesLinear
      rw [if_neg (by simp [pts, OdrPt.toErr])]
      have : mcmc (bayesLogProb (pts.map OdrPt.toErr)) (bayesStart (validVals ((pts.map OdrPt.toErr).map ErrPt.y)) []) = .ok [(π / 4, 1)] := by
        simp only [mcmc]
        rw [if_neg]
        rw [C93_prior, not_not]
        exact ⟨by linarith, by linarith⟩
      rw [this]
      simp only [bind, Except.bind]
      rw [if_neg (by norm_num)]
    · simp [bayesResult, npMedian]

end TS
