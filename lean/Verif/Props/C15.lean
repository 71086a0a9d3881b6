import Verif.Model.Distances

/-! C15 — the slope distances are symmetric t-statistics. -/

namespace TS

/-- Specification: the two-sample t-statistic of a difference. -/
noncomputable def Spec.tStat (s1 e1 s2 e2 : ℝ) : ℝ := |s1 - s2| / Real.sqrt (e1 ^ 2 + e2 ^ 2)

/-- The slope distances of the library. -/
inductive SlopeMetric | pspec | vca | mvc | wavelet | deltaVariance | pdfLognormal | dendroNumber
  deriving DecidableEq

/-- What each metric reports for two fits. -/
noncomputable def slopeDistance (k : SlopeMetric) (a b : SlopeFit) : Option ℝ :=
  match k with
  | .pspec => pspecDistance a b
  | .vca => vcaDistance a b
  | .mvc => mvcDistance a b
  | .wavelet => waveletDistance a b
  | .deltaVariance => deltaVarSlopeDistance a b
  | .pdfLognormal => match lognormalDistance (some a) (some b) with
    | .ok r => r
    | .error _ => none
  | .dendroNumber => numfeatureDistance a b

/-- Every slope metric is the t-statistic, whenever some error is non-zero. -/
theorem C15_t_statistic (k : SlopeMetric) (a b : SlopeFit) (h : a.err ≠ 0 ∨ b.err ≠ 0) :
    slopeDistance k a b = some (Spec.tStat a.slope a.err b.slope b.err) := by
  have hv : a.err ^ 2 + b.err ^ 2 ≠ 0 := by
    rcases h with h | h <;> positivity
  have hs := Real.sqrt_nonneg (a.err ^ 2 + b.err ^ 2)
  have e : |(a.slope - b.slope) / Real.sqrt (a.err ^ 2 + b.err ^ 2)|
      = |a.slope - b.slope| / Real.sqrt (a.err ^ 2 + b.err ^ 2) := by
    rw [abs_div, abs_of_nonneg hs]
  cases k <;>
    simp [slopeDistance, pspecDistance, vcaDistance, mvcDistance, waveletDistance,
      deltaVarSlopeDistance, lognormalDistance, numfeatureDistance, absQuot, quotAbs, hv,
      Spec.tStat, abs_div, abs_of_nonneg hs]

/-- Non-negative and symmetric; zero exactly when the slopes agree. -/
theorem C15_laws (k : SlopeMetric) (a b : SlopeFit) (h : a.err ≠ 0 ∨ b.err ≠ 0) :
    ∃ d, slopeDistance k a b = some d ∧ slopeDistance k b a = some d ∧ 0 ≤ d ∧
      (d = 0 ↔ a.slope = b.slope) := by
  refine ⟨_, C15_t_statistic k a b h, ?_, ?_, ?_⟩
  · rw [C15_t_statistic k b a h.symm]
    unfold Spec.tStat
    rw [abs_sub_comm, add_comm]
  · unfold Spec.tStat; positivity
  · have hv : 0 < a.err ^ 2 + b.err ^ 2 := by
      rcases h with h | h <;> positivity
    unfold Spec.tStat
    rw [div_eq_zero_iff, abs_eq_zero, sub_eq_zero]
    constructor
    · rintro (h | h)
      · exact h
      · exact absurd h (Real.sqrt_ne_zero'.2 hv)
    · exact Or.inl

/-- Rescaling both fits together (another unit for the ordinate's logarithm) changes nothing. -/
theorem C15_scale_invariant (k : SlopeMetric) (a b : SlopeFit) (h : a.err ≠ 0 ∨ b.err ≠ 0)
    (c : ℝ) (hc : c ≠ 0) :
    slopeDistance k ⟨c * a.slope, c * a.err⟩ ⟨c * b.slope, c * b.err⟩ = slopeDistance k a b := by
  rw [C15_t_statistic k a b h, C15_t_statistic k _ _ (by simpa [hc] using h)]
  congr 1
  unfold Spec.tStat
  simp only
  rw [show (c * a.err) ^ 2 + (c * b.err) ^ 2 = c ^ 2 * (a.err ^ 2 + b.err ^ 2) by ring,
    ← mul_sub, abs_mul, Real.sqrt_mul (sq_nonneg c), Real.sqrt_sq_eq_abs,
    mul_div_mul_left _ _ (abs_ne_zero.2 hc)]

example : slopeDistance .vca ⟨-3, 3⟩ ⟨2, 4⟩ = some 1 := by
  rw [C15_t_statistic _ _ _ (by norm_num), Spec.tStat]
  norm_num
  rw [show (25 : ℝ) = 5 ^ 2 by norm_num, Real.sqrt_sq (by norm_num)]; norm_num

/-- When both errors vanish no number is reported. -/
theorem C15_no_errors (k : SlopeMetric) (s t : ℝ) : slopeDistance k ⟨s, 0⟩ ⟨t, 0⟩ = none := by
  cases k <;> simp [slopeDistance, pspecDistance, vcaDistance, mvcDistance, waveletDistance,
      deltaVarSlopeDistance, lognormalDistance, numfeatureDistance, absQuot, quotAbs]

/-- The VCS distance: the large-scale and small-scale t-statistics summed; without two slopes in
both fits only the large-scale one.  It is symmetric and non-negative. -/
theorem C15_vcs (a b : VcsFit) (h1 : a.large.err ≠ 0 ∨ b.large.err ≠ 0)
    (h2 : ∀ s t, a.small = some s → b.small = some t → s.err ≠ 0 ∨ t.err ≠ 0) :
    (vcsDistance a b).total
      = Spec.tStat a.large.slope a.large.err b.large.slope b.large.err
        + (match a.small, b.small with
          | some s, some t => Spec.tStat s.slope s.err t.slope t.err
          | _, _ => 0) ∧
    (vcsDistance a b).total = (vcsDistance b a).total ∧ 0 ≤ (vcsDistance a b).total := by
  have key : ∀ s t : SlopeFit, (s.err ≠ 0 ∨ t.err ≠ 0) →
      absQuot (s.slope - t.slope) (s.err ^ 2 + t.err ^ 2)
        = some (Spec.tStat s.slope s.err t.slope t.err) := fun s t h =>
    C15_t_statistic .pspec s t h
  have sym : ∀ s t : SlopeFit, Spec.tStat s.slope s.err t.slope t.err
      = Spec.tStat t.slope t.err s.slope s.err := by
    intro s t; unfold Spec.tStat; rw [abs_sub_comm, add_comm]
  have nn : ∀ s t : SlopeFit, 0 ≤ Spec.tStat s.slope s.err t.slope t.err := by
    intro s t; unfold Spec.tStat; positivity
  have k1 := key a.large b.large h1
  have k2 := key b.large a.large h1.symm
  rcases a with ⟨al, as, ab⟩
  rcases b with ⟨bl, bs, bb⟩
  cases as with
  | none =>
    refine ⟨?_, ?_, ?_⟩
    · simp [vcsDistance, k1]
    · cases bs <;> simp [vcsDistance, k1, k2, sym al bl]
    · simp only [vcsDistance, k1, Option.getD_some]; exact nn _ _
  | some s =>
    cases bs with
    | none =>
      refine ⟨?_, ?_, ?_⟩
      · simp [vcsDistance, k1]
      · simp [vcsDistance, k1, k2, sym al bl]
      · simp only [vcsDistance, k1, Option.getD_some]; exact nn _ _
    | some t =>
      have h3 := h2 s t rfl rfl
      refine ⟨?_, ?_, ?_⟩
      · simp [vcsDistance, k1, key s t h3]
      · simp [vcsDistance, k1, k2, key s t h3, key t s h3.symm, sym al bl, sym s t]
      · simp only [vcsDistance, k1, key s t h3, Option.getD_some]
        exact add_nonneg (nn _ _) (nn _ _)

example : ∃ a b : VcsFit, (a.large.err ≠ 0 ∨ b.large.err ≠ 0) ∧ a.small.isSome ∧ b.small.isSome ∧
    ∀ s t, a.small = some s → b.small = some t → s.err ≠ 0 ∨ t.err ≠ 0 :=
  ⟨⟨⟨1, 1⟩, some ⟨2, 1⟩, ⟨3, 1⟩⟩, ⟨⟨1, 1⟩, some ⟨2, 1⟩, ⟨3, 1⟩⟩, by simp, rfl, rfl, by
    intro s t hs ht; left; cases hs; norm_num⟩

/-- The lognormal distance needs a fit of both PDFs. -/
theorem C15_lognormal_needs_fit (a : Option SlopeFit) :
    lognormalDistance none a = .error .runtimeError ∧
    lognormalDistance a none = .error .runtimeError := by
  cases a <;> simp [lognormalDistance]

end TS
