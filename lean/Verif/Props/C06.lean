import Verif.Lemmas.Psds

/-! C06 — azimuthal wedge selection. -/

namespace TS
open Finset Spec

/-- Direction of pixel `(i, j)` seen from the centre pixel `(n // 2, m // 2)`. -/
noncomputable def pixelAngle (n m i j : ℕ) : ℝ :=
  Complex.arg ⟨(j : ℝ) - (m / 2 : ℕ), (i : ℝ) - (n / 2 : ℕ)⟩

/-- One of the (at most four) pixels that are always kept. -/
def InMiddle (n m i j : ℕ) : Prop := (i = n / 2 ∨ i + 1 = n / 2) ∧ (j = m / 2 ∨ j + 1 = m / 2)

private theorem theta_eq (n m i j : ℕ) : (thetaArr n m).get i j = pixelAngle n m i j := by
  simp only [thetaArr, makeRadialArrays, axisCentre, arctan2, pixelAngle]
  rw [Int.cast_add, Int.cast_add, Int.cast_neg, Int.cast_neg, Int.cast_natCast, Int.cast_natCast,
    Int.cast_natCast, Int.cast_natCast]
  congr 2 <;> ring

/-- The kept pixels, for every wedge narrower than a full turn whose lower limit does not point
exactly along the negative x axis (where the code's interval test treats `+π` and `-π` as
different angles; see `C06_edge_on_cut`): a pixel is kept exactly when it is one of the middle
pixels, or its direction, or the direction of its mirror pixel, lies within `delta/2` of
`theta0` modulo a full turn. -/
theorem C06_wedge_mask (psd2 : Arr2 (Option ℝ)) (a : PspecArgs) (out : PspecOut) (t d : ℝ)
    (h : pspecFn psd2 a = .ok out) (ht : a.theta0 = some t) (hd : a.deltaTheta = some d)
    (hd0 : 0 < d) (hd1 : d < 2 * Real.pi) (hcut : ∀ k : ℤ, t - d / 2 ≠ (2 * k + 1) * Real.pi) :
    ∃ mask, out.azim = some mask ∧ mask.n = psd2.n ∧ mask.m = psd2.m ∧
      ∀ i < psd2.n, ∀ j < psd2.m, (mask.get i j = true ↔
        InMiddle psd2.n psd2.m i j ∨ AngWithin t d (pixelAngle psd2.n psd2.m i j) ∨
          AngWithin t d (pixelAngle psd2.n psd2.m (psd2.n - 1 - i) (psd2.m - 1 - j))) := by
  have hb : wrapAtPi (t - 0.5 * d) ≠ -Real.pi := by
    intro hw
    unfold wrapAtPi at hw
    apply hcut (⌊(t - 0.5 * d + Real.pi) / (2 * Real.pi)⌋ - 1)
    push_cast
    linarith
  have hw : ∀ i j, inWedge t d ((thetaArr psd2.n psd2.m).get i j) = true ↔
      AngWithin t d (pixelAngle psd2.n psd2.m i j) := by
    intro i j
    rw [theta_eq]
    exact inWedge_iff hd0 hd1 (Complex.neg_pi_lt_arg _) (Complex.arg_le_pi _) (Or.inr hb)
  have haz : out.azim = some (azimMask psd2.n psd2.m t d) := by
    simp only [pspecFn, pspecAzim, ht, hd] at h
    revert h
    cases pspecNbins a.nbins (pspecDists psd2.n psd2.m) a.binsize with
    | error e => intro h; cases h
    | ok nb =>
      cases pspecMaxBin a.maxBin a.returnFreqs (pspecDists psd2.n psd2.m) with
      | error e =>
        intro h
        cases hr : a.returnFreqs <;> rw [hr] at h
        · cases h
        · cases hf : freqDist psd2.n psd2.m <;> rw [hf] at h <;> cases h
      | ok mb =>
        intro h
        cases hr : a.returnFreqs <;> rw [hr] at h
        · cases h
          unfold pspecOutput; cases a.returnStddev <;> rfl
        · cases hf : freqDist psd2.n psd2.m <;> rw [hf] at h
          · cases h
          · cases h
            unfold pspecOutput; cases a.returnStddev <;> rfl
  refine ⟨azimMask psd2.n psd2.m t d, haz, rfl, rfl, ?_⟩
  intro i hi j hj
  rw [azimMask_get hi hj, hw, hw]
  rfl

/-- Non-vacuity of the wedge hypotheses, with the wedge straddling the cut at `±π`. -/
example : ∃ out, pspecFn ⟨4, 5, fun _ _ => some 1⟩
      { theta0 := some Real.pi, deltaTheta := some (Real.pi / 2), returnFreqs := false,
        nbins := some 3, maxBin := some 2 } = .ok out ∧
      (0 : ℝ) < Real.pi / 2 ∧ Real.pi / 2 < 2 * Real.pi ∧
      ∀ k : ℤ, Real.pi - Real.pi / 2 / 2 ≠ (2 * k + 1) * Real.pi := by
  have hp := Real.pi_pos
  refine ⟨_, rfl, by positivity, by linarith, ?_⟩
  intro k hk
  have h1 : (3 : ℝ) / 4 = 2 * k + 1 := by
    have : Real.pi * (3 / 4) = Real.pi * (2 * k + 1) := by linarith
    exact mul_left_cancel₀ hp.ne' this
  have h2 : (3 : ℤ) = 8 * k + 4 := by
    have : (3 : ℝ) = 8 * k + 4 := by linarith
    exact_mod_cast this
  omega

/-- Without a width the wedge is refused with ValueError. -/
theorem C06_missing_width (psd2 : Arr2 (Option ℝ)) (a : PspecArgs) (t : ℝ)
    (ht : a.theta0 = some t) (hd : a.deltaTheta = none) :
    pspecFn psd2 a = .error .valueError := by
  simp only [pspecFn, pspecAzim, ht, hd]
  rfl

/-- A full turn keeps every pixel. -/
theorem C06_full_turn (n m : ℕ) (t : ℝ) (i j : ℕ) (hi : i < n) (hj : j < m) :
    (azimMask n m t (2 * Real.pi)).get i j = true := by
  rw [azimMask_get hi hj]
  right; left
  have hp := Real.pi_pos
  have h1 := wrapAtPi_mem (t - 0.5 * (2 * Real.pi))
  have h : wrapAtPi (t + 0.5 * (2 * Real.pi)) = wrapAtPi (t - 0.5 * (2 * Real.pi)) :=
    wrapAtPi_unique (k := ⌊(t - 0.5 * (2 * Real.pi) + Real.pi) / (2 * Real.pi)⌋ + 1)
      (by unfold wrapAtPi; push_cast; ring) h1.1 h1.2
  simp only [inWedge, h, lt_irrefl, if_false, Bool.or_eq_true, decide_eq_true_eq]
  exact le_total _ _

/-- The middle pixels are always kept. -/
theorem C06_middle_kept (n m : ℕ) (t d : ℝ) (i j : ℕ) (hi : i < n) (hj : j < m)
    (hc : InMiddle n m i j) : (azimMask n m t d).get i j = true := by
  rw [azimMask_get hi hj]; exact Or.inl hc

/-- Reversing both axes maps the kept set to itself, away from the middle pixels, for every wedge
(any angles).  Missing from the full claim: the middle pixels of odd-sized maps, see
`C06_middle_not_symmetric`. -/
theorem C06_point_symmetric_partial (n m : ℕ) (t d : ℝ) (i j : ℕ) (hi : i < n) (hj : j < m)
    (hc : ¬ InMiddle n m i j) (hc' : ¬ InMiddle n m (n - 1 - i) (m - 1 - j)) :
    (azimMask n m t d).get (n - 1 - i) (m - 1 - j) = (azimMask n m t d).get i j := by
  have e1 : n - 1 - (n - 1 - i) = i := by omega
  have e2 : m - 1 - (m - 1 - j) = j := by omega
  rw [Bool.eq_iff_iff, azimMask_get (by omega) (by omega), azimMask_get hi hj, e1, e2]
  unfold InMiddle at hc hc'
  tauto

/-- For even-sized maps the kept set is symmetric without exception. -/
theorem C06_point_symmetric_even (n m : ℕ) (hn : Even n) (hm : Even m) (t d : ℝ) (i j : ℕ)
    (hi : i < n) (hj : j < m) :
    (azimMask n m t d).get (n - 1 - i) (m - 1 - j) = (azimMask n m t d).get i j := by
  have e1 : n - 1 - (n - 1 - i) = i := by omega
  have e2 : m - 1 - (m - 1 - j) = j := by omega
  obtain ⟨a, rfl⟩ := hn
  obtain ⟨b, rfl⟩ := hm
  rw [Bool.eq_iff_iff, azimMask_get (by omega) (by omega), azimMask_get hi hj, e1, e2]
  have h1 : (a + a - 1 - i = (a + a) / 2 ∨ a + a - 1 - i + 1 = (a + a) / 2) ↔
      (i = (a + a) / 2 ∨ i + 1 = (a + a) / 2) := by omega
  have h2 : (b + b - 1 - j = (b + b) / 2 ∨ b + b - 1 - j + 1 = (b + b) / 2) ↔
      (j = (b + b) / 2 ∨ j + 1 = (b + b) / 2) := by omega
  rw [h1, h2]
  tauto

private theorem quarter_not_within (x : ℝ) (hx : x = Real.pi / 4 ∨ x = -(3 * Real.pi / 4)) :
    ¬ AngWithin (Real.pi / 2) (Real.pi / 4) x := by
  have hp := Real.pi_pos
  rintro ⟨k, hk⟩
  rw [abs_le] at hk
  rcases hx with rfl | rfl
  · have h1 : (0 : ℝ) < 16 * k - 0 := by nlinarith [hk.1]
    have h2 : (16 : ℝ) * k < 8 := by nlinarith [hk.2]
    have h3 : (0 : ℤ) < 16 * k := by
      have : (0 : ℝ) < ((16 * k : ℤ) : ℝ) := by push_cast; linarith
      exact_mod_cast this
    have h4 : 16 * k < 8 := by
      have : ((16 * k : ℤ) : ℝ) < ((8 : ℤ) : ℝ) := by push_cast; linarith
      exact_mod_cast this
    omega
  · have h1 : (8 : ℝ) < 16 * k := by nlinarith [hk.1]
    have h2 : (16 : ℝ) * k < 16 := by nlinarith [hk.2]
    have h3 : (8 : ℤ) < 16 * k := by
      have : ((8 : ℤ) : ℝ) < ((16 * k : ℤ) : ℝ) := by push_cast; linarith
      exact_mod_cast this
    have h4 : 16 * k < 16 := by
      have : ((16 * k : ℤ) : ℝ) < ((16 : ℤ) : ℝ) := by push_cast; linarith
      exact_mod_cast this
    omega

/-- The full symmetry claim fails for odd sizes: in a 3×3 map, with a wedge of width 45° about
90°, corner pixel (0,0) is kept (it is in the always-kept block) while its mirror (2,2) is not. -/
theorem C06_middle_not_symmetric :
    ∃ t d : ℝ, 0 < d ∧ d < 2 * Real.pi ∧ (azimMask 3 3 t d).get 0 0 = true ∧
      (azimMask 3 3 t d).get 2 2 = false := by
  have hp := Real.pi_pos
  refine ⟨Real.pi / 2, Real.pi / 4, by positivity, by linarith, ?_, ?_⟩
  · exact C06_middle_kept 3 3 _ _ 0 0 (by norm_num) (by norm_num) (by simp [InMiddle])
  · rw [Bool.eq_false_iff, ne_eq, azimMask_get (by norm_num) (by norm_num)]
    have hb : ∀ i j, inWedge (Real.pi / 2) (Real.pi / 4) ((thetaArr 3 3).get i j) = true ↔
        AngWithin (Real.pi / 2) (Real.pi / 4) (pixelAngle 3 3 i j) := by
      intro i j
      rw [theta_eq]
      apply inWedge_iff (by positivity) (by linarith) (Complex.neg_pi_lt_arg _)
        (Complex.arg_le_pi _)
      right
      rw [wrapAtPi_unique (y := Real.pi * (3 / 8)) (k := 0) (by push_cast; ring) (by linarith)
        (by linarith)]
      linarith
    rw [hb, hb]
    have a1 : pixelAngle 3 3 2 2 = Real.pi / 4 := by
      have : (⟨((2 : ℕ) : ℝ) - ((3 / 2 : ℕ) : ℝ), ((2 : ℕ) : ℝ) - ((3 / 2 : ℕ) : ℝ)⟩ : ℂ) =
          (Real.sqrt 2 : ℝ) * (Real.cos (Real.pi / 4) + Real.sin (Real.pi / 4) * Complex.I) := by
        rw [Real.cos_pi_div_four, Real.sin_pi_div_four]
        have h2 : Real.sqrt 2 * Real.sqrt 2 = 2 := Real.mul_self_sqrt (by norm_num)
        apply Complex.ext
        · simp; norm_num; nlinarith
        · simp; norm_num; nlinarith
      rw [pixelAngle, this, Complex.ofReal_cos, Complex.ofReal_sin,
        Complex.arg_mul_cos_add_sin_mul_I (by positivity)]
      constructor <;> linarith
    have a2 : pixelAngle 3 3 (3 - 1 - 2) (3 - 1 - 2) = -(3 * Real.pi / 4) := by
      have : (⟨((3 - 1 - 2 : ℕ) : ℝ) - ((3 / 2 : ℕ) : ℝ), ((3 - 1 - 2 : ℕ) : ℝ) - ((3 / 2 : ℕ) : ℝ)⟩ : ℂ) =
          (Real.sqrt 2 : ℝ) * (Real.cos (-(3 * Real.pi / 4)) + Real.sin (-(3 * Real.pi / 4)) * Complex.I) := by
        have e : (3 * Real.pi / 4) = Real.pi - Real.pi / 4 := by ring
        rw [Real.cos_neg, Real.sin_neg, e, Real.cos_pi_sub, Real.sin_pi_sub, Real.cos_pi_div_four,
          Real.sin_pi_div_four]
        have h2 : Real.sqrt 2 * Real.sqrt 2 = 2 := Real.mul_self_sqrt (by norm_num)
        apply Complex.ext
        · simp; nlinarith
        · simp; nlinarith
      rw [pixelAngle, this, Complex.ofReal_cos, Complex.ofReal_sin,
        Complex.arg_mul_cos_add_sin_mul_I (by positivity)]
      constructor <;> linarith
    rw [a1, a2]
    rintro (h | h | h)
    · simp at h
    · exact quarter_not_within _ (Or.inl rfl) h
    · exact quarter_not_within _ (Or.inr rfl) h

/-- The excluded boundary case is a real discrepancy: when the lower limit is exactly the
negative x axis, the direction `π` (which is on the wedge's edge) fails the wedge test. -/
theorem C06_edge_on_cut :
    ∃ t d : ℝ, 0 < d ∧ d < 2 * Real.pi ∧ AngWithin t d Real.pi ∧ inWedge t d Real.pi = false := by
  have hp := Real.pi_pos
  refine ⟨-(Real.pi / 2), Real.pi, hp, by linarith, ⟨-1, ?_⟩, ?_⟩
  · rw [abs_le]; constructor <;> push_cast <;> linarith
  · have h0 : wrapAtPi (-(Real.pi / 2) - 0.5 * Real.pi) = -Real.pi :=
      wrapAtPi_unique (k := 0) (by push_cast; ring) le_rfl (by linarith)
    have h1 : wrapAtPi (-(Real.pi / 2) + 0.5 * Real.pi) = 0 :=
      wrapAtPi_unique (k := 0) (by push_cast; ring) (by linarith) (by linarith)
    simp only [inWedge, h0, h1]
    rw [if_pos (by linarith)]
    simp [hp]

end TS
