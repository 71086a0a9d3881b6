import Verif.Model.BaseStat
import Mathlib.Tactic.Linarith
import Mathlib.Tactic.FieldSimp
import Mathlib.Tactic.NormNum
import Mathlib.Tactic.Positivity

/-!
C58 — spatial unit conversions.
-/

namespace TS

namespace Spec

/-- The angle in degrees of a number of pixels, for a pixel of `v` units of `deg` degrees each. -/
def pixelsToDeg (v deg p : ℝ) : ℝ := p * (v * deg)

/-- Small-angle size in pc of an angle in degrees at a distance of `d` units of `pc` parsecs each. -/
noncomputable def degToPc (d pc angle : ℝ) : ℝ := angle * (Real.pi / 180) * (d * pc)

end Spec

variable (s : Spatial)

/-- A statistic with a header with pixel size `v` in a unit of `deg` degrees, and a distance of `d` in a unit of `pc` parsecs. -/
def spStat (v deg d pc : ℝ) : Spatial := ⟨some (v, deg), some (d, pc)⟩

private theorem rad_pos : (0 : ℝ) < Real.pi / 180 := by positivity

/-- Pixel to angle and pixel to length give the angle of that many pixels and its size at the distance, in the requested
unit. -/
theorem C58_values (v d pc p : ℝ) (hv : 0 < v) (hd : 0 < d) (hpc : 0 < pc) :
    (∀ u, 0 < u → ∃ q, fromPixel (spStat v 1 d pc) p (.angle u) = .ok q ∧ q.unit = .angle u ∧
      q.val * u = Spec.pixelsToDeg v 1 p) ∧
    (∀ u, 0 < u → ∃ q, fromPixel (spStat v 1 d pc) p (.length u) = .ok q ∧ q.unit = .length u ∧
      q.val * u = Spec.degToPc d pc (Spec.pixelsToDeg v 1 p)) := by
  constructor
  · intro u hu
    refine ⟨_, rfl, rfl, ?_⟩
    unfold Spec.pixelsToDeg
    simp only
    field_simp
  · intro u hu
    refine ⟨_, rfl, rfl, ?_⟩
    unfold Spec.degToPc Spec.pixelsToDeg
    simp only
    field_simp

/-- Converting to any angular or physical unit and back to pixels gives the original number. -/
theorem C58_round_trip (v deg d pc p : ℝ) (hv : 0 < v) (hdeg : 0 < deg) (hd : 0 < d) (hpc : 0 < pc) (u : SUnit)
    (hu : u = .pix ∨ (∃ x, 0 < x ∧ u = .angle x) ∨ ∃ x, 0 < x ∧ u = .length x) :
    ∃ q, fromPixel (spStat v deg d pc) p u = .ok q ∧ toPixel (spStat v deg d pc) q = .ok p := by
  have hr := rad_pos
  rcases hu with rfl | ⟨x, hx, rfl⟩ | ⟨x, hx, rfl⟩
  · exact ⟨_, rfl, rfl⟩
  · refine ⟨_, rfl, ?_⟩
    change Except.ok _ = Except.ok _
    congr 1
    field_simp
  · refine ⟨_, rfl, ?_⟩
    change Except.ok _ = Except.ok _
    congr 1
    field_simp

/-- The other way round: a quantity converted to pixels and back to its own unit is unchanged. -/
theorem C58_round_trip_back (v deg d pc x : ℝ) (hv : 0 < v) (hdeg : 0 < deg) (hd : 0 < d) (hpc : 0 < pc) (u : SUnit)
    (hu : u = .pix ∨ (∃ x, 0 < x ∧ u = .angle x) ∨ ∃ x, 0 < x ∧ u = .length x) :
    ∃ p, toPixel (spStat v deg d pc) ⟨x, u⟩ = .ok p ∧ fromPixel (spStat v deg d pc) p u = .ok ⟨x, u⟩ := by
  have hr := rad_pos
  rcases hu with rfl | ⟨y, hy, rfl⟩ | ⟨y, hy, rfl⟩
  · exact ⟨_, rfl, rfl⟩
  · refine ⟨_, rfl, ?_⟩
    change Except.ok _ = Except.ok _
    congr 2
    field_simp
  · refine ⟨_, rfl, ?_⟩
    change Except.ok _ = Except.ok _
    congr 2
    field_simp

/-- Pixel to angle to physical to pixel, going through pixels each time, returns the original. -/
theorem C58_cycle (v deg d pc p a l : ℝ) (hv : 0 < v) (hdeg : 0 < deg) (hd : 0 < d) (hpc : 0 < pc) (ha : 0 < a) (hl : 0 < l) :
    ∃ q1 p1 q2, fromPixel (spStat v deg d pc) p (.angle a) = .ok q1 ∧ toPixel (spStat v deg d pc) q1 = .ok p1 ∧
      fromPixel (spStat v deg d pc) p1 (.length l) = .ok q2 ∧ toPixel (spStat v deg d pc) q2 = .ok p := by
  obtain ⟨q1, h1, h2⟩ := C58_round_trip v deg d pc p hv hdeg hd hpc (.angle a) (Or.inr (Or.inl ⟨a, ha, rfl⟩))
  obtain ⟨q2, h3, h4⟩ := C58_round_trip v deg d pc p hv hdeg hd hpc (.length l) (Or.inr (Or.inr ⟨l, hl, rfl⟩))
  exact ⟨q1, p, q2, h1, h2, h3, h4⟩

/-- 10 arcsec pixels, a distance of 100 pc. -/
example : ∃ q, fromPixel (spStat (1 / 360) 1 100 1) 36 (.angle (1 / 3600)) = .ok q ∧ q.val = 360 := by
  refine ⟨_, rfl, ?_⟩
  norm_num

/-- The pixel area of a squared size is the square of its pixel size. -/
theorem C58_area (x : ℝ) (u : SUnit) (hx : 0 ≤ x) (p : ℝ) (h : toPixel s ⟨x, u⟩ = .ok p) :
    toPixelArea s (x ^ 2) u = .ok (some (p ^ 2)) := by
  unfold toPixelArea
  rw [Real.sqrt_sq hx, h]
  simp only [bind, Except.bind, pure, Except.pure]
  rw [if_neg (not_lt.2 (sq_nonneg x))]

example : toPixelArea (spStat 2 1 1 1) (4 ^ 2) (.angle 1) = .ok (some 4) := by
  have h : toPixel (spStat 2 1 1 1) ⟨4, .angle 1⟩ = .ok 2 := by
    change Except.ok _ = Except.ok _
    congr 1
    norm_num
  rw [C58_area (spStat 2 1 1 1) 4 (.angle 1) (by norm_num) 2 h]
  norm_num

/-- A frequency of one over a length converts to one over the converted length, and converting to any frequency unit and back
returns the original. -/
theorem C58_frequency (v deg d pc f : ℝ) (hv : 0 < v) (hdeg : 0 < deg) (hd : 0 < d) (hpc : 0 < pc) (u : SUnit)
    (hu : u = .pix ∨ (∃ x, 0 < x ∧ u = .angle x) ∨ ∃ x, 0 < x ∧ u = .length x) :
    (∀ x p, toPixel (spStat v deg d pc) ⟨x, u⟩ = .ok p → toPixelFreq (spStat v deg d pc) (1 / x) u = .ok (1 / p)) ∧
    (∃ g, fromPixelFreq (spStat v deg d pc) f u = .ok g ∧ toPixelFreq (spStat v deg d pc) g u = .ok f) := by
  constructor
  · intro x p h
    unfold toPixelFreq
    rw [one_div_one_div, h]
    rfl
  · obtain ⟨q, h1, h2⟩ := C58_round_trip v deg d pc (1 / f) hv hdeg hd hpc u hu
    have hun : q.unit = u := by
      rcases hu with rfl | ⟨y, hy, rfl⟩ | ⟨y, hy, rfl⟩
      · have : fromPixel (spStat v deg d pc) (1 / f) .pix = .ok ⟨1 / f, .pix⟩ := rfl
        rw [this, Except.ok.injEq] at h1; rw [← h1]
      · have : fromPixel (spStat v deg d pc) (1 / f) (.angle y) = .ok ⟨1 / f * v / y, .angle y⟩ := rfl
        rw [this, Except.ok.injEq] at h1; rw [← h1]
      · have : fromPixel (spStat v deg d pc) (1 / f) (.length y) = .ok ⟨1 / f * (v * deg * (Real.pi / 180) * d) * pc / y, .length y⟩ := rfl
        rw [this, Except.ok.injEq] at h1; rw [← h1]
    refine ⟨1 / q.val, ?_, ?_⟩
    · unfold fromPixelFreq
      rw [h1]
      rfl
    · unfold toPixelFreq
      have : (⟨1 / (1 / q.val), u⟩ : SQ) = q := by rw [one_div_one_div, ← hun]
      rw [this, h2]
      simp only [bind, Except.bind, pure, Except.pure, one_div_one_div]

/-- Without a distance every conversion to or from a physical unit is refused, and without a header every angular one as well; units
that are neither are refused. -/
theorem C58_refused (p x u : ℝ) :
    (∀ s : Spatial, s.dist = none → fromPixel s p (.length u) = .error .attributeError ∧
      toPixel s ⟨x, .length u⟩ = .error .attributeError ∧ getDistance s = .error .attributeError) ∧
    (∀ s : Spatial, s.ang = none → fromPixel s p (.angle u) = .error .attributeError ∧
      toPixel s ⟨x, .angle u⟩ = .error .attributeError ∧ fromPixel s p (.length u) = .error .attributeError ∧
      toPixel s ⟨x, .length u⟩ = .error .attributeError ∧ getDistance s = .error .attributeError) ∧
    (∀ s : Spatial, fromPixel s p .other = .error .unitConversionError ∧ toPixel s ⟨x, .other⟩ = .error .unitConversionError) := by
  refine ⟨fun s h => ?_, fun s h => ?_, fun s => ⟨rfl, rfl⟩⟩
  · unfold fromPixel toPixel physFactor getDistance
    simp only [h]
    refine ⟨rfl, rfl, ?_⟩
    cases s.ang <;> rfl
  · unfold fromPixel toPixel physFactor angFactor getDistance
    obtain ⟨ang, dist⟩ := s
    simp only at h
    subst h
    cases dist <;> exact ⟨rfl, rfl, rfl, rfl, rfl⟩

/-- A distance must be a scalar length; anything else is refused and the old distance stays. -/
theorem C58_distance (a : DistArg) :
    (∀ x pc, a = .quantity ⟨x, .length pc⟩ true → setDistance s a = ({ s with dist := some (x, pc) }, none)) ∧
    ((∀ x pc, a ≠ .quantity ⟨x, .length pc⟩ true) → (setDistance s a).1 = s ∧
      ((setDistance s a).2 = some .typeError ∨ (setDistance s a).2 = some .unitConversionError)) := by
  constructor
  · rintro x pc rfl; rfl
  · intro h
    cases a with
    | other => exact ⟨rfl, Or.inl rfl⟩
    | quantity q sc =>
      obtain ⟨x, u⟩ := q
      cases u with
      | pix => exact ⟨rfl, Or.inr rfl⟩
      | angle => exact ⟨rfl, Or.inr rfl⟩
      | other => exact ⟨rfl, Or.inr rfl⟩
      | length pc =>
        cases sc with
        | false => exact ⟨rfl, Or.inl rfl⟩
        | true => exact absurd rfl (h x pc)

/-- VIOLATION: the angular conversion takes the number of the pixel size for degrees whatever its unit, so for a header whose axes
are not in degrees (linear axes in arcseconds, say) an angle is off by the ratio of the units (while the physical size, which uses the unit, is not). -/
theorem C58_unit_violated (v deg d pc p u : ℝ) (hv : v ≠ 0) (hu : u ≠ 0) (hp : p ≠ 0) (hdeg : deg ≠ 1) :
    ∃ q, fromPixel ⟨some (v, deg), some (d, pc)⟩ p (.angle u) = .ok q ∧ q.val * u * deg = Spec.pixelsToDeg v deg p ∧
      q.val * u ≠ Spec.pixelsToDeg v deg p := by
  refine ⟨_, rfl, ?_, ?_⟩
  · unfold Spec.pixelsToDeg
    simp only
    field_simp
  · unfold Spec.pixelsToDeg
    simp only
    rw [div_mul_cancel₀ _ hu]
    intro h
    apply hdeg
    have h2 : p * v * deg = p * v * 1 := by rw [mul_one]; linarith [h]
    exact mul_left_cancel₀ (mul_ne_zero hp hv) h2

end TS
