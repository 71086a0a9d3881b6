import Verif.Model.PcaFit
import Mathlib.Tactic.NormNum
import Mathlib.Tactic.FieldSimp
import Mathlib.Tactic.Positivity
import Mathlib.Analysis.SpecialFunctions.Sqrt

/-! C77: beam-corrected spatial widths of the eigenimages. -/

namespace TS

namespace Spec

/-- Width of a structure of axis widths `y`, `x` once `t` is taken off each. -/
noncomputable def deconvolved (t y x : ℝ) : ℝ := Real.sqrt ((y - t) ^ 2 + (x - t) ^ 2)

/-- The correction for a beam of full width at half maximum `fwhm` and pixels of size `cdelt` (same
unit). -/
noncomputable def beamShift (fwhm cdelt : ℝ) : ℝ := fwhm / (16 * Real.sqrt (Real.log 2) * |cdelt|)

end Spec

private theorem beamTerm_eq (fwhm cdelt : ℝ) : beamTerm fwhm cdelt = Spec.beamShift fwhm cdelt := by
  unfold beamTerm pixPerBeam Spec.beamShift
  have h2 : 0 < Real.log 2 := Real.log_pos (by norm_num)
  have : Real.sqrt (8 * Real.log 2) * Real.sqrt 2 = 4 * Real.sqrt (Real.log 2) := by
    rw [← Real.sqrt_mul (by positivity), show 8 * Real.log 2 * 2 = 4 ^ 2 * Real.log 2 by ring,
      Real.sqrt_mul (by positivity), Real.sqrt_sq (by norm_num)]
  rw [div_div _ (Real.sqrt (8 * Real.log 2)), this, div_div, ← mul_div_assoc,
    show |cdelt| * (4 * Real.sqrt (Real.log 2)) = 1 / 4 * (16 * Real.sqrt (Real.log 2) * |cdelt|) by ring]
  rw [show (3 : ℝ) / ((1 + 2) * (1 + 3)) = 1 / 4 by norm_num]
  exact mul_div_mul_left _ _ (by norm_num)

/-- **C77 (value).** With a beam and a pixel size in any angular units, the width of every image is the
width after taking the beam off each axis; images without a contour stay missing. -/
theorem C77_value (b c : ℝ) (db dc : ℝ) (ws : List (Option AxisWidths)) :
    ∃ out, finishWidths true (some ⟨b, .angle db⟩) (some ⟨c, .angle dc⟩) ws = .ok out ∧
      out.length = ws.length ∧
      ∀ (i : ℕ) (w : Option AxisWidths), ws[i]? = some w → ∃ v, out[i]? = some v ∧
        v.1 = w.map (fun w => Spec.deconvolved (Spec.beamShift (b * db) (c * dc)) w.y w.x) ∧
        (w = none → v.2 = none) := by
  refine ⟨_, rfl, by simp, fun i w hw => ?_⟩
  refine ⟨_, by rw [List.getElem?_map, hw]; rfl, ?_, ?_⟩
  · cases w with
    | none => rfl
    | some w => simp [widthOf, widthCorrect, Spec.deconvolved, beamTerm_eq]
  · rintro rfl; rfl

/-- Only the ratio of beam and pixel counts. -/
theorem C77_units (fwhm cdelt k : ℝ) (hk : 0 < k) :
    Spec.beamShift (k * fwhm) (k * cdelt) = Spec.beamShift fwhm cdelt := by
  unfold Spec.beamShift
  rw [abs_mul, abs_of_pos hk, show 16 * Real.sqrt (Real.log 2) * (k * |cdelt|) =
    k * (16 * Real.sqrt (Real.log 2) * |cdelt|) by ring]
  exact mul_div_mul_left _ _ hk.ne'

/-- **C77 (resolved structure).** When both axes are larger than the correction, the corrected width is
not larger than the uncorrected one and grows with each axis. Missing: axes smaller than the correction (`C77_unresolved_violated`). -/
theorem C77_resolved_partial (t y x y' x' : ℝ) (ht : 0 ≤ t) (hy : t ≤ y) (hx : t ≤ x) (hyy : y ≤ y') (hxx : x ≤ x') :
    Spec.deconvolved t y x ≤ Spec.deconvolved 0 y x ∧ Spec.deconvolved t y x ≤ Spec.deconvolved t y' x' := by
  unfold Spec.deconvolved
  constructor <;> exact Real.sqrt_le_sqrt (by nlinarith)

/-- **C77 (unresolved structure, violation).** Below the correction the order is reversed: of two
structures smaller than the beam term the smaller one gets the larger width, instead of no width. -/
theorem C77_unresolved_violated (b c : ℝ) (w w' : AxisWidths)
    (hy : w.y ≤ w'.y) (hx : w.x < w'.x) (hy' : w'.y ≤ Spec.beamShift b c) (hx' : w'.x ≤ Spec.beamShift b c) :
    ∃ v v' : ℝ, ∃ e e', finishWidths true (some ⟨b, .angle 1⟩) (some ⟨c, .angle 1⟩) [some w, some w'] =
      .ok [(some v, e), (some v', e')] ∧ v' < v := by
  refine ⟨_, _, _, _, rfl, ?_⟩
  simp only [widthOf, widthCorrect, mul_one, beamTerm_eq]
  exact Real.sqrt_lt_sqrt (by positivity) (by nlinarith)

private theorem deriv_axis (t y x : ℝ) (h : 0 < (y - t) ^ 2 + (x - t) ^ 2) :
    HasDerivAt (fun s => Spec.deconvolved t s x) ((y - t) / Spec.deconvolved t y x) y ∧
    HasDerivAt (fun s => Spec.deconvolved t y s) ((x - t) / Spec.deconvolved t y x) x := by
  unfold Spec.deconvolved
  constructor
  · have h1 : HasDerivAt (fun s : ℝ => (s - t) ^ 2 + (x - t) ^ 2) (2 * (y - t)) y := by
      have := (((hasDerivAt_id y).sub_const t).pow 2).add_const ((x - t) ^ 2)
      simpa using this
    have := h1.sqrt h.ne'
    convert this using 1
    field_simp
  · have h1 : HasDerivAt (fun s : ℝ => (y - t) ^ 2 + (s - t) ^ 2) (2 * (x - t)) x := by
      have := (((hasDerivAt_id x).sub_const t).pow 2).const_add ((y - t) ^ 2)
      simpa using this
    have := h1.sqrt h.ne'
    convert this using 1
    field_simp

/-- **C77 (error).** The error of a nonzero width is the first-order error for independent errors of the
two axes. -/
theorem C77_error (b c : ℝ) (w : AxisWidths)
    (h : w.y ≠ Spec.beamShift b c ∨ w.x ≠ Spec.beamShift b c) :
    ∃ v e : ℝ, finishWidths true (some ⟨b, .angle 1⟩) (some ⟨c, .angle 1⟩) [some w] = .ok [(some v, some e)] ∧
      e = Real.sqrt ((deriv (fun s => Spec.deconvolved (Spec.beamShift b c) s w.x) w.y * w.ey) ^ 2 +
        (deriv (fun s => Spec.deconvolved (Spec.beamShift b c) w.y s) w.x * w.ex) ^ 2) := by
  set t := Spec.beamShift b c with ht
  have hpos : 0 < (w.y - t) ^ 2 + (w.x - t) ^ 2 := by
    rcases h with h | h
    · have := sq_pos_of_ne_zero (sub_ne_zero.2 h); positivity
    · have := sq_pos_of_ne_zero (sub_ne_zero.2 h); positivity
  have hs : 0 < Real.sqrt ((w.y - t) ^ 2 + (w.x - t) ^ 2) := Real.sqrt_pos.2 hpos
  obtain ⟨d1, d2⟩ := deriv_axis t w.y w.x hpos
  refine ⟨Real.sqrt ((w.y - t) ^ 2 + (w.x - t) ^ 2), Real.sqrt (((w.x - t) * w.ex) ^ 2 + ((w.y - t) * w.ey) ^ 2) /
    Real.sqrt ((w.y - t) ^ 2 + (w.x - t) ^ 2), ?_, ?_⟩
  · simp only [finishWidths, if_true, toDeg, bind, Except.bind, pure, Except.pure, List.map, mul_one, widthOf,
      widthCorrect, beamTerm_eq, ← ht]
    simp [divO, hs.ne']
  · rw [d1.deriv, d2.deriv]
    unfold Spec.deconvolved
    rw [eq_comm, Real.sqrt_eq_iff_mul_self_eq (by positivity) (by positivity)]
    have e1 := Real.mul_self_sqrt hpos.le
    have e2 := Real.mul_self_sqrt (show 0 ≤ ((w.x - t) * w.ex) ^ 2 + ((w.y - t) * w.ey) ^ 2 by positivity)
    have e3 : Real.sqrt ((w.y - t) ^ 2 + (w.x - t) ^ 2) ^ 2 = (w.y - t) ^ 2 + (w.x - t) ^ 2 := Real.sq_sqrt hpos.le
    field_simp
    rw [Real.sq_sqrt (by positivity)]
    ring

/-- The correction needs a beam and a pixel size, both angles; without it they are not looked at. -/
theorem C77_checked (beam cdelt : Option SQ) (ws : List (Option AxisWidths)) :
    (beam = none ∨ cdelt = none → finishWidths true beam cdelt ws = .error .valueError) ∧
    (∀ b c, beam = some b → cdelt = some c → ((∀ d, b.unit ≠ .angle d) ∨ ∀ d, c.unit ≠ .angle d) →
      finishWidths true beam cdelt ws = .error .unitConversionError) ∧
    finishWidths false beam cdelt ws = finishWidths false none none ws := by
  refine ⟨?_, ?_, rfl⟩
  · rintro (rfl | rfl)
    · rfl
    · cases beam <;> rfl
  · rintro ⟨bv, bu⟩ ⟨cv, cu⟩ rfl rfl h
    simp only [finishWidths, if_true]
    cases bu <;> cases cu <;> first | rfl | skip
    rename_i d d'
    rcases h with h | h
    · exact absurd rfl (h d)
    · exact absurd rfl (h d')

/-- Non-vacuity: a beam of 16 pixels makes the term `1/√(ln 2)`, above 1: axis widths of 1/2 and 1 pixels
are below it. -/
example : ∃ w w' : AxisWidths, w.y ≤ w'.y ∧ w.x < w'.x ∧ w'.y ≤ Spec.beamShift 16 1 ∧ w'.x ≤ Spec.beamShift 16 1 := by
  have h : (1 : ℝ) ≤ Spec.beamShift 16 1 := by
    unfold Spec.beamShift
    have h2 : 0 < Real.log 2 := Real.log_pos (by norm_num)
    have h1 : Real.log 2 ≤ 1 := by
      have := Real.log_le_sub_one_of_pos (show (0 : ℝ) < 2 by norm_num)
      linarith
    have hs : Real.sqrt (Real.log 2) ≤ 1 := Real.sqrt_le_one.2 h1
    have hp : 0 < Real.sqrt (Real.log 2) := Real.sqrt_pos.2 h2
    rw [abs_one, le_div_iff₀ (by positivity)]
    linarith
  exact ⟨⟨1 / 2, 1 / 2, 0, 0⟩, ⟨1, 1, 0, 0⟩, by norm_num, by norm_num, h, h⟩

end TS
