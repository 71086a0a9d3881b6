import Verif.Model.Io
import Mathlib.Tactic.Linarith
import Mathlib.Tactic.NormNum

/-!
C56 — mock headers describe the axes of the data.
-/

namespace TS

namespace Spec

/-- FITS axis `k` (1, 2, 3) of an array is numpy axis `ndim - k`. -/
def fitsAxisLen (shape : List ℕ) (k : ℕ) : ℕ := shape.getD (shape.length - k) 0

/-- FITS pixels are numbered from 1, so the centre of an axis of `n` pixels is at `(n + 1) / 2`. -/
noncomputable def fitsCentre (n : ℕ) : ℝ := ((n : ℝ) + 1) / 2

end Spec

/-- What holds for square images and cubes with square channels: the reference pixel of each sky axis is half a pixel before the
middle of that axis, the pixel scales are ∓ and ± the requested one, and the beam and rest frequency are the given ones. Missing: images
that are not square (`C56_swapped_violated`), and the reference pixel should be the middle (`C56_half_pixel_violated`). -/
theorem C56_square_partial (n k : ℕ) (pix spec beam rest v0 : ℝ) (isFreq : Bool) :
    (∃ h, createFitsHdu [n, n] (.image pix beam [n, n] rest) = .ok h ∧
      h.crpix1 = Spec.fitsCentre (Spec.fitsAxisLen [n, n] 1) - 1 / 2 ∧
      h.crpix2 = Spec.fitsCentre (Spec.fitsAxisLen [n, n] 2) - 1 / 2 ∧
      h.cdelt1 = -pix ∧ h.cdelt2 = pix ∧ h.bmaj = beam ∧ h.bmin = beam ∧ h.restfrq = rest ∧ h.spectral = none) ∧
    (∃ h, createFitsHdu [k, n, n] (.cube pix spec beam [k, n, n] rest v0 isFreq) = .ok h ∧
      h.crpix1 = Spec.fitsCentre (Spec.fitsAxisLen [k, n, n] 1) - 1 / 2 ∧
      h.crpix2 = Spec.fitsCentre (Spec.fitsAxisLen [k, n, n] 2) - 1 / 2 ∧
      h.cdelt1 = -pix ∧ h.cdelt2 = pix ∧ h.bmaj = beam ∧ h.bmin = beam ∧ h.restfrq = rest ∧
      h.spectral = some (v0, spec, 1, isFreq)) := by
  have e : Spec.fitsCentre n - 1 / 2 = (n : ℝ) / 2 := by unfold Spec.fitsCentre; ring
  constructor
  · exact ⟨_, rfl, e.symm, e.symm, rfl, rfl, rfl, rfl, rfl, rfl⟩
  · exact ⟨_, rfl, e.symm, e.symm, rfl, rfl, rfl, rfl, rfl, rfl⟩

/-- VIOLATION: for any image or cube whose channels are not square the two reference pixels are those of the other axis, so they can
be arbitrarily far from the centre (even outside the image). -/
theorem C56_swapped_violated (ny nx k : ℕ) (pix spec beam rest v0 : ℝ) (isFreq : Bool) :
    (∃ h, createFitsHdu [ny, nx] (.image pix beam [ny, nx] rest) = .ok h ∧
      h.crpix1 = Spec.fitsCentre (Spec.fitsAxisLen [ny, nx] 2) - 1 / 2 ∧
      h.crpix2 = Spec.fitsCentre (Spec.fitsAxisLen [ny, nx] 1) - 1 / 2 ∧
      (ny ≠ nx → h.crpix1 ≠ Spec.fitsCentre (Spec.fitsAxisLen [ny, nx] 1) - 1 / 2)) ∧
    (∃ h, createFitsHdu [k, ny, nx] (.cube pix spec beam [k, ny, nx] rest v0 isFreq) = .ok h ∧
      h.crpix1 = Spec.fitsCentre (Spec.fitsAxisLen [k, ny, nx] 2) - 1 / 2 ∧
      h.crpix2 = Spec.fitsCentre (Spec.fitsAxisLen [k, ny, nx] 1) - 1 / 2 ∧
      (ny ≠ nx → h.crpix1 ≠ Spec.fitsCentre (Spec.fitsAxisLen [k, ny, nx] 1) - 1 / 2)) := by
  have e : ∀ n : ℕ, (n : ℝ) / 2 = Spec.fitsCentre n - 1 / 2 := by intro n; unfold Spec.fitsCentre; ring
  have ne : ny ≠ nx → (ny : ℝ) / 2 ≠ Spec.fitsCentre nx - 1 / 2 := by
    intro h hc
    rw [← e] at hc
    have : (ny : ℝ) = nx := by linarith
    exact h (by exact_mod_cast this)
  exact ⟨⟨_, rfl, e ny, e nx, ne⟩, ⟨_, rfl, e ny, e nx, ne⟩⟩

/-- A 10 by 100 image (10 rows): the reference pixel along x is 5 and along y is 50, beyond the last row. -/
example : ∃ h, createFitsHdu [10, 100] (.image 1 3 [10, 100] 1) = .ok h ∧ h.crpix1 = 5 ∧ h.crpix2 = 50 := by
  refine ⟨_, rfl, ?_, ?_⟩ <;> norm_num

/-- VIOLATION: even for square images the reference pixel is never the middle of the image, but half a pixel off. -/
theorem C56_half_pixel_violated (n : ℕ) (pix beam rest : ℝ) (h : MockHeader)
    (hh : createFitsHdu [n, n] (.image pix beam [n, n] rest) = .ok h) :
    h.crpix1 ≠ Spec.fitsCentre n ∧ h.crpix2 ≠ Spec.fitsCentre n := by
  have e : createFitsHdu [n, n] (.image pix beam [n, n] rest) =
    .ok ⟨-pix, pix, (n : ℝ) / 2, (n : ℝ) / 2, 0, 0, beam, beam, rest, none⟩ := rfl
  rw [e, Except.ok.injEq] at hh
  subst hh
  unfold Spec.fitsCentre
  constructor <;> (simp only; intro hc; linarith)

/-- Data that is neither two- nor three-dimensional is refused, whatever the header arguments; two- and three-dimensional data need
the arguments of their kind. -/
theorem C56_dimensions (shape : List ℕ) (args : HeaderArgs) :
    (shape.length ≠ 2 ∧ shape.length ≠ 3 → createFitsHdu shape args = .error .valueError) ∧
    (∀ h, createFitsHdu shape args = .ok h → (shape.length = 2 ∧ h.spectral = none) ∨ (shape.length = 3 ∧ h.spectral.isSome = true)) := by
  unfold createFitsHdu
  constructor
  · rintro ⟨h2, h3⟩
    rw [if_neg h2, if_neg h3]
  · intro h hh
    by_cases h2 : shape.length = 2
    · rw [if_pos h2] at hh
      left
      refine ⟨h2, ?_⟩
      cases args with
      | cube => exact absurd hh (by simp)
      | image p b s r =>
        simp only at hh
        unfold createImageHeader at hh
        split at hh
        · rw [Except.ok.injEq] at hh; rw [← hh]
        · exact absurd hh (by simp)
    · rw [if_neg h2] at hh
      by_cases h3 : shape.length = 3
      · rw [if_pos h3] at hh
        right
        refine ⟨h3, ?_⟩
        cases args with
        | image => exact absurd hh (by simp)
        | cube p sp b s r v f =>
          simp only at hh
          unfold createCubeHeader at hh
          split at hh
          · rw [Except.ok.injEq] at hh; rw [← hh]; rfl
          · exact absurd hh (by simp)
      · rw [if_neg h3] at hh
        exact absurd hh (by simp)

example : createFitsHdu [4] (.image 1 1 [4] 1) = .error .valueError := (C56_dimensions [4] _).1 (by simp)

/-- VIOLATION: the shape is taken from the header arguments only; data of another shape is accepted with a header that does
not describe it. -/
theorem C56_shape_unchecked_violated (ny nx : ℕ) (dy dx : ℕ) (pix beam rest : ℝ) :
    createFitsHdu [dy, dx] (.image pix beam [ny, nx] rest) = createFitsHdu [ny, nx] (.image pix beam [ny, nx] rest) := rfl

end TS
