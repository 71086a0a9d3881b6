import Verif.Lemmas.Psds
import Verif.Lemmas.PSpec
import Verif.Props.C02

/-! C07 — radial coordinate grids. -/

namespace TS
open Finset Spec

/-- Pixel grids have the requested shape, step by one along their own axis, are constant along
the other, and read 0 exactly on the centre (default `n // 2`, else the truncated argument). -/
theorem C07_pixel_grid (n m : ℕ) (yc xc : Option ℝ) :
    let g := makeRadialArrays n m yc xc
    let cy : ℤ := match yc with | none => (n / 2 : ℕ) | some c => if 0 ≤ c then ⌊c⌋ else ⌈c⌉
    let cx : ℤ := match xc with | none => (m / 2 : ℕ) | some c => if 0 ≤ c then ⌊c⌋ else ⌈c⌉
    (g.1.n = n ∧ g.1.m = m ∧ g.2.n = n ∧ g.2.m = m) ∧
    (∀ i j, g.1.get (i + 1) j = g.1.get i j + 1 ∧ g.2.get i (j + 1) = g.2.get i j + 1) ∧
    (∀ i j i' j', g.1.get i j = g.1.get i j' ∧ g.2.get i j = g.2.get i' j) ∧
    (∀ i j : ℕ, (g.1.get i j = 0 ↔ (i : ℤ) = cy) ∧ (g.2.get i j = 0 ↔ (j : ℤ) = cx)) := by
  refine ⟨⟨rfl, rfl, rfl, rfl⟩, ?_, ?_, ?_⟩
  · intro i j
    simp only [makeRadialArrays]
    constructor <;> push_cast <;> ring
  · intro i j i' j'; exact ⟨rfl, rfl⟩
  · intro i j
    simp only [makeRadialArrays]
    constructor
    · cases yc <;> simp only [axisCentre, pyInt] <;> constructor <;> intro h <;> linarith
    · cases xc <;> simp only [axisCentre, pyInt] <;> constructor <;> intro h <;> linarith

/-- With the default centre exactly one pixel of a non-empty map has both coordinates 0. -/
theorem C07_unique_centre (n m : ℕ) (hn : 0 < n) (hm : 0 < m) :
    ∃! p : ℕ × ℕ, p.1 < n ∧ p.2 < m ∧ (makeRadialArrays n m none none).1.get p.1 p.2 = 0 ∧
      (makeRadialArrays n m none none).2.get p.1 p.2 = 0 := by
  obtain ⟨-, -, -, h⟩ := C07_pixel_grid n m none none
  refine ⟨(n / 2, m / 2), ⟨by simp only; omega, by simp only; omega, ?_, ?_⟩, ?_⟩
  · exact (h _ _).1.2 rfl
  · exact (h _ _).2.2 rfl
  · rintro ⟨i, j⟩ ⟨-, -, h1, h2⟩
    have e1 := (h i j).1.1 h1
    have e2 := (h i j).2.1 h2
    simp only [Nat.cast_inj] at e1 e2
    rw [e1, e2]

/-- The frequency grids hold, at each pixel of the public `ps2D` array, the frequency of the
Fourier mode stored there: the power at `(yy_freq * n, xx_freq * m)`, both in `[-1/2, 1/2)`. -/
theorem C07_freq_grid_matches_ps2D (a ps : Arr2 ℝ) (hn : 0 < a.n) (hm : 0 < a.m)
    (h : computePspec a none = .ok ps) (i j : ℕ) (hi : i < a.n) (hj : j < a.m) :
    let g := makeRadialFreqArrays a.n a.m
    ∃ k l : ℤ, g.1.get i j = k / a.n ∧ g.2.get i j = l / a.m ∧
      (ps2DProperty ps).get i j = power2 a k l ∧
      -(1 / 2) ≤ g.1.get i j ∧ g.1.get i j < 1 / 2 ∧ -(1 / 2) ≤ g.2.get i j ∧ g.2.get i j < 1 / 2 := by
  intro g
  have hn' : (0 : ℝ) < a.n := by exact_mod_cast hn
  have hm' : (0 : ℝ) < a.m := by exact_mod_cast hm
  have hg1 : g.1.get i j = (rowFreq a.n i : ℝ) / a.n := freqArrays_fst hi
  have hg2 : g.2.get i j = (colFreq a.m j : ℝ) / a.m := freqArrays_snd hj
  refine ⟨rowFreq a.n i, colFreq a.m j, hg1, hg2, ?_, ?_, ?_, ?_, ?_⟩
  · obtain ⟨ps', hps', hc⟩ := C02_compute_pspec a hn hm
    rw [h] at hps'
    cases hps'
    obtain ⟨e1, e2, e3⟩ := hc
    simp only [ps2DProperty, Arr2.slice0, e1, resolve_full_rev, rev_ix hi]
    rw [e3 _ (by omega) j hj]
    congr 1
    simp only [rowFreq]; omega
  · rw [hg1, le_div_iff₀ hn']
    have : -(a.n : ℤ) ≤ 2 * rowFreq a.n i := by simp only [rowFreq]; omega
    have : -(a.n : ℝ) ≤ 2 * rowFreq a.n i := by exact_mod_cast this
    linarith
  · rw [hg1, div_lt_iff₀ hn']
    have : 2 * rowFreq a.n i < (a.n : ℤ) := by simp only [rowFreq]; omega
    have : 2 * (rowFreq a.n i : ℝ) < a.n := by exact_mod_cast this
    linarith
  · rw [hg2, le_div_iff₀ hm']
    have : -(a.m : ℤ) ≤ 2 * colFreq a.m j := by simp only [colFreq]; omega
    have : -(a.m : ℝ) ≤ 2 * colFreq a.m j := by exact_mod_cast this
    linarith
  · rw [hg2, div_lt_iff₀ hm']
    have : 2 * colFreq a.m j < (a.m : ℤ) := by simp only [colFreq]; omega
    have : 2 * (colFreq a.m j : ℝ) < a.m := by exact_mod_cast this
    linarith

/-- Non-vacuity. -/
example : ∃ ps, computePspec ⟨4, 3, fun i j => (i : ℝ) * j⟩ none = .ok ps := by
  obtain ⟨ps, h, -⟩ := C02_compute_pspec ⟨4, 3, fun i j => (i : ℝ) * j⟩ (by norm_num) (by norm_num)
  exact ⟨ps, h⟩

/-- The pixel grid is centred on the zero frequency of `ps2D`: the pixel with coordinates (0,0)
stores the zero-frequency power, for every image with an odd number of rows.  Missing: even
numbers of rows, where it is false (`C07_pixel_grid_off_centre`). -/
theorem C07_pixel_grid_centre_partial (a ps : Arr2 ℝ) (hn : 0 < a.n) (hm : 0 < a.m)
    (hodd : Odd a.n) (h : computePspec a none = .ok ps) :
    (ps2DProperty ps).get (a.n / 2) (a.m / 2) = power2 a 0 0 := by
  obtain ⟨ps', hps', e1, e2, e3⟩ := C02_compute_pspec a hn hm
  rw [h] at hps'
  cases hps'
  obtain ⟨k, hk⟩ := hodd
  simp only [ps2DProperty, Arr2.slice0, e1, resolve_full_rev]
  rw [rev_ix (by omega), e3 _ (by omega) _ (by omega)]
  congr 1 <;> omega

/-- For an even number of rows the row flip of `ps2D` moves the zero frequency off the centre of
the pixel grid: a constant 2×1 image has all its power one row away from coordinate (0,0). -/
theorem C07_pixel_grid_off_centre :
    ∃ (a ps : Arr2 ℝ), computePspec a none = .ok ps ∧
      (makeRadialArrays a.n a.m none none).1.get 1 0 = 0 ∧
      (makeRadialArrays a.n a.m none none).2.get 1 0 = 0 ∧
      (ps2DProperty ps).get 1 0 = 0 ∧ (ps2DProperty ps).get 0 0 = power2 a 0 0 ∧
      power2 a 0 0 = 4 := by
  obtain ⟨ps, hps, e1, e2, e3⟩ := C02_compute_pspec ⟨2, 1, fun _ _ => (1 : ℝ)⟩ (by norm_num) (by norm_num)
  have hp0 : power2 ⟨2, 1, fun _ _ => (1 : ℝ)⟩ 0 0 = 4 := by
    simp [power2, dft2, om]; norm_num
  have hp1 : power2 ⟨2, 1, fun _ _ => (1 : ℝ)⟩ (-1) 0 = 0 := by
    have hI : Complex.exp (Real.pi * Complex.I) = -1 := Complex.exp_pi_mul_I
    simp [power2, dft2, Finset.sum_range_succ, om]
    rw [show -(-(2 * (Real.pi : ℂ) * Complex.I) / 2) = Real.pi * Complex.I by ring, hI]
    ring
  refine ⟨⟨2, 1, fun _ _ => (1 : ℝ)⟩, ps, hps, by simp [makeRadialArrays, axisCentre],
    by simp [makeRadialArrays, axisCentre], ?_, ?_, hp0⟩
  · simp only [ps2DProperty, Arr2.slice0, e1, resolve_full_rev]
    rw [rev_ix (by norm_num), e3 _ (by norm_num) _ (by norm_num)]
    rw [← hp1]; congr 1
  · simp only [ps2DProperty, Arr2.slice0, e1, resolve_full_rev]
    rw [rev_ix (by norm_num), e3 _ (by norm_num) _ (by norm_num)]
    congr 1

end TS
