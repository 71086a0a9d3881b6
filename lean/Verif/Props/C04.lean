import Verif.Lemmas.Vcs

/-! C04: the VCS spectrum. -/

namespace TS
open Finset Spec

/-- **C04.** For a cube without missing voxels the VCS spectrum at spectral frequency `k` is the
sum over all sky pixels of the power spectra of the individual spectra. -/
theorem C04_vcs_spectrum (a : Arr3 ℝ) (hn : 0 < a.n) (hm : 0 < a.m) (hp : 0 < a.p) :
    ∃ ps, vcsComputePspec (a.map some) = .ok ps ∧ ps.n = a.n ∧
      ∀ k < a.n, ps.get k = some (∑ i ∈ range a.m, ∑ j ∈ range a.p, specPower a i j k) := by
  obtain ⟨ps, h, h1, h2⟩ := vcs_general (a.map some) hn hm hp
  refine ⟨ps, h, h1, ?_⟩
  intro k hk
  rw [h2 k hk]
  have hf : (vcsInit (a.map some)).1 = false := by
    simp [vcsInit, Arr3.map]
  have e : fillNan3 0 (a.map some) = a := rfl
  rw [hf, e]
  simp only [vcsGoodPixels, Arr3.map, Bool.false_eq_true, if_false]
  have hmp : ((a.m * a.p : ℕ) : ℝ) ≠ 0 := by
    have : 0 < a.m * a.p := Nat.mul_pos hm hp
    exact_mod_cast this.ne'
  rw [divO_some hmp]
  congr 1
  push_cast at hmp ⊢
  field_simp

/-- **C04 (non-negative, scaling).** -/
theorem C04_nonneg_scale (a : Arr3 ℝ) (hn : 0 < a.n) (hm : 0 < a.m) (hp : 0 < a.p) (c : ℝ) :
    ∃ ps ps', vcsComputePspec (a.map some) = .ok ps ∧
      vcsComputePspec (a.map (fun x => some (c * x))) = .ok ps' ∧
      ∀ k < a.n, ∃ v, ps.get k = some v ∧ 0 ≤ v ∧ ps'.get k = some (c ^ 2 * v) := by
  obtain ⟨ps, h, _, h2⟩ := C04_vcs_spectrum a hn hm hp
  obtain ⟨ps', h', _, h2'⟩ := C04_vcs_spectrum (a.map (fun x => c * x)) hn hm hp
  refine ⟨ps, ps', h, h', ?_⟩
  intro k hk
  refine ⟨_, h2 k hk, sum_nonneg fun i _ => sum_nonneg fun j _ => sq_nonneg _, ?_⟩
  rw [h2' k hk]
  congr 1
  rw [mul_sum]
  apply sum_congr rfl; intro i _
  rw [mul_sum]
  apply sum_congr rfl; intro j _
  exact specPower_scale c a i j k

/-- **C04 (sky permutation).** Rearranging the sky pixels does not change the spectrum. -/
theorem C04_sky_permutation (a : Arr3 ℝ) (hn : 0 < a.n) (hm : 0 < a.m) (hp : 0 < a.p)
    (σ : Equiv.Perm (Fin a.m × Fin a.p)) (b : Arr3 ℝ) (hbn : b.n = a.n) (hbm : b.m = a.m)
    (hbp : b.p = a.p)
    (hb : ∀ c < a.n, ∀ ij : Fin a.m × Fin a.p,
      b.get c ij.1 ij.2 = a.get c (σ ij).1 (σ ij).2) :
    ∃ ps ps', vcsComputePspec (a.map some) = .ok ps ∧ vcsComputePspec (b.map some) = .ok ps' ∧
      ps'.Same ps := by
  obtain ⟨ps, h, h1, h2⟩ := C04_vcs_spectrum a hn hm hp
  obtain ⟨ps', h', h1', h2'⟩ := C04_vcs_spectrum b (by omega) (by omega) (by omega)
  refine ⟨ps, ps', h, h', by rw [h1', h1, hbn], ?_⟩
  intro k hk
  rw [h1'] at hk
  rw [h2' k hk, h2 k (by omega), hbm, hbp]
  congr 1
  rw [sum_grid, sum_grid,
    ← Equiv.sum_comp σ (fun ij : Fin a.m × Fin a.p => specPower a ij.1 ij.2 k)]
  apply sum_congr rfl
  intro ij _
  unfold specPower
  rw [hbn]
  congr 2
  apply dft1_congr
  intro c hc
  simp only [losSpectrum]
  rw [hb c hc ij]

/-- **C04 (Parseval).** The values of the VCS spectrum add up to (number of channels) × (sum of
all squared voxels). -/
theorem C04_parseval (a : Arr3 ℝ) (hn : 0 < a.n) (hm : 0 < a.m) (hp : 0 < a.p) :
    ∃ ps, ∃ v : ℕ → ℝ, vcsComputePspec (a.map some) = .ok ps ∧ (∀ k < a.n, ps.get k = some (v k)) ∧
      ∑ k ∈ range a.n, v k
        = a.n * ∑ i ∈ range a.m, ∑ j ∈ range a.p, ∑ c ∈ range a.n, a.get c i j ^ 2 := by
  obtain ⟨ps, h, _, h2⟩ := C04_vcs_spectrum a hn hm hp
  refine ⟨ps, fun k => ∑ i ∈ range a.m, ∑ j ∈ range a.p, specPower a i j k, h, h2, ?_⟩
  rw [sum_comm, mul_sum]
  apply sum_congr rfl; intro i _
  rw [sum_comm, mul_sum]
  apply sum_congr rfl; intro j _
  unfold specPower
  rw [parseval1 hn]
  simp [losSpectrum]

/-- The full documented claim (vcs.py:53): the spectrum is the *average* of the spectra's power. -/
def VcsIsAverage : Prop :=
  ∀ (a : Arr3 ℝ), 0 < a.n → 0 < a.m → 0 < a.p →
    ∃ ps, vcsComputePspec (a.map some) = .ok ps ∧
      ∀ k < a.n, ps.get k =
        some ((∑ i ∈ range a.m, ∑ j ∈ range a.p, specPower a i j k) / (a.m * a.p))

/-- **C04 (violated part).** The code does not return the average: the 3D transform already
contributes a factor (number of sky pixels), so the stated average is too small by that factor.
Witness: a one-channel 1×2 cube of ones. -/
theorem C04_not_the_average : ¬ VcsIsAverage := by
  intro H
  obtain ⟨ps, h, hk⟩ := H ⟨1, 1, 2, fun _ _ _ => 1⟩ (by norm_num) (by norm_num) (by norm_num)
  obtain ⟨ps', h', _, hk'⟩ := C04_vcs_spectrum ⟨1, 1, 2, fun _ _ _ => 1⟩
    (by norm_num) (by norm_num) (by norm_num)
  rw [h] at h'; cases h'
  have e1 := hk 0 (by norm_num)
  have e2 := hk' 0 (by norm_num)
  rw [e1] at e2
  simp [specPower, losSpectrum, dft1, om_zero] at e2

open Classical in
/-- **C04 (missing data).** With a missing voxel the spectrum is the summed power of the zero-filled spectra times (all sky
pixels)/(counted sky pixels), where the pixels counted are those whose zero-filled spectrum has a largest value other than 0;
if none is counted no value is finite. -/
theorem C04_missing_general (cube : Arr3 (Option ℝ)) (hn : 0 < cube.n) (hm : 0 < cube.m) (hp : 0 < cube.p)
    (hmiss : ∃ a < cube.n, ∃ i < cube.m, ∃ j < cube.p, cube.get a i j = none) :
    ∃ ps N, vcsComputePspec cube = .ok ps ∧ ps.n = cube.n ∧
      N = ((range cube.m ×ˢ range cube.p).filter (fun ij => ¬ Spec.LargestIs cube.n
        (fun a => (cube.get a ij.1 ij.2).getD 0) 0)).card ∧
      (N = 0 → ∀ k < cube.n, ps.get k = none) ∧
      (0 < N → ∀ k < cube.n, ps.get k = some (cube.m * cube.p *
        (∑ i ∈ range cube.m, ∑ j ∈ range cube.p, specPower (fillNan3 0 cube) i j k) / N)) := by
  obtain ⟨ps, h, h1, h2⟩ := vcs_general cube hn hm hp
  have hf : (vcsInit cube).1 = true := by simp [vcsInit]; exact hmiss
  rw [hf, vcsGoodPixels_card cube hn] at h2
  refine ⟨ps, _, h, h1, rfl, ?_, ?_⟩
  · intro h0 k hk
    rw [h2 k hk, h0]
    simp [divO]
  · intro h0 k hk
    rw [h2 k hk, divO_some (by exact_mod_cast h0.ne')]

/-- The full claim with missing voxels: pixels with at least one value are the ones counted. -/
def VcsCountsPixels : Prop :=
  ∀ (cube : Arr3 (Option ℝ)), 0 < cube.n → 0 < cube.m → 0 < cube.p →
    (∃ a < cube.n, ∃ i < cube.m, ∃ j < cube.p, cube.get a i j = none) →
    (∃ a < cube.n, ∃ i < cube.m, ∃ j < cube.p, cube.get a i j ≠ none) →
    ∃ ps, vcsComputePspec cube = .ok ps ∧
      ∀ k < cube.n, ps.get k = some (cube.m * cube.p *
        (∑ i ∈ range cube.m, ∑ j ∈ range cube.p, specPower (fillNan3 0 cube) i j k) /
        (((range cube.m ×ˢ range cube.p).filter
          (fun ij => ∃ a < cube.n, cube.get a ij.1 ij.2 ≠ none)).card : ℝ))

/-- **C04 (what holds with missing data, partial).** For cubes with positive values the counted pixels are those with a value.
Missing for the full claim: values that are not positive, see `C04_noise_not_counted_violated`; and the documented average,
see `C04_not_the_average`. -/
theorem C04_vcs_missing_data_partial (cube : Arr3 (Option ℝ)) (hn : 0 < cube.n) (hm : 0 < cube.m)
    (hp : 0 < cube.p)
    (hmiss : ∃ a < cube.n, ∃ i < cube.m, ∃ j < cube.p, cube.get a i j = none)
    (hval : ∃ a < cube.n, ∃ i < cube.m, ∃ j < cube.p, cube.get a i j ≠ none)
    (hpos : ∀ a i j x, cube.get a i j = some x → 0 < x) :
    ∃ ps, vcsComputePspec cube = .ok ps ∧ ps.n = cube.n ∧
      ∀ k < cube.n, ps.get k = some (cube.m * cube.p *
        (∑ i ∈ range cube.m, ∑ j ∈ range cube.p, specPower (fillNan3 0 cube) i j k) /
        (((range cube.m ×ˢ range cube.p).filter
          (fun ij => ∃ a < cube.n, cube.get a ij.1 ij.2 ≠ none)).card : ℝ)) := by
  obtain ⟨ps, h, h1, h2⟩ := vcs_general cube hn hm hp
  refine ⟨ps, h, h1, ?_⟩
  intro k hk
  have hf : (vcsInit cube).1 = true := by simp [vcsInit]; exact hmiss
  rw [h2 k hk, hf, vcsGoodPixels_pos cube hn hpos, divO_some]
  obtain ⟨a, ha, i, hi, j, hj, hne⟩ := hval
  have : (i, j) ∈ (range cube.m ×ˢ range cube.p).filter
      (fun ij => ∃ a < cube.n, cube.get a ij.1 ij.2 ≠ none) := by
    simp only [mem_filter, mem_product, mem_range]
    exact ⟨⟨hi, hj⟩, a, ha, hne⟩
  exact_mod_cast (card_pos.2 ⟨_, this⟩).ne'

/-- VIOLATION: a pixel with one missing channel and otherwise negative values (noise) is not counted.  Witness: one pixel with
the values -1 and NaN, whose spectrum comes out infinite. -/
theorem C04_noise_not_counted_violated : ¬ VcsCountsPixels := by
  intro H
  obtain ⟨ps, h, hk⟩ := H ⟨2, 1, 1, fun a _ _ => if a = 0 then some (-1) else none⟩ (by norm_num) (by norm_num) (by norm_num)
    ⟨1, by norm_num, 0, by norm_num, 0, by norm_num, by simp⟩ ⟨0, by norm_num, 0, by norm_num, 0, by norm_num, by simp⟩
  obtain ⟨ps', N, h', _, hN, h0, _⟩ := C04_missing_general ⟨2, 1, 1, fun a _ _ => if a = 0 then some (-1) else none⟩
    (by norm_num) (by norm_num) (by norm_num) ⟨1, by norm_num, 0, by norm_num, 0, by norm_num, by simp⟩
  rw [h] at h'; cases h'
  have hz : N = 0 := by
    classical
    rw [hN, card_eq_zero, filter_eq_empty_iff]
    intro ij _ hno
    apply hno
    refine ⟨⟨1, by norm_num, by simp⟩, ?_⟩
    intro a ha
    simp only
    split
    · simp
    · simp
  have e := hk 0 (by norm_num)
  rw [h0 hz 0 (by norm_num)] at e
  cases e

/-- Non-vacuity of the missing-data theorems: a 1×1×2 cube with one value and one missing voxel. -/
example : ∃ cube : Arr3 (Option ℝ), 0 < cube.n ∧ 0 < cube.m ∧ 0 < cube.p ∧
    (∃ a < cube.n, ∃ i < cube.m, ∃ j < cube.p, cube.get a i j = none) ∧
    (∃ a < cube.n, ∃ i < cube.m, ∃ j < cube.p, cube.get a i j ≠ none) ∧
    (∀ a i j x, cube.get a i j = some x → 0 < x) :=
  ⟨⟨1, 1, 2, fun _ _ j => if j = 0 then some 3 else none⟩, by norm_num, by norm_num, by norm_num,
    ⟨0, by norm_num, 0, by norm_num, 1, by norm_num, rfl⟩, ⟨0, by norm_num, 0, by norm_num, 0, by norm_num, by simp⟩, by
      intro a i j x h
      simp only at h
      split at h
      · cases h; norm_num
      · cases h⟩

end TS
