import Verif.Lemmas.PSpec

/-! C03: VCA's power spectrum is the sum of the channels' power spectra times the number of
channels. -/

namespace TS
open Finset Spec

/-- **C03.** For every non-empty cube `VCA.compute_pspec` stores, at spatial frequency
`(i - ny//2, j - nx//2)`, the number of channels times the summed power of the channels. -/
theorem C03_vca_channel_sum (a : Arr3 ℝ) (hn : 0 < a.n) (hm : 0 < a.m) (hp : 0 < a.p) :
    ∃ ps, vcaComputePspec a none = .ok ps ∧ ps.n = a.m ∧ ps.m = a.p ∧
      ∀ i < a.m, ∀ j < a.p, ps.get i j =
        a.n * ∑ c ∈ range a.n,
          power2 (channel a c) ((i : ℤ) - (a.m / 2 : ℕ)) ((j : ℤ) - (a.p / 2 : ℕ)) := by
  obtain ⟨b, hb, hbn, hbm, hbp, hget⟩ := C01_rfft_to_fft_3d a hn hm hp
  have hbn' : b.n = a.n := hbn
  have hbm' : b.m = a.m := hbm
  have hbp' : b.p = a.p := hbp
  refine ⟨_, by simp [vcaComputePspec, hb, bind, Except.bind, pure, Except.pure]; rfl, hbm', hbp', ?_⟩
  intro i hi j hj
  rw [← sum_power3 a hn ((a.n / 2 : ℕ) : ℤ)]
  simp only [Arr3.map, Arr3.fftshift, Arr3.roll0, Arr3.roll1, Arr3.roll2, hbn', hbm', hbp']
  apply sum_congr rfl
  intro c _
  rw [hget _ (by rw [hbn']; exact rollIx_lt hn _ _) _ (by rw [hbm']; exact rollIx_lt hm _ _)
    _ (by rw [hbp']; exact rollIx_lt hp _ _)]
  simp only [fftAbs3]
  congr 2
  exact dft3_congr_freq _ (dvd_rollIx hn _ _) (dvd_rollIx hm _ _) (dvd_rollIx hp _ _)

/-- **C03 (channel order).** Permuting the channels does not change the result. -/
theorem C03_channel_order (a : Arr3 ℝ) (hn : 0 < a.n) (hm : 0 < a.m) (hp : 0 < a.p)
    (σ : Equiv.Perm (Fin a.n)) (ps ps' : Arr2 ℝ) (h : vcaComputePspec a none = .ok ps)
    (h' : vcaComputePspec ⟨a.n, a.m, a.p, fun c i j =>
      if hc : c < a.n then a.get (σ ⟨c, hc⟩) i j else 0⟩ none = .ok ps') : ps'.Same ps := by
  obtain ⟨q, hq, hq1, hq2, hqg⟩ := C03_vca_channel_sum a hn hm hp
  rw [h] at hq; cases hq
  obtain ⟨q', hq', hq1', hq2', hqg'⟩ := C03_vca_channel_sum ⟨a.n, a.m, a.p, fun c i j =>
      if hc : c < a.n then a.get (σ ⟨c, hc⟩) i j else 0⟩ hn hm hp
  rw [h'] at hq'; cases hq'
  refine ⟨by rw [hq1', hq1], by rw [hq2', hq2], ?_⟩
  intro i hi j hj
  rw [hqg' i (by rw [hq1'] at hi; exact hi) j (by rw [hq2'] at hj; exact hj),
    hqg i (by rw [hq1'] at hi; exact hi) j (by rw [hq2'] at hj; exact hj)]
  congr 1
  rw [← Fin.sum_univ_eq_sum_range (fun c => power2 (channel a c) _ _) a.n,
    ← Fin.sum_univ_eq_sum_range (fun c => power2 (channel _ c) _ _) a.n]
  rw [← Equiv.sum_comp σ (fun c : Fin a.n => power2 (channel a c) _ _)]
  apply sum_congr rfl
  intro c _
  congr 1
  simp [channel]

/-- **C03 (one channel).** An array with one channel gives exactly the `PowerSpectrum` result of
that channel.  Missing for the full property: a `VCA` made from a one-channel cube holds an image, not such
an array, and its spectrum has one axis (`C105_single_channel_violated`). -/
theorem C03_single_channel_partial (a : Arr3 ℝ) (hn : a.n = 1) (hm : 0 < a.m) (hp : 0 < a.p) :
    ∃ ps ps', vcaComputePspec a none = .ok ps ∧ computePspec (channel a 0) none = .ok ps' ∧
      ps.Same ps' := by
  obtain ⟨q, hq, hq1, hq2, hqg⟩ := C03_vca_channel_sum a (by omega) hm hp
  obtain ⟨q', hq', hc⟩ := computePspec_none (channel a 0) hm hp
  refine ⟨q, q', hq, hq', by rw [hq1, hc.1]; rfl, by rw [hq2, hc.2.1]; rfl, ?_⟩
  intro i hi j hj
  rw [hq1] at hi
  rw [hq2] at hj
  rw [hqg i hi j hj, hc.2.2 i hi j hj, hn]
  simp [channel]

/-- Non-vacuity: a two-channel 2×3 cube. -/
example : ∃ ps, vcaComputePspec ⟨2, 2, 3, fun c i j => c + i + j⟩ none = .ok ps :=
  let ⟨ps, h, _⟩ := C03_vca_channel_sum ⟨2, 2, 3, fun c i j => c + i + j⟩
    (by norm_num) (by norm_num) (by norm_num)
  ⟨ps, h⟩

end TS
