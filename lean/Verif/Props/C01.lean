import Verif.Lemmas.Rfft
import Verif.Spec.Fourier

/-! C01: `rfft_to_fft` returns the full FFT amplitude. -/

namespace TS

/-- **C01 (2D).** For every real image with positive side lengths of any parity,
`rfft_to_fft(image)` succeeds, has the shape of `image`, and every entry is `|fftn(image)|`
at that frequency. -/
theorem C01_rfft_to_fft_2d (a : Arr2 ℝ) (hn : 0 < a.n) (hm : 0 < a.m) :
    ∃ b, rfftToFft (.d2 a) = .ok (.d2 b) ∧ b.Same (Spec.fftAbs2 a) := by
  obtain ⟨b, hb, hbn, hbm, hget⟩ := expand2_spec a.n a.m hn hm
    (fun k l => ‖dft2 a.n a.m (fun i j => (a.get i j : ℂ)) k l‖)
  refine ⟨b, ?_, hbn, hbm, ?_⟩
  · simp only [rfftToFft, rfftn2, if_neg (by omega : ¬ (a.n = 0 ∨ a.m = 0)), bind, Except.bind,
      Arr2.map, Bool.false_eq_true, if_false, hb]
    rfl
  · intro i hi j hj
    rw [hget i (by omega) j (by omega)]
    simp only [Spec.fftAbs2]
    split
    · rfl
    · rw [← norm_dft2_neg]
      congr 1
      apply dft2_congr_freq
      · exact dvd_negIx a.n i (by omega)
          |> fun h => by
            have e : -((negIx a.n i : ℕ) : ℤ) - i = -(((negIx a.n i : ℕ) : ℤ) - -(i : ℤ)) := by ring
            rw [e]; exact (dvd_neg).2 h
      · refine ⟨-1, ?_⟩
        have : j < a.m := by omega
        omega

/-- **C01 (3D).** The same for cubes. -/
theorem C01_rfft_to_fft_3d (a : Arr3 ℝ) (hn : 0 < a.n) (hm : 0 < a.m) (hp : 0 < a.p) :
    ∃ b, rfftToFft (.d3 a) = .ok (.d3 b) ∧ b.Same (Spec.fftAbs3 a) := by
  obtain ⟨b, hb, hbn, hbm, hbp, hget⟩ := expand3_spec a.n a.m a.p hn hm hp
    (fun k l q => ‖dft3 a.n a.m a.p (fun i j t => (a.get i j t : ℂ)) k l q‖)
  refine ⟨b, ?_, hbn, hbm, hbp, ?_⟩
  · simp only [rfftToFft, rfftn3, if_neg (by omega : ¬ (a.n = 0 ∨ a.m = 0 ∨ a.p = 0)), bind,
      Except.bind, Arr3.map, Bool.false_eq_true, if_false, hb]
    rfl
  · intro i hi j hj k hk
    rw [hget i (by omega) j (by omega) k (by omega)]
    simp only [Spec.fftAbs3]
    split
    · rfl
    · rw [← norm_dft3_neg]
      have flip : ∀ n i : ℕ, i < n → (n : ℤ) ∣ -((negIx n i : ℕ) : ℤ) - i := by
        intro n i h
        have e : -((negIx n i : ℕ) : ℤ) - i = -(((negIx n i : ℕ) : ℤ) - -(i : ℤ)) := by ring
        rw [e]; exact (dvd_neg).2 (dvd_negIx n i h)
      congr 1
      apply dft3_congr_freq
      · exact flip a.n i (by omega)
      · exact flip a.m j (by omega)
      · refine ⟨-1, ?_⟩
        have : k < a.p := by omega
        omega

/-- **C01 (other dimensionality).** Anything that is not 2D or 3D raises TypeError. -/
theorem C01_rfft_to_fft_ndim (d : ℕ) (keep : Bool) :
    rfftToFft (.other d) keep = .error .typeError := rfl

/-- Non-vacuity: an odd-by-even image meets the hypotheses. -/
example : ∃ a : Arr2 ℝ, 0 < a.n ∧ 0 < a.m ∧ a.n = 3 ∧ a.m = 4 ∧ a.get 1 2 = 5 :=
  ⟨⟨3, 4, fun i j => if i = 1 ∧ j = 2 then 5 else 0⟩, by norm_num, by norm_num, rfl, rfl, by simp⟩

end TS
