import Verif.Model.PSpec
import Verif.Props.C01
import Verif.Lemmas.Fourier

/-! Helper lemmas for C02–C04. -/

namespace TS
open Finset Spec

theorem power2_congr_freq (a : Arr2 ℝ) {k k' l l' : ℤ}
    (hk : (a.n : ℤ) ∣ k - k') (hl : (a.m : ℤ) ∣ l - l') : power2 a k l = power2 a k' l' := by
  unfold power2; rw [dft2_congr_freq _ hk hl]

theorem power2_neg (a : Arr2 ℝ) (k l : ℤ) : power2 a (-k) (-l) = power2 a k l := by
  unfold power2; rw [norm_dft2_neg]

theorem power2_congr {a b : Arr2 ℝ} (h : a.Same b) (k l : ℤ) : power2 a k l = power2 b k l := by
  obtain ⟨h1, h2, h3⟩ := h
  unfold power2
  rw [← h1, ← h2]
  congr 2
  apply dft2_congr
  intro i hi j hj
  rw [h3 i hi j hj]

/-- The un-apodized pipeline produces the centred power spectrum. -/
theorem computePspec_none (a : Arr2 ℝ) (hn : 0 < a.n) (hm : 0 < a.m) :
    ∃ ps, computePspec a none = .ok ps ∧ IsCentredPower ps a := by
  obtain ⟨b, hb, hbn, hbm, hget⟩ := C01_rfft_to_fft_2d a hn hm
  refine ⟨b.fftshift.map (fun x => x ^ 2), ?_, ?_⟩
  · simp [computePspec, hb, bind, Except.bind, pure, Except.pure]
  · have hbn' : b.n = a.n := hbn
    have hbm' : b.m = a.m := hbm
    refine ⟨hbn', hbm', ?_⟩
    intro i hi j hj
    simp only [Arr2.map, Arr2.fftshift, Arr2.roll0, Arr2.roll1]
    rw [hget _ (by rw [hbn']; exact rollIx_lt hn _ _) _ (by rw [hbm']; exact rollIx_lt hm _ _)]
    simp only [fftAbs2]
    rw [hbn', hbm']
    have e : ‖dft2 a.n a.m (fun i j => (a.get i j : ℂ)) (rollIx a.n ((a.n / 2 : ℕ) : ℤ) i : ℕ)
        (rollIx a.m ((a.m / 2 : ℕ) : ℤ) j : ℕ)‖ ^ 2
        = power2 a (rollIx a.n ((a.n / 2 : ℕ) : ℤ) i : ℕ) (rollIx a.m ((a.m / 2 : ℕ) : ℤ) j : ℕ) := rfl
    rw [e]
    exact power2_congr_freq a (dvd_rollIx hn _ _) (dvd_rollIx hm _ _)

theorem power2_scale (c : ℝ) (a : Arr2 ℝ) (k l : ℤ) :
    power2 (scale2 c a) k l = c ^ 2 * power2 a k l := by
  unfold power2 scale2
  have : (fun i j => (((c * a.get i j : ℝ)) : ℂ)) = fun i j => (c : ℂ) * (a.get i j : ℂ) := by
    funext i j; push_cast; rfl
  simp only [this]
  rw [dft2_const_mul, norm_mul, mul_pow]
  simp

theorem power2_shift (s t : ℤ) (a : Arr2 ℝ) (hn : 0 < a.n) (hm : 0 < a.m) (k l : ℤ) :
    power2 (shift2 s t a) k l = power2 a k l := by
  unfold power2 shift2
  have h0 := dft2_roll0 (m := a.m) hn s (fun i j => (a.get i (rollIx a.m t j) : ℂ)) k l
  have h1 := dft2_roll1 (n := a.n) hm t (fun i j => (a.get i j : ℂ)) k l
  have : dft2 a.n a.m (fun i j => ((a.get (((i : ℤ) - s) % a.n).toNat
      (((j : ℤ) - t) % a.m).toNat : ℝ) : ℂ)) k l
      = om a.n (s * k) * (om a.m (t * l) * dft2 a.n a.m (fun i j => (a.get i j : ℂ)) k l) := by
    rw [← h1, ← h0]; rfl
  simp only [this, norm_mul, norm_om, one_mul]

theorem sum_power2 (a : Arr2 ℝ) (hn : 0 < a.n) (hm : 0 < a.m) (s t : ℤ) :
    ∑ i ∈ range a.n, ∑ j ∈ range a.m, power2 a ((i : ℤ) - s) ((j : ℤ) - t)
      = a.n * a.m * ∑ i ∈ range a.n, ∑ j ∈ range a.m, a.get i j ^ 2 := by
  have h1 : ∀ i j : ℕ, power2 a ((i : ℤ) - s) ((j : ℤ) - t)
      = power2 a (rollIx a.n s i : ℕ) (rollIx a.m t j : ℕ) := fun i j =>
    (power2_congr_freq a (dvd_rollIx hn _ _) (dvd_rollIx hm _ _)).symm
  simp_rw [h1]
  have h2 : ∀ i : ℕ, ∑ j ∈ range a.m, power2 a (rollIx a.n s i : ℕ) (rollIx a.m t j : ℕ)
      = ∑ j ∈ range a.m, power2 a (rollIx a.n s i : ℕ) j := fun i =>
    sum_rollIx hm t (fun j => power2 a (rollIx a.n s i : ℕ) j)
  simp_rw [h2]
  rw [sum_rollIx hn s (fun i => ∑ j ∈ range a.m, power2 a i j)]
  unfold power2
  rw [parseval2 hn hm]
  simp

/-- Parseval along the spectral axis of a cube at a fixed spatial frequency. -/
theorem sum_power3 (a : Arr3 ℝ) (hn : 0 < a.n) (s k l : ℤ) :
    ∑ c ∈ range a.n, ‖dft3 a.n a.m a.p (fun x i j => (a.get x i j : ℂ)) ((c : ℤ) - s) k l‖ ^ 2
      = a.n * ∑ c ∈ range a.n, power2 (channel a c) k l := by
  have h1 : ∀ c : ℕ,
      ‖dft3 a.n a.m a.p (fun x i j => (a.get x i j : ℂ)) ((c : ℤ) - s) k l‖ ^ 2
      = (fun c : ℕ => ‖dft1 a.n (fun x => dft2 a.m a.p (fun i j => (a.get x i j : ℂ)) k l) c‖ ^ 2)
          (rollIx a.n s c) := by
    intro c
    simp only
    rw [dft3_eq_dft1]
    congr 2
    exact (dft1_congr_freq _ (dvd_rollIx hn s c)).symm
  simp_rw [h1]
  rw [sum_rollIx hn s (fun c : ℕ =>
    ‖dft1 a.n (fun x => dft2 a.m a.p (fun i j => (a.get x i j : ℂ)) k l) c‖ ^ 2), parseval1 hn]
  rfl

end TS
