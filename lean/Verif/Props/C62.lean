import Verif.Lemmas.Autocorr
import Mathlib.Tactic.Linarith
import Mathlib.Tactic.IntervalCases
import Mathlib.Algebra.Order.Chebyshev

/-! C62 — the autocorrelation images and spectra of PCA. -/

namespace TS
open Finset

namespace Spec

/-- Circular autocorrelation of an image at the lag `(s, t)`. -/
noncomputable def circAcf (n m : ℕ) (z : ℕ → ℕ → ℝ) (s t : ℤ) : ℝ :=
  ∑ b ∈ range n, ∑ c ∈ range m, z (((b : ℤ) + s) % n).toNat (((c : ℤ) + t) % m).toNat * z b c

/-- Circular autocorrelation of a vector at the lag `s`. -/
noncomputable def circAcf1 (n : ℕ) (z : ℕ → ℝ) (s : ℤ) : ℝ :=
  ∑ b ∈ range n, z (((b : ℤ) + s) % n).toNat * z b

/-- The image with its first pixel set to zero. -/
def cornerless (z : ℕ → ℕ → ℝ) : ℕ → ℕ → ℝ := fun i j => if i = 0 ∧ j = 0 then 0 else z i j

/-- The vector with its first entry set to zero. -/
def headless (z : ℕ → ℝ) : ℕ → ℝ := fun i => if i = 0 then 0 else z i

end Spec

theorem rollIx_rollIx_neg {n : ℕ} (hn : 0 < n) (h : ℤ) (r b : ℕ) :
    rollIx n (-((rollIx n h r : ℕ) : ℤ)) b = (((b : ℤ) + ((r : ℤ) - h)) % n).toNat := by
  have h1 : ((rollIx n (-((rollIx n h r : ℕ) : ℤ)) b : ℕ) : ℤ) = ((b : ℤ) + ((r : ℤ) - h)) % n := by
    rw [rollIx_cast hn, rollIx_cast hn, sub_neg_eq_add, Int.add_emod_emod]
  omega

/-- The autocorrelation image is the circular autocorrelation, lag 0 at the pixel `(n // 2, m // 2)`, of
the eigenimage *with its first pixel set to zero*: subtracting the mean of the transform removes that
pixel instead of the mean of the image. Missing: the mean of the image should be removed instead (`C62_first_pixel_ignored`). -/
theorem C62_image_partial (img : Arr2 ℝ) (r c : ℕ) (hr : r < img.n) (hc : c < img.m) :
    (acorImage img).get r c = Spec.circAcf img.n img.m (Spec.cornerless img.get)
      ((r : ℤ) - (img.n / 2 : ℕ)) ((c : ℤ) - (img.m / 2 : ℕ)) := by
  have hn : 0 < img.n := by omega
  have hm : 0 < img.m := by omega
  unfold acorImage
  simp only [Arr2.map, Arr2.fftshift, Arr2.roll0, Arr2.roll1]
  set f : ℕ → ℕ → ℂ := fun i j => (img.get i j : ℂ) with hf
  set z : ℕ → ℕ → ℂ := fun i j => ((Spec.cornerless img.get i j : ℝ) : ℂ) with hz
  have h1 : ∀ k l : ℕ, dft2 img.n img.m f k l -
      (∑ k ∈ range img.n, ∑ l ∈ range img.m, dft2 img.n img.m f k l) / ((img.n * img.m : ℕ) : ℂ) =
      dft2 img.n img.m z k l := by
    intro k l
    rw [dft2_mean hn hm, dft2_sub_first hn hm]
    congr 1
    ext i j
    simp only [hz, hf, Spec.cornerless]
    split_ifs <;> simp
  have h2 : ∀ k l : ℕ, (starRingEnd ℂ) (dft2 img.n img.m f k l) -
      (∑ k ∈ range img.n, ∑ l ∈ range img.m, (starRingEnd ℂ) (dft2 img.n img.m f k l)) /
        ((img.n * img.m : ℕ) : ℂ) = (starRingEnd ℂ) (dft2 img.n img.m z k l) := by
    intro k l
    rw [← h1 k l]
    simp only [map_sub, map_div₀, map_sum, Complex.conj_natCast]
  simp only [h1, h2]
  rw [idft2_cross hn hm]
  unfold Spec.circAcf
  rw [Complex.re_sum]
  apply sum_congr rfl; intro b _
  rw [Complex.re_sum]
  apply sum_congr rfl; intro d _
  rw [rollIx_rollIx_neg hn, rollIx_rollIx_neg hm]
  simp only [hz, Complex.conj_ofReal]
  rw [← Complex.ofReal_mul, Complex.ofReal_re]

/-- Eigenspectra: the circular autocorrelation of the eigenvector without its first entry. Missing: the first entry, which should count
(`C62_first_pixel_ignored`). -/
theorem C62_spectrum_partial (n : ℕ) (v : ℕ → ℝ) (j : ℕ) (hj : j < n) :
    (acorSpec n v).get j = Spec.circAcf1 n (Spec.headless v) j := by
  have hn : 0 < n := by omega
  unfold acorSpec
  simp only
  set f : ℕ → ℂ := fun i => (v i : ℂ) with hf
  set z : ℕ → ℂ := fun i => ((Spec.headless v i : ℝ) : ℂ) with hz
  have h1 : ∀ k : ℕ, dft1 n f k - (∑ k ∈ range n, dft1 n f k) / (n : ℂ) = dft1 n z k := by
    intro k
    rw [dft1_mean hn, dft1_sub_first hn]
    congr 1
    ext i
    simp only [hz, hf, Spec.headless]
    split_ifs <;> simp
  have h2 : ∀ k : ℕ, (starRingEnd ℂ) (dft1 n f k) -
      (∑ k ∈ range n, (starRingEnd ℂ) (dft1 n f k)) / (n : ℂ) = (starRingEnd ℂ) (dft1 n z k) := by
    intro k
    rw [← h1 k]
    simp only [map_sub, map_div₀, map_sum, Complex.conj_natCast]
  simp only [h1, h2]
  rw [idft1_cross hn]
  unfold Spec.circAcf1
  rw [Complex.re_sum]
  apply sum_congr rfl; intro b _
  have : rollIx n (-(j : ℤ)) b = (((b : ℤ) + j) % n).toNat := by
    unfold rollIx; rw [sub_neg_eq_add]
  rw [this]
  simp only [hz, Complex.conj_ofReal]
  rw [← Complex.ofReal_mul, Complex.ofReal_re]

private theorem two_mul_le (a b : ℝ) : a * b ≤ (a * a + b * b) / 2 := by nlinarith [sq_nonneg (a - b)]

theorem sum_shift {n : ℕ} (hn : 0 < n) (s : ℤ) (g : ℕ → ℝ) :
    ∑ b ∈ range n, g (((b : ℤ) + s) % n).toNat = ∑ b ∈ range n, g b := by
  rw [← sum_rollIx hn (-s) g]
  apply sum_congr rfl; intro b _
  unfold rollIx; rw [sub_neg_eq_add]

theorem circAcf1_le {n : ℕ} (hn : 0 < n) (z : ℕ → ℝ) (s : ℤ) :
    Spec.circAcf1 n z s ≤ ∑ b ∈ range n, z b ^ 2 := by
  unfold Spec.circAcf1
  have h1 := sum_shift hn s (fun b => z b * z b)
  calc _ ≤ ∑ b ∈ range n, (z (((b : ℤ) + s) % n).toNat * z (((b : ℤ) + s) % n).toNat + z b * z b) / 2 :=
        sum_le_sum (fun b _ => two_mul_le _ _)
    _ = _ := by
        rw [← sum_div, sum_add_distrib, h1]
        simp only [pow_two]; ring

theorem circAcf1_zero (n : ℕ) (z : ℕ → ℝ) : Spec.circAcf1 n z 0 = ∑ b ∈ range n, z b ^ 2 := by
  unfold Spec.circAcf1
  apply sum_congr rfl; intro b hb
  have : (((b : ℤ) + 0) % n).toNat = b := by
    rw [add_zero, Int.emod_eq_of_lt (by omega) (by exact_mod_cast mem_range.1 hb)]; simp
  rw [this]; ring

theorem circAcf1_neg {n : ℕ} (hn : 0 < n) (z : ℕ → ℝ) (s : ℤ) :
    Spec.circAcf1 n z (-s) = Spec.circAcf1 n z s := by
  unfold Spec.circAcf1
  rw [← sum_shift hn s (fun b => z (((b : ℤ) + -s) % n).toNat * z b)]
  apply sum_congr rfl; intro b hb
  have h1 : ((((((b : ℤ) + s) % n).toNat : ℕ) : ℤ)) = ((b : ℤ) + s) % n :=
    Int.toNat_of_nonneg (Int.emod_nonneg _ (by omega))
  rw [h1, Int.emod_add_emod, add_neg_cancel_right,
    Int.emod_eq_of_lt (by omega) (by exact_mod_cast mem_range.1 hb)]
  simp [mul_comm]

theorem circAcf1_period (n : ℕ) (z : ℕ → ℝ) (s : ℤ) :
    Spec.circAcf1 n z (s + n) = Spec.circAcf1 n z s := by
  unfold Spec.circAcf1
  apply sum_congr rfl; intro b _
  rw [← add_assoc, Int.add_emod_right]

/-- Every eigenspectrum's autocorrelation is largest at lag 0, where it is non-negative, and symmetric:
entry `n - j` equals entry `j`. -/
theorem C62_spectrum_shape (n : ℕ) (v : ℕ → ℝ) (j : ℕ) (hj : j < n) :
    (acorSpec n v).get j ≤ (acorSpec n v).get 0 ∧ 0 ≤ (acorSpec n v).get 0 ∧
    (j ≠ 0 → (acorSpec n v).get (n - j) = (acorSpec n v).get j) := by
  have hn : 0 < n := by omega
  rw [C62_spectrum_partial n v j hj, C62_spectrum_partial n v 0 hn]
  refine ⟨?_, ?_, ?_⟩
  · rw [Nat.cast_zero, circAcf1_zero]; exact circAcf1_le hn _ _
  · rw [Nat.cast_zero, circAcf1_zero]; exact sum_nonneg (fun b _ => sq_nonneg _)
  · intro h0
    rw [C62_spectrum_partial n v (n - j) (by omega), ← circAcf1_neg hn _ (j : ℤ), ← circAcf1_period n _ (-(j : ℤ))]
    congr 1
    omega

/-- Images: the centre pixel holds the maximum, and pixels at opposite lags are equal. -/
theorem C62_image_shape (img : Arr2 ℝ) (r c : ℕ) (hr : r < img.n) (hc : c < img.m) :
    (acorImage img).get r c ≤ (acorImage img).get (img.n / 2) (img.m / 2) ∧
    0 ≤ (acorImage img).get (img.n / 2) (img.m / 2) ∧
    (∀ r' c', r' < img.n → c' < img.m → r + r' = 2 * (img.n / 2) → c + c' = 2 * (img.m / 2) →
      (acorImage img).get r' c' = (acorImage img).get r c) := by
  have hn : 0 < img.n := by omega
  have hm : 0 < img.m := by omega
  have hcen : (acorImage img).get (img.n / 2) (img.m / 2) =
      ∑ b ∈ range img.n, ∑ d ∈ range img.m, Spec.cornerless img.get b d ^ 2 := by
    rw [C62_image_partial img _ _ (Nat.div_lt_self hn (by norm_num)) (Nat.div_lt_self hm (by norm_num))]
    unfold Spec.circAcf
    apply sum_congr rfl; intro b hb
    apply sum_congr rfl; intro d hd
    have e : ∀ (k N : ℕ), k < N → (((k : ℤ) + (((N / 2 : ℕ) : ℤ) - ((N / 2 : ℕ) : ℤ))) % N).toNat = k := by
      intro k N hk
      rw [sub_self, add_zero, Int.emod_eq_of_lt (by omega) (by exact_mod_cast hk)]; simp
    rw [e b _ (mem_range.1 hb), e d _ (mem_range.1 hd)]; ring
  rw [hcen]
  refine ⟨?_, sum_nonneg (fun b _ => sum_nonneg (fun d _ => sq_nonneg _)), ?_⟩
  · rw [C62_image_partial img r c hr hc]
    unfold Spec.circAcf
    set z := Spec.cornerless img.get
    set s : ℤ := (r : ℤ) - (img.n / 2 : ℕ)
    set t : ℤ := (c : ℤ) - (img.m / 2 : ℕ)
    have h1 : ∑ b ∈ range img.n, ∑ d ∈ range img.m,
        z (((b : ℤ) + s) % img.n).toNat (((d : ℤ) + t) % img.m).toNat ^ 2 =
        ∑ b ∈ range img.n, ∑ d ∈ range img.m, z b d ^ 2 := by
      rw [← sum_shift hn s (fun b => ∑ d ∈ range img.m, z b d ^ 2)]
      apply sum_congr rfl; intro b _
      exact sum_shift hm t (fun d => z (((b : ℤ) + s) % img.n).toNat d ^ 2)
    calc _ ≤ ∑ b ∈ range img.n, ∑ d ∈ range img.m,
          (z (((b : ℤ) + s) % img.n).toNat (((d : ℤ) + t) % img.m).toNat ^ 2 + z b d ^ 2) / 2 :=
          sum_le_sum (fun b _ => sum_le_sum (fun d _ => by
            have := two_mul_le (z (((b : ℤ) + s) % img.n).toNat (((d : ℤ) + t) % img.m).toNat) (z b d)
            rw [pow_two, pow_two]; exact this))
      _ = _ := by
          simp only [add_div, sum_add_distrib, ← sum_div]
          rw [h1]; ring
  · intro r' c' hr' hc' e1 e2
    rw [C62_image_partial img r c hr hc, C62_image_partial img r' c' hr' hc']
    have hs : (r' : ℤ) - (img.n / 2 : ℕ) = -((r : ℤ) - (img.n / 2 : ℕ)) := by omega
    have ht : (c' : ℤ) - (img.m / 2 : ℕ) = -((c : ℤ) - (img.m / 2 : ℕ)) := by omega
    rw [hs, ht]
    unfold Spec.circAcf
    set z := Spec.cornerless img.get
    set s : ℤ := (r : ℤ) - (img.n / 2 : ℕ)
    set t : ℤ := (c : ℤ) - (img.m / 2 : ℕ)
    have back : ∀ (N b : ℕ) (u : ℤ), 0 < N → b < N →
        (((((((b : ℤ) + u) % N).toNat : ℕ) : ℤ) + -u) % N).toNat = b := by
      intro N b u hN hb
      have h1 : ((((((b : ℤ) + u) % N).toNat : ℕ) : ℤ)) = ((b : ℤ) + u) % N :=
        Int.toNat_of_nonneg (Int.emod_nonneg _ (by omega))
      rw [h1, Int.emod_add_emod, add_neg_cancel_right, Int.emod_eq_of_lt (by omega) (by exact_mod_cast hb)]
      simp
    rw [← sum_shift hn s (fun b => ∑ d ∈ range img.m,
      z (((b : ℤ) + -s) % img.n).toNat (((d : ℤ) + -t) % img.m).toNat * z b d)]
    apply sum_congr rfl; intro b hb
    rw [← sum_shift hm t (fun d => z (((((((b : ℤ) + s) % img.n).toNat : ℕ) : ℤ) + -s) % img.n).toNat
      (((d : ℤ) + -t) % img.m).toNat * z (((b : ℤ) + s) % img.n).toNat d)]
    apply sum_congr rfl; intro d hd
    rw [back _ b s hn (mem_range.1 hb), back _ d t hm (mem_range.1 hd), mul_comm]

/-- The first pixel of the eigenimage has no influence: images differing there only have the same
autocorrelation image, so it is not the autocorrelation of the image. -/
theorem C62_first_pixel_ignored (n m : ℕ) (x : ℕ → ℕ → ℝ) (a : ℝ) (r c : ℕ) (hr : r < n) (hc : c < m) :
    (acorImage ⟨n, m, fun i j => if i = 0 ∧ j = 0 then a else x i j⟩).get r c =
      (acorImage ⟨n, m, x⟩).get r c ∧
    (a ≠ 0 → (acorImage ⟨n, m, fun i j => if i = 0 ∧ j = 0 then a else x i j⟩).get (n / 2) (m / 2) ≠
      Spec.circAcf n m (fun i j => if i = 0 ∧ j = 0 then a else x i j) 0 0) := by
  have hn : 0 < n := by omega
  have hm : 0 < m := by omega
  constructor
  · rw [C62_image_partial _ r c hr hc, C62_image_partial _ r c hr hc]
    simp only
    congr 1
    ext i j
    simp only [Spec.cornerless]
    split_ifs <;> rfl
  · intro ha
    rw [C62_image_partial _ _ _ (Nat.div_lt_self hn (by norm_num)) (Nat.div_lt_self hm (by norm_num))]
    simp only [sub_self]
    have key : ∀ z : ℕ → ℕ → ℝ, Spec.circAcf n m z 0 0 = ∑ b ∈ range n, ∑ d ∈ range m, z b d ^ 2 := by
      intro z
      unfold Spec.circAcf
      apply sum_congr rfl; intro b hb
      apply sum_congr rfl; intro d hd
      have e : ∀ (k N : ℕ), k < N → (((k : ℤ) + 0) % N).toNat = k := by
        intro k N hk
        rw [add_zero, Int.emod_eq_of_lt (by omega) (by exact_mod_cast hk)]; simp
      rw [e b _ (mem_range.1 hb), e d _ (mem_range.1 hd)]; ring
    rw [key, key]
    apply ne_of_lt
    apply sum_lt_sum
    · intro b _
      apply sum_le_sum
      intro d _
      by_cases h : b = 0 ∧ d = 0
      · simp only [Spec.cornerless, if_pos h]; rw [zero_pow two_ne_zero]; positivity
      · simp only [Spec.cornerless, if_neg h, le_refl]
    · refine ⟨0, mem_range.2 hn, ?_⟩
      apply sum_lt_sum
      · intro d _
        by_cases h : d = 0
        · simp only [Spec.cornerless, h, and_self, if_true]; rw [zero_pow two_ne_zero]; positivity
        · simp only [Spec.cornerless, h, and_false, if_false, le_refl]
      · refine ⟨0, mem_range.2 hm, ?_⟩
        simp [Spec.cornerless]
        positivity

/-- Non-vacuity: a 2×2 image. -/
example : (acorImage ⟨2, 2, fun i j => (i + j : ℝ)⟩).get 1 1 = 6 := by
  rw [C62_image_partial _ _ _ (by norm_num) (by norm_num)]
  norm_num [Spec.circAcf, Spec.cornerless, Finset.sum_range_succ]

end TS
