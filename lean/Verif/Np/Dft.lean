import Verif.Np.Core
import Mathlib.Analysis.SpecialFunctions.Complex.Circle
import Mathlib.Algebra.Field.GeomSum
import Mathlib.Algebra.BigOperators.Ring.Finset
import Mathlib.Algebra.Order.BigOperators.Group.Finset

/-!
The discrete Fourier transform as numpy documents it
(`A[k] = sum_j a[j] exp(-2 pi i j k / n)`), and the facts the model needs.
`np.fft` itself is external code; this file is its mathematical contract.
-/

namespace TS
open Finset Complex

/-- `exp(-2 pi i k / n)`. -/
noncomputable def om (n : ℕ) (k : ℤ) : ℂ := Complex.exp (-(2 * Real.pi * I * k / n))

/-- 1D DFT of the first `n` entries of `f`, at integer frequency `k`. -/
noncomputable def dft1 (n : ℕ) (f : ℕ → ℂ) (k : ℤ) : ℂ := ∑ j ∈ range n, f j * om n (j * k)

/-- 2D DFT (`np.fft.fft2`/`fftn`). -/
noncomputable def dft2 (n m : ℕ) (f : ℕ → ℕ → ℂ) (k l : ℤ) : ℂ :=
  ∑ i ∈ range n, ∑ j ∈ range m, f i j * (om n (i * k) * om m (j * l))

/-- 3D DFT (`np.fft.fftn`). -/
noncomputable def dft3 (n m p : ℕ) (f : ℕ → ℕ → ℕ → ℂ) (k l q : ℤ) : ℂ :=
  ∑ a ∈ range n, ∑ i ∈ range m, ∑ j ∈ range p,
    f a i j * (om n (a * k) * (om m (i * l) * om p (j * q)))

/-- Inverse 1D DFT (`np.fft.ifft`), at integer position `j`. -/
noncomputable def idft1 (n : ℕ) (F : ℕ → ℂ) (j : ℤ) : ℂ :=
  (1 / (n : ℂ)) * ∑ k ∈ range n, F k * om n (-(j * k))

theorem om_add (n : ℕ) (a b : ℤ) : om n (a + b) = om n a * om n b := by
  unfold om
  rw [← Complex.exp_add]; congr 1; push_cast; ring

theorem om_zero (n : ℕ) : om n 0 = 1 := by simp [om]

theorem om_neg (n : ℕ) (a : ℤ) : om n (-a) = (om n a)⁻¹ := by
  unfold om; rw [← Complex.exp_neg]; congr 1; push_cast; ring

theorem om_ne_zero (n : ℕ) (a : ℤ) : om n a ≠ 0 := Complex.exp_ne_zero _

theorem om_eq_exp_ofReal (n : ℕ) (a : ℤ) :
    om n a = Complex.exp (((-(2 * Real.pi * a / n) : ℝ) : ℂ) * I) := by
  unfold om; congr 1; push_cast; ring

theorem norm_om (n : ℕ) (a : ℤ) : ‖om n a‖ = 1 := by
  rw [om_eq_exp_ofReal]; exact Complex.norm_exp_ofReal_mul_I _

theorem conj_om (n : ℕ) (a : ℤ) : (starRingEnd ℂ) (om n a) = om n (-a) := by
  rw [om_neg, om_eq_exp_ofReal, ← Complex.exp_conj, ← Complex.exp_neg]
  congr 1
  rw [map_mul, Complex.conj_ofReal, Complex.conj_I]; ring

theorem om_mul_self (n : ℕ) (k : ℤ) : om n (n * k) = 1 := by
  rcases Nat.eq_zero_or_pos n with h | h
  · subst h; simp [om]
  · have hn : (n : ℂ) ≠ 0 := by exact_mod_cast h.ne'
    have : om n (n * k) = Complex.exp (((-k : ℤ) : ℂ) * (2 * Real.pi * I)) := by
      unfold om; congr 1; push_cast; field_simp
    rw [this]; exact Complex.exp_int_mul_two_pi_mul_I _

theorem om_self_mul (n : ℕ) (k : ℤ) : om n (k * n) = 1 := by
  rw [mul_comm]; exact om_mul_self n k

theorem om_congr {n : ℕ} {a b : ℤ} (h : (n : ℤ) ∣ a - b) : om n a = om n b := by
  obtain ⟨c, hc⟩ := h
  have : a = b + n * c := by omega
  rw [this, om_add, om_mul_self, mul_one]

theorem om_emod (n : ℕ) (a : ℤ) : om n (a % n) = om n a := by
  apply om_congr
  refine ⟨-(a / n), ?_⟩
  have := Int.mul_ediv_add_emod a n
  linarith

theorem om_mul_emod_right (n : ℕ) (j a : ℤ) : om n (j * (a % n)) = om n (j * a) := by
  apply om_congr
  refine ⟨-(j * (a / n)), ?_⟩
  have := Int.mul_ediv_add_emod a n
  have h2 : a % n = a - n * (a / n) := by linarith
  rw [h2]; ring

theorem om_mul_emod_left (n : ℕ) (j a : ℤ) : om n ((a % n) * j) = om n (a * j) := by
  rw [mul_comm, om_mul_emod_right, mul_comm]

theorem om_pow (n : ℕ) (k : ℤ) (j : ℕ) : om n (j * k) = (om n k) ^ j := by
  unfold om; rw [← Complex.exp_nat_mul]; congr 1; push_cast; ring

theorem om_eq_one_iff {n : ℕ} (hn : 0 < n) (k : ℤ) : om n k = 1 ↔ (n : ℤ) ∣ k := by
  constructor
  · intro h
    unfold om at h
    rw [Complex.exp_eq_one_iff] at h
    obtain ⟨t, ht⟩ := h
    refine ⟨-t, ?_⟩
    have hn' : (n : ℂ) ≠ 0 := by exact_mod_cast hn.ne'
    have hpi : (2 * Real.pi * I : ℂ) ≠ 0 := by simp [Real.pi_ne_zero]
    have h1 : (2 * Real.pi * I : ℂ) * (k : ℂ) = (2 * Real.pi * I) * (-(t * n)) := by
      have : (2 * Real.pi * I * k : ℂ) = -(n * (-(2 * Real.pi * I * k / n))) := by
        field_simp
      rw [this, ht]; ring
    have h2 := mul_left_cancel₀ hpi h1
    have : (k : ℂ) = ((n * -t : ℤ) : ℂ) := by rw [h2]; push_cast; ring
    exact_mod_cast this
  · rintro ⟨c, rfl⟩; exact om_mul_self n c

/-- Orthogonality of characters. -/
theorem sum_om {n : ℕ} (hn : 0 < n) (k : ℤ) :
    ∑ j ∈ range n, om n (j * k) = if (n : ℤ) ∣ k then (n : ℂ) else 0 := by
  simp_rw [om_pow]
  split
  · rename_i h
    rw [(om_eq_one_iff hn k).2 h]; simp
  · rename_i h
    have h1 : om n k ≠ 1 := fun h' => h ((om_eq_one_iff hn k).1 h')
    rw [geom_sum_eq h1, ← om_pow, om_mul_self]; simp

/-- For indices below `n`, `n ∣ i - j` only when they agree. -/
theorem dvd_sub_iff_eq {n i j : ℕ} (hi : i < n) (hj : j < n) :
    ((n : ℤ) ∣ (i : ℤ) - j) ↔ i = j := by
  constructor
  · rintro ⟨c, hc⟩
    have h1 : c < 1 := by
      by_contra h
      have : (n : ℤ) * 1 ≤ n * c := Int.mul_le_mul_of_nonneg_left (by omega) (by omega)
      omega
    have h2 : -1 < c := by
      by_contra h
      have : (n : ℤ) * c ≤ n * (-1) := Int.mul_le_mul_of_nonneg_left (by omega) (by omega)
      omega
    have : c = 0 := by omega
    subst this; omega
  · rintro rfl; simp

theorem conj_dft1 (n : ℕ) (f : ℕ → ℝ) (k : ℤ) :
    (starRingEnd ℂ) (dft1 n (fun j => (f j : ℂ)) k) = dft1 n (fun j => (f j : ℂ)) (-k) := by
  unfold dft1
  rw [map_sum]
  apply Finset.sum_congr rfl
  intro j _
  rw [map_mul, conj_om, Complex.conj_ofReal]
  congr 2; ring

theorem conj_dft2 (n m : ℕ) (f : ℕ → ℕ → ℝ) (k l : ℤ) :
    (starRingEnd ℂ) (dft2 n m (fun i j => (f i j : ℂ)) k l)
      = dft2 n m (fun i j => (f i j : ℂ)) (-k) (-l) := by
  unfold dft2
  rw [map_sum]
  apply Finset.sum_congr rfl
  intro i _
  rw [map_sum]
  apply Finset.sum_congr rfl
  intro j _
  rw [map_mul, map_mul, conj_om, conj_om, Complex.conj_ofReal]
  congr 3 <;> ring

theorem conj_dft3 (n m p : ℕ) (f : ℕ → ℕ → ℕ → ℝ) (k l q : ℤ) :
    (starRingEnd ℂ) (dft3 n m p (fun a i j => (f a i j : ℂ)) k l q)
      = dft3 n m p (fun a i j => (f a i j : ℂ)) (-k) (-l) (-q) := by
  unfold dft3
  rw [map_sum]
  apply Finset.sum_congr rfl
  intro a _
  rw [map_sum]
  apply Finset.sum_congr rfl
  intro i _
  rw [map_sum]
  apply Finset.sum_congr rfl
  intro j _
  rw [map_mul, map_mul, map_mul, conj_om, conj_om, conj_om, Complex.conj_ofReal]
  congr 4 <;> ring

theorem norm_dft2_neg (n m : ℕ) (f : ℕ → ℕ → ℝ) (k l : ℤ) :
    ‖dft2 n m (fun i j => (f i j : ℂ)) (-k) (-l)‖ = ‖dft2 n m (fun i j => (f i j : ℂ)) k l‖ := by
  rw [← conj_dft2, RCLike.norm_conj]

theorem norm_dft3_neg (n m p : ℕ) (f : ℕ → ℕ → ℕ → ℝ) (k l q : ℤ) :
    ‖dft3 n m p (fun a i j => (f a i j : ℂ)) (-k) (-l) (-q)‖
      = ‖dft3 n m p (fun a i j => (f a i j : ℂ)) k l q‖ := by
  rw [← conj_dft3, RCLike.norm_conj]

theorem dft1_congr_freq {n : ℕ} (f : ℕ → ℂ) {k k' : ℤ} (h : (n : ℤ) ∣ k - k') :
    dft1 n f k = dft1 n f k' := by
  unfold dft1
  apply Finset.sum_congr rfl
  intro j _
  congr 1
  apply om_congr
  have : (j : ℤ) * k - j * k' = j * (k - k') := by ring
  rw [this]; exact Dvd.dvd.mul_left h _

theorem dft2_congr_freq {n m : ℕ} (f : ℕ → ℕ → ℂ) {k k' l l' : ℤ}
    (hk : (n : ℤ) ∣ k - k') (hl : (m : ℤ) ∣ l - l') :
    dft2 n m f k l = dft2 n m f k' l' := by
  unfold dft2
  apply Finset.sum_congr rfl
  intro i _
  apply Finset.sum_congr rfl
  intro j _
  congr 2
  · apply om_congr
    have : (i : ℤ) * k - i * k' = i * (k - k') := by ring
    rw [this]; exact Dvd.dvd.mul_left hk _
  · apply om_congr
    have : (j : ℤ) * l - j * l' = j * (l - l') := by ring
    rw [this]; exact Dvd.dvd.mul_left hl _

theorem dft3_congr_freq {n m p : ℕ} (f : ℕ → ℕ → ℕ → ℂ) {k k' l l' q q' : ℤ}
    (hk : (n : ℤ) ∣ k - k') (hl : (m : ℤ) ∣ l - l') (hq : (p : ℤ) ∣ q - q') :
    dft3 n m p f k l q = dft3 n m p f k' l' q' := by
  unfold dft3
  apply Finset.sum_congr rfl
  intro a _
  apply Finset.sum_congr rfl
  intro i _
  apply Finset.sum_congr rfl
  intro j _
  congr 2
  · apply om_congr
    have : (a : ℤ) * k - a * k' = a * (k - k') := by ring
    rw [this]; exact Dvd.dvd.mul_left hk _
  · congr 1
    · apply om_congr
      have : (i : ℤ) * l - i * l' = i * (l - l') := by ring
      rw [this]; exact Dvd.dvd.mul_left hl _
    · apply om_congr
      have : (j : ℤ) * q - j * q' = j * (q - q') := by ring
      rw [this]; exact Dvd.dvd.mul_left hq _

/-- Sums over `range n` are unchanged by a cyclic re-indexing. -/
theorem sum_rollIx {M : Type*} [AddCommMonoid M] {n : ℕ} (hn : 0 < n) (s : ℤ) (g : ℕ → M) :
    ∑ i ∈ range n, g (rollIx n s i) = ∑ i ∈ range n, g i := by
  apply Finset.sum_bij (fun i _ => rollIx n s i)
  · intro i _; simpa using rollIx_lt hn s i
  · intro i hi j hj h
    have h1 := congrArg (fun x : ℕ => (x : ℤ)) h
    simp only [rollIx_cast hn] at h1
    have : (n : ℤ) ∣ ((i : ℤ) - s) - ((j : ℤ) - s) := Int.ModEq.dvd h1.symm
    have h2 : (n : ℤ) ∣ (i : ℤ) - j := by
      have e : ((i : ℤ) - s) - ((j : ℤ) - s) = (i : ℤ) - j := by ring
      rwa [e] at this
    exact (dvd_sub_iff_eq (by simpa using hi) (by simpa using hj)).1 h2
  · intro b hb
    refine ⟨rollIx n (-s) b, by simpa using rollIx_lt hn _ _, ?_⟩
    have h1 : ((rollIx n s (rollIx n (-s) b) : ℕ) : ℤ) = (b : ℤ) := by
      rw [rollIx_cast hn, rollIx_cast hn]
      have : ((b : ℤ) - -s) % n - s = ((b : ℤ) - -s) % n + (-s) := by ring
      rw [this, Int.emod_add_emod]
      have : (b : ℤ) - -s + -s = b := by ring
      rw [this]
      exact Int.emod_eq_of_lt (by omega) (by have := Finset.mem_range.1 hb; omega)
    exact_mod_cast h1
  · intro i _; rfl

end TS
