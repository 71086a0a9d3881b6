import Verif.Np.Dft
import Mathlib.Analysis.Complex.Norm

/-! Parseval, shift theorem and inversion for the DFT sums of `Np/Dft.lean`. -/

namespace TS
open Finset Complex

theorem dft2_eq_dft1 (n m : ℕ) (f : ℕ → ℕ → ℂ) (k l : ℤ) :
    dft2 n m f k l = dft1 n (fun i => dft1 m (f i) l) k := by
  unfold dft2 dft1
  apply sum_congr rfl; intro i _
  rw [sum_mul]
  apply sum_congr rfl; intro j _
  ring

theorem dft3_eq_dft1 (n m p : ℕ) (f : ℕ → ℕ → ℕ → ℂ) (k l q : ℤ) :
    dft3 n m p f k l q = dft1 n (fun a => dft2 m p (f a) l q) k := by
  unfold dft3 dft2 dft1
  apply sum_congr rfl; intro a _
  rw [sum_mul]
  apply sum_congr rfl; intro i _
  rw [sum_mul]
  apply sum_congr rfl; intro j _
  ring

/-- Linearity in the frequency-independent direction: transform of a sum of rows. -/
theorem dft3_eq_dft2_dft1 (n m p : ℕ) (f : ℕ → ℕ → ℕ → ℂ) (k l q : ℤ) :
    dft3 n m p f k l q = dft2 m p (fun i j => dft1 n (fun a => f a i j) k) l q := by
  unfold dft3 dft2 dft1
  rw [sum_comm]
  apply sum_congr rfl; intro i _
  rw [sum_comm]
  apply sum_congr rfl; intro j _
  rw [sum_mul]
  apply sum_congr rfl; intro a _
  ring

theorem normSq_eq_mul_conj (z : ℂ) : ((‖z‖ ^ 2 : ℝ) : ℂ) = z * (starRingEnd ℂ) z := by
  rw [Complex.mul_conj, Complex.normSq_eq_norm_sq]

/-- Parseval for one axis. -/
theorem parseval1 {n : ℕ} (hn : 0 < n) (f : ℕ → ℂ) :
    ∑ k ∈ range n, ‖dft1 n f k‖ ^ 2 = n * ∑ j ∈ range n, ‖f j‖ ^ 2 := by
  have hC : ((∑ k ∈ range n, ‖dft1 n f k‖ ^ 2 : ℝ) : ℂ)
      = ((n * ∑ j ∈ range n, ‖f j‖ ^ 2 : ℝ) : ℂ) := by
    push_cast
    have h1 : ∀ k : ℕ, ((‖dft1 n f k‖ : ℂ)) ^ 2
        = ∑ i ∈ range n, ∑ j ∈ range n, f i * (starRingEnd ℂ) (f j) * om n (k * ((i : ℤ) - j)) := by
      intro k
      have : ((‖dft1 n f k‖ : ℂ)) ^ 2 = dft1 n f k * (starRingEnd ℂ) (dft1 n f k) := by
        rw [← normSq_eq_mul_conj]; push_cast; rfl
      rw [this]
      unfold dft1
      rw [map_sum, sum_mul_sum]
      apply sum_congr rfl; intro i _
      apply sum_congr rfl; intro j _
      rw [map_mul, conj_om]
      have e : (k : ℤ) * ((i : ℤ) - j) = i * k + -(j * k) := by ring
      rw [e, om_add]; ring
    rw [sum_congr rfl (fun k _ => h1 k), sum_comm]
    rw [mul_sum]
    apply sum_congr rfl; intro i hi
    rw [sum_comm]
    have h2 : ∀ j ∈ range n, ∑ k ∈ range n, f i * (starRingEnd ℂ) (f j) * om n (k * ((i : ℤ) - j))
        = if i = j then (n : ℂ) * (f i * (starRingEnd ℂ) (f j)) else 0 := by
      intro j hj
      rw [← mul_sum, sum_om hn]
      have := dvd_sub_iff_eq (mem_range.1 hi) (mem_range.1 hj)
      by_cases h : i = j
      · rw [if_pos h, if_pos (this.2 h)]; ring
      · rw [if_neg h, if_neg (fun h' => h (this.1 h'))]; ring
    rw [sum_congr rfl h2, sum_ite_eq (range n) i, if_pos hi, ← normSq_eq_mul_conj]
    push_cast; rfl
  exact_mod_cast hC

theorem parseval2 {n m : ℕ} (hn : 0 < n) (hm : 0 < m) (f : ℕ → ℕ → ℂ) :
    ∑ k ∈ range n, ∑ l ∈ range m, ‖dft2 n m f k l‖ ^ 2
      = n * m * ∑ i ∈ range n, ∑ j ∈ range m, ‖f i j‖ ^ 2 := by
  simp_rw [dft2_eq_dft1]
  rw [sum_comm]
  have h1 : ∀ l : ℕ, ∑ k ∈ range n, ‖dft1 n (fun i => dft1 m (f i) l) k‖ ^ 2
      = n * ∑ i ∈ range n, ‖dft1 m (f i) l‖ ^ 2 := fun l => parseval1 hn _
  rw [sum_congr rfl (fun l _ => h1 l), ← mul_sum, sum_comm]
  have h2 : ∀ i : ℕ, ∑ l ∈ range m, ‖dft1 m (f i) l‖ ^ 2 = m * ∑ j ∈ range m, ‖f i j‖ ^ 2 :=
    fun i => parseval1 hm _
  rw [sum_congr rfl (fun i _ => h2 i), ← mul_sum]
  ring

/-- Shift theorem on one axis: rolling the input by `s` multiplies by a phase. -/
theorem dft1_roll {n : ℕ} (hn : 0 < n) (s : ℤ) (f : ℕ → ℂ) (k : ℤ) :
    dft1 n (fun i => f (rollIx n s i)) k = om n (s * k) * dft1 n f k := by
  unfold dft1
  have h1 : ∀ i ∈ range n, f (rollIx n s i) * om n (i * k)
      = (fun t : ℕ => om n (s * k) * (f t * om n (t * k))) (rollIx n s i) := by
    intro i _
    have e : om n ((i : ℤ) * k) = om n (s * k) * om n ((rollIx n s i : ℕ) * k) := by
      rw [rollIx_cast hn, om_mul_emod_left, ← om_add]; congr 1; ring
    simp only
    rw [e]; ring
  rw [sum_congr rfl h1, sum_rollIx hn s (fun t : ℕ => om n (s * k) * (f t * om n (t * k))),
    ← mul_sum]

theorem dft2_roll0 {n m : ℕ} (hn : 0 < n) (s : ℤ) (f : ℕ → ℕ → ℂ) (k l : ℤ) :
    dft2 n m (fun i j => f (rollIx n s i) j) k l = om n (s * k) * dft2 n m f k l := by
  rw [dft2_eq_dft1, dft2_eq_dft1]
  exact dft1_roll hn s (fun i => dft1 m (f i) l) k

theorem dft1_const_mul (n : ℕ) (c : ℂ) (f : ℕ → ℂ) (k : ℤ) :
    dft1 n (fun i => c * f i) k = c * dft1 n f k := by
  unfold dft1; rw [mul_sum]; apply sum_congr rfl; intro i _; ring

theorem dft2_const_mul (n m : ℕ) (c : ℂ) (f : ℕ → ℕ → ℂ) (k l : ℤ) :
    dft2 n m (fun i j => c * f i j) k l = c * dft2 n m f k l := by
  unfold dft2; rw [mul_sum]; apply sum_congr rfl; intro i _
  rw [mul_sum]; apply sum_congr rfl; intro j _; ring

theorem dft3_const_mul (n m p : ℕ) (c : ℂ) (f : ℕ → ℕ → ℕ → ℂ) (k l q : ℤ) :
    dft3 n m p (fun a i j => c * f a i j) k l q = c * dft3 n m p f k l q := by
  unfold dft3; rw [mul_sum]; apply sum_congr rfl; intro i _
  rw [mul_sum]; apply sum_congr rfl; intro j _
  rw [mul_sum]; apply sum_congr rfl; intro j _; ring

theorem dft2_roll1 {n m : ℕ} (hm : 0 < m) (s : ℤ) (f : ℕ → ℕ → ℂ) (k l : ℤ) :
    dft2 n m (fun i j => f i (rollIx m s j)) k l = om m (s * l) * dft2 n m f k l := by
  rw [dft2_eq_dft1, dft2_eq_dft1]
  have : (fun i => dft1 m (fun j => f i (rollIx m s j)) l)
      = fun i => om m (s * l) * dft1 m (f i) l := by
    funext i; exact dft1_roll hm s (f i) l
  rw [this, dft1_const_mul]

theorem dft1_congr {n : ℕ} {f g : ℕ → ℂ} (h : ∀ i < n, f i = g i) (k : ℤ) :
    dft1 n f k = dft1 n g k := by
  unfold dft1
  apply sum_congr rfl; intro i hi; rw [h i (mem_range.1 hi)]

theorem dft2_congr {n m : ℕ} {f g : ℕ → ℕ → ℂ} (h : ∀ i < n, ∀ j < m, f i j = g i j) (k l : ℤ) :
    dft2 n m f k l = dft2 n m g k l := by
  unfold dft2
  apply sum_congr rfl; intro i hi; apply sum_congr rfl; intro j hj
  rw [h i (mem_range.1 hi) j (mem_range.1 hj)]

theorem dft3_congr {n m p : ℕ} {f g : ℕ → ℕ → ℕ → ℂ}
    (h : ∀ a < n, ∀ i < m, ∀ j < p, f a i j = g a i j) (k l q : ℤ) :
    dft3 n m p f k l q = dft3 n m p g k l q := by
  unfold dft3
  apply sum_congr rfl; intro a ha; apply sum_congr rfl; intro i hi; apply sum_congr rfl; intro j hj
  rw [h a (mem_range.1 ha) i (mem_range.1 hi) j (mem_range.1 hj)]

theorem dvd_rollIx {n : ℕ} (hn : 0 < n) (s : ℤ) (i : ℕ) :
    (n : ℤ) ∣ ((rollIx n s i : ℕ) : ℤ) - ((i : ℤ) - s) := by
  rw [rollIx_cast hn]
  refine ⟨-(((i : ℤ) - s) / n), ?_⟩
  have := Int.mul_ediv_add_emod ((i : ℤ) - s) n
  linarith

/-- DFT inversion on one axis. -/
theorem idft1_dft1 {n : ℕ} (f : ℕ → ℂ) {j : ℕ} (hj : j < n) :
    idft1 n (fun k => dft1 n f k) j = f j := by
  have hn : 0 < n := by omega
  unfold idft1 dft1
  have h1 : ∀ k ∈ range n, (∑ i ∈ range n, f i * om n (i * k)) * om n (-((j : ℤ) * k))
      = ∑ i ∈ range n, f i * om n (k * ((i : ℤ) - j)) := by
    intro k _
    rw [sum_mul]
    apply sum_congr rfl; intro i _
    rw [mul_assoc, ← om_add]; congr 2; ring
  rw [sum_congr rfl h1, sum_comm]
  have h2 : ∀ i ∈ range n, ∑ k ∈ range n, f i * om n (k * ((i : ℤ) - j))
      = if j = i then (n : ℂ) * f j else 0 := by
    intro i hi
    rw [← mul_sum, sum_om hn]
    have := dvd_sub_iff_eq (mem_range.1 hi) hj
    by_cases h : j = i
    · subst h; simp; ring
    · rw [if_neg h, if_neg (fun h' => h (this.1 h').symm)]; ring
  rw [sum_congr rfl h2, sum_ite_eq, if_pos (mem_range.2 hj)]
  have hn' : (n : ℂ) ≠ 0 := by exact_mod_cast hn.ne'
  field_simp

end TS
