import Verif.Lemmas.Fourier
import Verif.Lemmas.Rfft

/-! Hermitian spectra have real inverse transforms; the DFT inverts the inverse DFT. -/

namespace TS
open Finset Complex

theorem negIx_lt {n i : ℕ} (hi : i < n) : negIx n i < n := by
  unfold negIx; split <;> omega

theorem negIx_negIx {n i : ℕ} (hi : i < n) : negIx n (negIx n i) = i := by
  unfold negIx; split_ifs <;> omega

/-- Sums over `range n` are unchanged by the reflection `k ↦ -k mod n`. -/
theorem sum_negIx {M : Type*} [AddCommMonoid M] (n : ℕ) (g : ℕ → M) :
    ∑ i ∈ range n, g (negIx n i) = ∑ i ∈ range n, g i := by
  apply Finset.sum_bij (fun i _ => negIx n i)
  · intro i hi; exact mem_range.2 (negIx_lt (mem_range.1 hi))
  · intro i hi j hj h
    have := congrArg (negIx n) h
    rwa [negIx_negIx (mem_range.1 hi), negIx_negIx (mem_range.1 hj)] at this
  · intro b hb
    exact ⟨negIx n b, mem_range.2 (negIx_lt (mem_range.1 hb)), negIx_negIx (mem_range.1 hb)⟩
  · intro i _; rfl

/-- The DFT of the inverse DFT. -/
theorem dft1_idft1 {n : ℕ} (F : ℕ → ℂ) {k : ℕ} (hk : k < n) :
    dft1 n (fun j => idft1 n F j) k = F k := by
  have hn : 0 < n := by omega
  have hn' : (n : ℂ) ≠ 0 := by exact_mod_cast hn.ne'
  unfold idft1 dft1
  have h1 : ∀ j ∈ range n, (1 / (n : ℂ) * ∑ l ∈ range n, F l * om n (-((j : ℤ) * l))) * om n (j * k)
      = ∑ l ∈ range n, (1 / (n : ℂ)) * F l * om n (j * ((k : ℤ) - l)) := by
    intro j _
    rw [mul_sum, sum_mul]
    apply sum_congr rfl; intro l _
    rw [mul_assoc, mul_assoc, mul_assoc, ← om_add]
    congr 3; ring_nf
  rw [sum_congr rfl h1, sum_comm]
  have h2 : ∀ l ∈ range n, ∑ j ∈ range n, (1 / (n : ℂ)) * F l * om n (j * ((k : ℤ) - l))
      = if k = l then F k else 0 := by
    intro l hl
    rw [← mul_sum, sum_om hn]
    have := dvd_sub_iff_eq hk (mem_range.1 hl)
    by_cases h : k = l
    · subst h; simp; field_simp
    · rw [if_neg h, if_neg (fun h' => h (this.1 h'))]; ring
  rw [sum_congr rfl h2, sum_ite_eq, if_pos (mem_range.2 hk)]

theorem om_negIx {n i : ℕ} (hi : i < n) (j : ℤ) : om n (j * (negIx n i : ℕ)) = om n (-(j * i)) := by
  apply om_congr
  obtain ⟨c, hc⟩ := dvd_negIx n i hi
  exact ⟨j * c, by have : j * (negIx n i : ℕ) - -(j * i) = j * (((negIx n i : ℕ) : ℤ) - (-(i : ℤ))) := by ring
                   rw [this, hc]; ring⟩

/-- Conjugate of the inverse transform. -/
theorem conj_idft1 (n : ℕ) (F : ℕ → ℂ) (j : ℤ) :
    (starRingEnd ℂ) (idft1 n F j) = idft1 n (fun k => (starRingEnd ℂ) (F (negIx n k))) j := by
  unfold idft1
  rw [map_mul, map_sum, ← sum_negIx n (fun k => (starRingEnd ℂ) (F k * om n (-(j * k))))]
  congr 1
  · simp
  · apply sum_congr rfl; intro k hk
    have := om_negIx (mem_range.1 hk) j
    rw [map_mul, conj_om, neg_neg, this]

/-- A Hermitian spectrum has a real inverse transform. -/
theorem idft1_im_zero {n : ℕ} {F : ℕ → ℂ} (h : ∀ k < n, (starRingEnd ℂ) (F (negIx n k)) = F k) (j : ℤ) :
    (idft1 n F j).im = 0 := by
  have h1 : (starRingEnd ℂ) (idft1 n F j) = idft1 n F j := by
    rw [conj_idft1]
    unfold idft1
    congr 1
    apply sum_congr rfl; intro k hk
    exact congrArg (· * _) (h k (mem_range.1 hk))
  exact Complex.conj_eq_iff_im.1 h1

end TS
