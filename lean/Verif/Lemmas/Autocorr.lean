import Verif.Lemmas.Fourier
import Verif.Model.Pca

/-! Cross-correlation theorem for the DFT sums. -/

namespace TS
open Finset Complex

/-- The DFT of a conjugated product is the circular cross-correlation. -/
theorem idft1_cross {n : ℕ} (hn : 0 < n) (f g : ℕ → ℂ) (j : ℤ) :
    idft1 n (fun k => dft1 n f k * (starRingEnd ℂ) (dft1 n g k)) j
      = ∑ b ∈ range n, f (rollIx n (-j) b) * (starRingEnd ℂ) (g b) := by
  have hn' : (n : ℂ) ≠ 0 := by exact_mod_cast hn.ne'
  unfold idft1 dft1
  have h1 : ∀ k ∈ range n, ((∑ a ∈ range n, f a * om n (a * k)) *
        (starRingEnd ℂ) (∑ b ∈ range n, g b * om n (b * k))) * om n (-(j * k))
      = ∑ b ∈ range n, ∑ a ∈ range n, (f a * (starRingEnd ℂ) (g b)) * om n (k * ((a : ℤ) - b - j)) := by
    intro k _
    rw [map_sum, sum_mul_sum, sum_mul, sum_comm]
    apply sum_congr rfl; intro a _
    rw [sum_mul]
    apply sum_congr rfl; intro b _
    rw [map_mul, conj_om, show (k : ℤ) * ((a : ℤ) - b - j) = a * k + (-(b * k) + -(j * k)) by ring,
      om_add, om_add]
    ring
  rw [sum_congr rfl h1, sum_comm, mul_sum]
  apply sum_congr rfl; intro b hb
  rw [sum_comm]
  have h2 : ∀ a ∈ range n, ∑ k ∈ range n, f a * (starRingEnd ℂ) (g b) * om n (k * ((a : ℤ) - b - j))
      = if a = rollIx n (-j) b then (n : ℂ) * (f a * (starRingEnd ℂ) (g b)) else 0 := by
    intro a ha
    rw [← mul_sum, sum_om hn]
    have hr := rollIx_lt hn (-j) b
    have hd := dvd_rollIx hn (-j) b
    have : ((n : ℤ) ∣ (a : ℤ) - b - j) ↔ a = rollIx n (-j) b := by
      rw [← dvd_sub_iff_eq (mem_range.1 ha) hr]
      constructor
      · intro h
        have := Int.dvd_sub h hd
        rwa [show (a : ℤ) - b - j - (((rollIx n (-j) b : ℕ) : ℤ) - ((b : ℤ) - -j)) =
          (a : ℤ) - (rollIx n (-j) b : ℕ) by ring] at this
      · intro h
        have := Int.dvd_add h hd
        rwa [show (a : ℤ) - (rollIx n (-j) b : ℕ) + (((rollIx n (-j) b : ℕ) : ℤ) - ((b : ℤ) - -j)) =
          (a : ℤ) - b - j by ring] at this
    by_cases h : a = rollIx n (-j) b
    · rw [if_pos h, if_pos (this.2 h)]; ring
    · rw [if_neg h, if_neg (fun h' => h (this.1 h'))]; ring
  rw [sum_congr rfl h2, sum_ite_eq', if_pos (mem_range.2 (rollIx_lt hn _ _))]
  field_simp

theorem idft1_sum {ι : Type*} (s : Finset ι) (n : ℕ) (F : ι → ℕ → ℂ) (j : ℤ) :
    idft1 n (fun k => ∑ b ∈ s, F b k) j = ∑ b ∈ s, idft1 n (F b) j := by
  unfold idft1
  rw [← mul_sum, sum_comm]
  congr 1
  exact sum_congr rfl (fun k _ => by rw [sum_mul])

theorem idft1_congr {n : ℕ} {F G : ℕ → ℂ} (h : ∀ k < n, F k = G k) (j : ℤ) : idft1 n F j = idft1 n G j := by
  unfold idft1
  congr 1
  exact sum_congr rfl (fun k hk => by rw [h k (mem_range.1 hk)])

/-- Two dimensions. -/
theorem idft2_cross {n m : ℕ} (hn : 0 < n) (hm : 0 < m) (f g : ℕ → ℕ → ℂ) (i j : ℤ) :
    idft2 n m (fun k l => dft2 n m f k l * (starRingEnd ℂ) (dft2 n m g k l)) i j
      = ∑ b ∈ range n, ∑ c ∈ range m,
          f (rollIx n (-i) b) (rollIx m (-j) c) * (starRingEnd ℂ) (g b c) := by
  unfold idft2
  have h1 : ∀ l : ℕ, idft1 n (fun k => dft2 n m f k l * (starRingEnd ℂ) (dft2 n m g k l)) i
      = ∑ b ∈ range n, dft1 m (f (rollIx n (-i) b)) l * (starRingEnd ℂ) (dft1 m (g b) l) := by
    intro l
    simp_rw [dft2_eq_dft1]
    exact idft1_cross hn (fun a => dft1 m (f a) l) (fun a => dft1 m (g a) l) i
  simp_rw [h1]
  rw [idft1_sum]
  apply sum_congr rfl; intro b _
  exact idft1_cross hm (f (rollIx n (-i) b)) (g b) j

/-- The mean of a transform is the first sample. -/
theorem dft1_mean {n : ℕ} (hn : 0 < n) (f : ℕ → ℂ) : (∑ k ∈ range n, dft1 n f k) / (n : ℂ) = f 0 := by
  have := idft1_dft1 f hn
  unfold idft1 at this
  rw [← this]
  push_cast
  simp only [zero_mul, neg_zero, om_zero, mul_one]
  ring

theorem dft2_mean {n m : ℕ} (hn : 0 < n) (hm : 0 < m) (f : ℕ → ℕ → ℂ) :
    (∑ k ∈ range n, ∑ l ∈ range m, dft2 n m f k l) / ((n * m : ℕ) : ℂ) = f 0 0 := by
  simp_rw [dft2_eq_dft1]
  have h1 := dft1_mean hm (f 0)
  rw [sum_comm]
  have h2 : ∀ l ∈ range m, ∑ k ∈ range n, dft1 n (fun i => dft1 m (f i) l) k = n * dft1 m (f 0) l := by
    intro l _
    have := dft1_mean hn (fun i => dft1 m (f i) l)
    have hn' : (n : ℂ) ≠ 0 := by exact_mod_cast hn.ne'
    field_simp at this
    rw [this]
  rw [sum_congr rfl h2, ← mul_sum, ← h1]
  have hn' : (n : ℂ) ≠ 0 := by exact_mod_cast hn.ne'
  have hm' : (m : ℂ) ≠ 0 := by exact_mod_cast hm.ne'
  push_cast
  field_simp

/-- Removing the mean of the transform zeroes the first sample. -/
theorem dft1_sub_first {n : ℕ} (hn : 0 < n) (f : ℕ → ℂ) (k : ℤ) :
    dft1 n f k - f 0 = dft1 n (fun i => if i = 0 then 0 else f i) k := by
  unfold dft1
  obtain ⟨t, rfl⟩ : ∃ t, n = t + 1 := ⟨n - 1, by omega⟩
  rw [sum_range_succ', sum_range_succ']
  simp [om_zero]

theorem dft2_sub_first {n m : ℕ} (hn : 0 < n) (hm : 0 < m) (f : ℕ → ℕ → ℂ) (k l : ℤ) :
    dft2 n m f k l - f 0 0 = dft2 n m (fun i j => if i = 0 ∧ j = 0 then 0 else f i j) k l := by
  unfold dft2
  obtain ⟨t, rfl⟩ : ∃ t, n = t + 1 := ⟨n - 1, by omega⟩
  obtain ⟨s, rfl⟩ : ∃ s, m = s + 1 := ⟨m - 1, by omega⟩
  rw [sum_range_succ', sum_range_succ', sum_range_succ', sum_range_succ']
  simp [om_zero]
  ring

end TS
