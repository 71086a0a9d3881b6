import Verif.Model.StatsUtils
import Verif.Lemmas.Hermite
import Verif.Props.C21

/-! C22 — Fourier shifts. -/

namespace TS
open Finset Complex

/-- The phase factor of frequency `k`. -/
private noncomputable def ph (n : ℕ) (s : ℝ) (k : ℕ) : ℂ :=
  Complex.exp (-2 * Real.pi * ((fftfreq n).get k : ℝ) * Complex.I * s)

private theorem ph_int {n k : ℕ} (hk : k < n) (s : ℤ) : ph n s k = om n (s * k) := by
  have hn : (n : ℂ) ≠ 0 := by exact_mod_cast (by omega : n ≠ 0)
  unfold ph fftfreq
  simp only
  split
  · unfold om
    congr 1
    push_cast
    field_simp
  · have : om n (s * k) = om n (s * ((k : ℤ) - n)) := om_congr ⟨s, by ring⟩
    rw [this]
    unfold om
    congr 1
    push_cast
    field_simp

/-- A shift by a whole number of pixels is the cyclic roll. -/
private theorem shifter_int {n j : ℕ} (hj : j < n) (x : ℕ → ℝ) (s : ℤ) :
    shifter n x s j = x (rollIx n s j) := by
  have hn : 0 < n := by omega
  unfold shifter
  have h : ∀ k ∈ range n, (dft1 n (fun i => (x i : ℂ)) k *
      Complex.exp (-2 * Real.pi * ((fftfreq n).get k : ℝ) * Complex.I * ((s : ℝ) : ℂ)))
        * om n (-((j : ℤ) * k)) = dft1 n (fun i => (x (rollIx n s i) : ℂ)) k * om n (-((j : ℤ) * k)) := by
    intro k hk
    rw [dft1_roll hn s (fun i => (x i : ℂ))]
    have := ph_int (mem_range.1 hk) s
    unfold ph at this
    rw [this]; ring
  have h2 : idft1 n (fun k => dft1 n (fun i => (x i : ℂ)) k *
      Complex.exp (-2 * Real.pi * ((fftfreq n).get k : ℝ) * Complex.I * ((s : ℝ) : ℂ))) j
      = idft1 n (fun k => dft1 n (fun i => (x (rollIx n s i) : ℂ)) k) j := by
    unfold idft1
    congr 1
    exact sum_congr rfl h
  rw [h2, idft1_dft1 _ hj]
  exact ofReal_re _

/-- A whole-pixel Fourier shift is the cyclic roll of the array, missing values included; a shift
by 0 changes nothing. -/
theorem C22_integer_shift_is_roll (x : Arr1 (Option ℝ)) (s : ℤ) :
    (fourierShift x s).Same (x.roll s) ∧ (fourierShift x 0).Same x := by
  have key : ∀ s : ℤ, ∀ j < x.n, (fourierShift x s).get j = x.get (rollIx x.n s j) := by
    intro s j hj
    show (if 1 / 2 < shifter x.n (fun i => if (x.get i).isSome then 0 else 1) s j then none
      else some (shifter x.n (fun i => (x.get i).getD 0) s j)) = _
    rw [shifter_int hj, shifter_int hj]
    cases x.get (rollIx x.n s j) with
    | none => norm_num
    | some v => norm_num
  refine ⟨⟨rfl, fun j hj => key s j hj⟩, ⟨rfl, fun j hj => ?_⟩⟩
  have := key 0 j hj
  rw [rollIx_zero (show j < x.n from hj)] at this
  simpa using this

namespace Spec
/-- The array has no component at the highest frequency (alternating sum); automatic for an odd
number of pixels. -/
def NoNyquist (n : ℕ) (x : ℕ → ℝ) : Prop := Even n → ∑ i ∈ range n, (-1 : ℝ) ^ i * x i = 0
end Spec

private theorem dft_nyq {n : ℕ} (hn : 0 < n) (he : Even n) (x : ℕ → ℝ) :
    dft1 n (fun i => (x i : ℂ)) ((n / 2 : ℕ) : ℤ) = ((∑ i ∈ range n, (-1 : ℝ) ^ i * x i : ℝ) : ℂ) := by
  obtain ⟨m, rfl⟩ := he
  have hm : 0 < m := by omega
  unfold dft1
  push_cast
  apply sum_congr rfl; intro i _
  have h1 : om (m + m) (((m + m) / 2 : ℕ) : ℤ) = -1 := by
    rw [show (m + m) / 2 = m by omega]
    unfold om
    have hm' : (m : ℂ) ≠ 0 := by exact_mod_cast hm.ne'
    have : -(2 * Real.pi * I * ((m : ℤ) : ℂ) / ((m + m : ℕ) : ℂ)) = -(Real.pi * I) := by
      push_cast
      have : (m : ℂ) + m ≠ 0 := by rw [← two_mul]; simp [hm']
      field_simp; ring
    rw [this, Complex.exp_neg, Complex.exp_pi_mul_I]; norm_num
  have h2 := om_pow (m + m) (((m + m) / 2 : ℕ) : ℤ) i
  rw [h1] at h2
  have h3 : om (m + m) ((i : ℤ) * ((m : ℤ) + m) / 2) = om (m + m) ((i : ℤ) * ((m : ℤ) + m) / 2) := rfl
  have h4 : (((m + m) / 2 : ℕ) : ℤ) = ((m : ℤ) + m) / 2 := by omega
  rw [h4] at h2
  rw [h2]; ring

private theorem ph_neg {n k : ℕ} (hk : k < n) (hne : 2 * k ≠ n) (s : ℝ) :
    (starRingEnd ℂ) (ph n s (negIx n k)) = ph n s k := by
  have hf : (fftfreq n).get (negIx n k) = - (fftfreq n).get k := by
    have hn : (n : ℝ) ≠ 0 := by exact_mod_cast (by omega : n ≠ 0)
    unfold fftfreq negIx
    simp only
    by_cases h0 : k = 0
    · subst h0; simp
    · rw [if_neg h0]
      by_cases h1 : k < (n - 1) / 2 + 1
      · rw [if_pos h1, if_neg (by omega), Nat.cast_sub hk.le]; ring
      · rw [if_neg h1, if_pos (by omega), Nat.cast_sub hk.le]; ring
  unfold ph
  rw [← Complex.exp_conj, hf]
  congr 1
  simp only [map_mul, map_neg, Complex.conj_ofReal, Complex.conj_I, Complex.conj_ofNat]
  push_cast
  ring

private theorem herm {n : ℕ} (x : ℕ → ℝ) (s : ℝ) (hx : Spec.NoNyquist n x) :
    ∀ k < n, (starRingEnd ℂ) ((fun k : ℕ => dft1 n (fun i => (x i : ℂ)) k * ph n s k) (negIx n k))
      = (fun k : ℕ => dft1 n (fun i => (x i : ℂ)) k * ph n s k) k := by
  intro k hk
  have hconj : (starRingEnd ℂ) (dft1 n (fun i => (x i : ℂ)) (negIx n k : ℕ)) = dft1 n (fun i => (x i : ℂ)) k := by
    rw [conj_dft1]
    apply dft1_congr_freq
    obtain ⟨c, hc⟩ := dvd_negIx n k hk
    exact ⟨-c, by rw [mul_neg, ← hc]; ring⟩
  simp only [map_mul, hconj]
  by_cases h : 2 * k = n
  · have he : Even n := ⟨k, by omega⟩
    have h0 := dft_nyq (by omega) he x
    rw [show n / 2 = k by omega, hx he] at h0
    rw [h0]; simp
  · rw [ph_neg hk h]

private theorem shifter_complex {n : ℕ} (x : ℕ → ℝ) (s : ℝ) (hx : Spec.NoNyquist n x) (j : ℕ) :
    (shifter n x s j : ℂ) = idft1 n (fun k => dft1 n (fun i => (x i : ℂ)) k * ph n s k) j := by
  have h := idft1_im_zero (F := fun k : ℕ => dft1 n (fun i => (x i : ℂ)) k * ph n s k) (herm x s hx) j
  have e : shifter n x s j
      = (idft1 n (fun k => dft1 n (fun i => (x i : ℂ)) k * ph n s k) j).re := rfl
  apply Complex.ext
  · rw [e, ofReal_re]
  · rw [ofReal_im, h]

private theorem dft_shifter {n k : ℕ} (hk : k < n) (x : ℕ → ℝ) (s : ℝ) (hx : Spec.NoNyquist n x) :
    dft1 n (fun i => (shifter n x s i : ℂ)) k = dft1 n (fun i => (x i : ℂ)) k * ph n s k := by
  rw [← dft1_idft1 (fun k => dft1 n (fun i => (x i : ℂ)) k * ph n s k) hk]
  apply dft1_congr
  intro i _
  exact shifter_complex x s hx i

private theorem ph_norm (n : ℕ) (s : ℝ) (k : ℕ) : ‖ph n s k‖ = 1 := by
  unfold ph
  rw [Complex.norm_exp]
  simp

private theorem noNyq_shift {n : ℕ} (hn : 0 < n) (x : ℕ → ℝ) (s : ℝ) (hx : Spec.NoNyquist n x) :
    Spec.NoNyquist n (shifter n x s) := by
  intro he
  have h0 := dft_nyq hn he x
  rw [hx he] at h0
  have h1 := dft_nyq hn he (shifter n x s)
  rw [dft_shifter (by omega) x s hx, h0] at h1
  have : ((∑ i ∈ range n, (-1 : ℝ) ^ i * shifter n x s i : ℝ) : ℂ) = 0 := by rw [← h1]; simp
  exact_mod_cast this

/-- For complete arrays without a component at the highest frequency — in particular all arrays with
an odd number of pixels — shifts by any real amounts compose additively, are undone by the opposite
shift, and keep the sum of squares. Missing: even numbers of pixels with a component at the highest frequency (`C22_even_length_fails`). -/
theorem C22_real_shifts_partial (n : ℕ) (x : ℕ → ℝ) (s t : ℝ) (hx : Spec.NoNyquist n x) :
    let X : Arr1 (Option ℝ) := ⟨n, fun i => some (x i)⟩
    (fourierShift (fourierShift X s) t).Same (fourierShift X (s + t)) ∧
    (fourierShift (fourierShift X s) (-s)).Same X ∧
    ∃ y : ℕ → ℝ, (fourierShift X s).Same ⟨n, fun i => some (y i)⟩ ∧
      ∑ i ∈ range n, y i ^ 2 = ∑ i ∈ range n, x i ^ 2 := by
  intro X
  rcases Nat.eq_zero_or_pos n with hn | hn
  · subst hn
    exact ⟨⟨rfl, fun i hi => absurd hi (Nat.not_lt_zero _)⟩,
      ⟨rfl, fun i hi => absurd hi (Nat.not_lt_zero _)⟩,
      x, ⟨rfl, fun i hi => absurd hi (Nat.not_lt_zero _)⟩, rfl⟩
  have mask0 : ∀ (s : ℝ) (j : ℕ), shifter n (fun _ => (0 : ℝ)) s j = 0 := by
    intro s j
    unfold shifter idft1 dft1
    simp
  have full : ∀ (y : ℕ → ℝ) (s : ℝ), fourierShift ⟨n, fun i => some (y i)⟩ s
      = ⟨n, fun j => some (shifter n y s j)⟩ := by
    intro y s
    unfold fourierShift
    congr 1
    funext j
    simp only [Option.isSome_some, if_true, Option.getD_some, mask0]
    rw [if_neg (by norm_num)]
  have comp : ∀ s t : ℝ, ∀ j < n, shifter n (shifter n x s) t j = shifter n x (s + t) j := by
    intro s t j hj
    have h1 := shifter_complex (shifter n x s) t (noNyq_shift hn x s hx) j
    have h2 := shifter_complex x (s + t) hx j
    have h3 : idft1 n (fun k => dft1 n (fun i => (shifter n x s i : ℂ)) k * ph n t k) j
        = idft1 n (fun k => dft1 n (fun i => (x i : ℂ)) k * ph n (s + t) k) j := by
      unfold idft1
      congr 1
      apply sum_congr rfl; intro k hk
      simp only
      rw [dft_shifter (mem_range.1 hk) x s hx, mul_assoc (dft1 n _ _)]
      congr 2
      unfold ph
      rw [← Complex.exp_add]
      congr 1; push_cast; ring
    rw [h3, ← h2] at h1
    exact_mod_cast h1
  refine ⟨?_, ?_, ?_⟩
  · rw [full x s, full _ t, full x (s + t)]
    exact ⟨rfl, fun j hj => congrArg some (comp s t j hj)⟩
  · rw [full x s, full _ (-s)]
    refine ⟨rfl, fun j hj => congrArg some ?_⟩
    rw [comp s (-s) j hj, add_neg_cancel]
    have := shifter_int hj x 0
    rw [rollIx_zero hj] at this
    simpa using this
  · refine ⟨shifter n x s, by rw [full x s]; exact ⟨rfl, fun _ _ => rfl⟩, ?_⟩
    have p1 := parseval1 hn (fun i => (shifter n x s i : ℂ))
    have p2 := parseval1 hn (fun i => (x i : ℂ))
    have e : ∑ k ∈ range n, ‖dft1 n (fun i => (shifter n x s i : ℂ)) k‖ ^ 2
        = ∑ k ∈ range n, ‖dft1 n (fun i => (x i : ℂ)) k‖ ^ 2 := by
      apply sum_congr rfl; intro k hk
      rw [dft_shifter (mem_range.1 hk) x s hx, norm_mul, ph_norm, mul_one]
    rw [p1, p2] at e
    have hn' : (n : ℝ) ≠ 0 := by exact_mod_cast hn.ne'
    have e2 := mul_left_cancel₀ hn' e
    simp only [Complex.norm_real, Real.norm_eq_abs, sq_abs] at e2
    exact e2

/-- With an even number of pixels both laws fail: two half-pixel shifts of `[1, -1]` give `[0, 0]`,
not the one-pixel shift `[-1, 1]`, and the power is lost. -/
theorem C22_even_length_fails :
    ∃ x : ℕ → ℝ, let X : Arr1 (Option ℝ) := ⟨2, fun i => some (x i)⟩
      ¬ (fourierShift (fourierShift X (1 / 2)) (1 / 2)).Same (fourierShift X (1 / 2 + 1 / 2)) ∧
      (fourierShift X (1 / 2)).Same ⟨2, fun _ => some 0⟩ ∧ ∑ i ∈ range 2, x i ^ 2 = 2 := by
  refine ⟨fun i => if i = 0 then 1 else -1, ?_⟩
  intro X
  have hph : (starRingEnd ℂ) 1 = 1 := by simp
  have e0 : om 2 0 = 1 := om_zero 2
  have e1 : om 2 1 = -1 := by
    unfold om
    have : -(2 * Real.pi * I * ((1 : ℤ) : ℂ) / ((2 : ℕ) : ℂ)) = -(Real.pi * I) := by
      push_cast; ring
    rw [this, Complex.exp_neg, Complex.exp_pi_mul_I]; norm_num
  have em1 : om 2 (-1) = -1 := by rw [om_neg, e1]; norm_num
  have hp : ph 2 (1 / 2) 1 = I := by
    unfold ph fftfreq
    have : (-2 * Real.pi * (((if 1 < (2 - 1) / 2 + 1 then ((1 : ℕ) : ℝ) / (2 : ℕ) else (((1 : ℕ) : ℝ) - (2 : ℕ)) / (2 : ℕ)) : ℝ) : ℂ)
        * I * ((1 / 2 : ℝ) : ℂ)) = (Real.pi / 2 : ℂ) * I := by
      norm_num; ring
    simp only
    rw [this, Complex.exp_pi_div_two_mul_I]
  have half : ∀ j < 2, shifter 2 (fun i => if i = 0 then 1 else -1) (1 / 2) j = 0 := by
    intro j hj
    have : shifter 2 (fun i => if i = 0 then 1 else -1) (1 / 2) j
        = (idft1 2 (fun k => dft1 2 (fun i => (((if i = 0 then 1 else -1 : ℝ)) : ℂ)) k * ph 2 (1 / 2) k) j).re := rfl
    rw [this]
    unfold idft1 dft1
    simp only [sum_range_succ, sum_range_zero]
    rw [hp]
    have hj' : j = 0 ∨ j = 1 := by omega
    rcases hj' with rfl | rfl
    · simp [e0, e1]
    · simp [e0, e1, em1]
  have mask0 : ∀ (s : ℝ) (j : ℕ), shifter 2 (fun _ => (0 : ℝ)) s j = 0 := by
    intro s j
    unfold shifter idft1 dft1
    simp
  have full : ∀ (y : ℕ → ℝ) (s : ℝ), fourierShift ⟨2, fun i => some (y i)⟩ s
      = ⟨2, fun j => some (shifter 2 y s j)⟩ := by
    intro y s
    unfold fourierShift
    congr 1
    funext j
    simp only [Option.isSome_some, if_true, Option.getD_some, mask0]
    rw [if_neg (by norm_num)]
  have hsame : (fourierShift X (1 / 2)).Same ⟨2, fun _ => some 0⟩ := by
    rw [full]
    exact ⟨rfl, fun j hj => congrArg some (half j hj)⟩
  refine ⟨?_, hsame, by norm_num [sum_range_succ]⟩
  intro h
  have h0 := h.2 0 (by show 0 < 2; norm_num)
  rw [full _ (1 / 2), full _ (1 / 2), full _ (1 / 2 + 1 / 2)] at h0
  have h1 : shifter 2 (shifter 2 (fun i => if i = 0 then 1 else -1) (1 / 2)) (1 / 2) 0 = 0 := by
    rw [← mask0 (1 / 2) 0]
    unfold shifter
    congr 2
    funext k
    congr 1
    apply dft1_congr
    intro i hi
    exact congrArg _ (half i hi)
  have h2 := shifter_int (show 0 < 2 by norm_num) (fun i => if i = 0 then (1 : ℝ) else -1) 1
  have h3 : rollIx 2 1 0 = 1 := by decide
  rw [h3] at h2
  have h4 := Option.some.inj h0
  rw [h1] at h4
  have h5 : ((1 : ℤ) : ℝ) = 1 / 2 + 1 / 2 := by norm_num
  rw [h5] at h2
  rw [h2] at h4
  norm_num at h4

/-- Non-vacuity: every odd-length array, and an even one. -/
example : Spec.NoNyquist 5 (fun i => i) ∧ Spec.NoNyquist 4 (fun i => if i < 2 then 1 else 0) := by
  refine ⟨fun h => absurd h (by decide), fun _ => ?_⟩
  norm_num [sum_range_succ]

end TS
