import Verif.Lemmas.GenField
import Verif.Lemmas.PSpec
import Mathlib.Tactic.Linarith

/-! C53 — 2D power-law fields: Hermitian Fourier maps, real images, amplitudes. -/

namespace TS
open Finset Complex

namespace Spec

/-- Entry of a square map with the zero frequency at pixel `n // 2`, at integer frequency `(k, l)`. -/
def centredAt (b : Arr2 ℂ) (k l : ℤ) : ℂ :=
  b.get ((k + (b.n / 2 : ℕ)) % (b.n : ℤ)).toNat ((l + (b.m / 2 : ℕ)) % (b.m : ℤ)).toNat

/-- `F(-k) = conj F(k)` at every frequency. -/
def HermitianMap (b : Arr2 ℂ) : Prop :=
  ∀ k l : ℤ, centredAt b (-k) (-l) = (starRingEnd ℂ) (centredAt b k l)

/-- Signed frequency (cycles per pixel) of row `i` of an FFT of length `n`. -/
noncomputable def signedFreq (n i : ℕ) : ℝ := if 2 * i < n then (i : ℝ) / n else ((i : ℝ) - n) / n

/-- Radius of frequency `(y, x)`: minor axis scaled by `ellip`, rotated by `theta`. -/
noncomputable def ellRadius (theta ellip y x : ℝ) : ℝ :=
  Real.sqrt ((ellip * (x * Real.cos theta - y * Real.sin theta)) ^ 2 + (x * Real.sin theta + y * Real.cos theta) ^ 2)

/-- Requested amplitude at a radius. -/
noncomputable def requested (powerlaw r : ℝ) : ℝ := if r = 0 then 0 else r ^ (-powerlaw / 2)

end Spec
open Spec

/-- Only ellipticities in (0, 1] are accepted. -/
theorem C53_ellip (n : ℕ) (hn : 0 < n) (powerlaw theta ellip : ℝ) (fullFft : Bool) (angles : ℕ → ℕ → ℝ) :
    (makeExtended n powerlaw theta ellip true fullFft angles = .error .valueError ↔ ¬ (0 < ellip ∧ ellip ≤ 1)) ∧
    (¬ (0 < ellip ∧ ellip ≤ 1) → ∀ r, makeExtended n powerlaw theta ellip r fullFft angles = .error .valueError) := by
  have hiff : (ellip > 1 ∨ ellip ≤ 0) ↔ ¬ (0 < ellip ∧ ellip ≤ 1) := by
    constructor
    · rintro (h | h) ⟨a, b⟩ <;> linarith
    · intro h
      by_contra hc
      push Not at hc
      exact h ⟨hc.2, hc.1⟩
  constructor
  · constructor
    · intro h
      by_contra hc
      unfold makeExtended at h
      rw [if_neg (fun h' => hiff.1 h' hc)] at h
      obtain ⟨b, hb, hbn, hbm, _⟩ := imposeSym2_spec n hn (extRaw n powerlaw theta ellip angles).get
      have hb' : imposeSym2 n (extRaw n powerlaw theta ellip angles) = .ok b := hb
      simp only [hb', bind, Except.bind, if_true, pure, Except.pure] at h
      cases fullFft
      · simp at h
      · obtain ⟨bn, bm, bg⟩ := b
        simp only at hbn hbm
        subst hbn hbm
        obtain ⟨c, hc', _⟩ := fullPowermap_spec bn hn bg
        simp only [not_true_eq_false, if_false, hc'] at h
        cases h
    · intro h
      unfold makeExtended
      rw [if_pos (hiff.2 h)]
  · intro h r
    unfold makeExtended
    rw [if_pos (hiff.2 h)]

/-- The symmetrised half plane. -/
private theorem half (n : ℕ) (hn : 0 < n) (powerlaw theta ellip : ℝ) (angles : ℕ → ℕ → ℝ) :
    ∃ g : ℕ → ℕ → ℂ, imposeSym2 n (extRaw n powerlaw theta ellip angles) = .ok ⟨n, np1 n + 1, g⟩ ∧
      (∀ i < n, ∀ j < np1 n + 1, g i j =
        if j ≠ 0 ∧ j ≠ np1 n then (extRaw n powerlaw theta ellip angles).get i j
        else if negIx n i = i then realPart ((extRaw n powerlaw theta ellip angles).get i j)
        else if 2 * i < n then cconj ((extRaw n powerlaw theta ellip angles).get (negIx n i) j)
        else (extRaw n powerlaw theta ellip angles).get i j) ∧
      (∀ l, l = 0 ∨ l = np1 n → ∀ k < n, (starRingEnd ℂ) (g (negIx n k) l) = g k l) := by
  obtain ⟨b, hb, hbn, hbm, hv⟩ := imposeSym2_spec n hn (extRaw n powerlaw theta ellip angles).get
  obtain ⟨bn, bm, bg⟩ := b
  simp only at hbn hbm hv
  subst hbn hbm
  refine ⟨bg, hb, hv, ?_⟩
  intro l hl k hk
  have hlt : l < np1 bn + 1 := by omega
  have e1 := hv k hk l hlt
  have e2 := hv _ (negIx_lt hk) l hlt
  rw [if_neg (by omega)] at e1 e2
  rw [negIx_negIx hk] at e2
  by_cases hs : negIx bn k = k
  · rw [if_pos hs] at e1
    rw [hs, e1]
    simp [realPart]
  · rw [if_neg hs] at e1
    rw [if_neg (fun h => hs h.symm)] at e2
    rw [e1, e2]
    by_cases h2 : 2 * k < bn
    · have h3 : ¬ 2 * negIx bn k < bn := by
        unfold negIx at hs ⊢
        split_ifs at hs ⊢ <;> omega
      rw [if_neg h3, if_pos h2]
      rfl
    · have hk0 : k ≠ 0 := by omega
      have h3 : 2 * negIx bn k < bn := by
        unfold negIx at hs ⊢
        rw [if_neg hk0] at hs ⊢
        omega
      rw [if_pos h3, if_neg h2]
      simp [cconj]

private theorem full_map (n : ℕ) (hn : 0 < n) (powerlaw theta ellip : ℝ) (h0 : 0 < ellip) (h1 : ellip ≤ 1)
    (angles : ℕ → ℕ → ℝ) :
    ∃ g F : ℕ → ℕ → ℂ, imposeSym2 n (extRaw n powerlaw theta ellip angles) = .ok ⟨n, np1 n + 1, g⟩ ∧
      makeExtended n powerlaw theta ellip true true angles = .ok (.fft (Arr2.fftshift ⟨n, n, F⟩)) ∧
      (∀ i < n, ∀ j < n, F i j = if j < n / 2 + 1 then g i j else cconj (g (negIx n i) (n - j))) ∧
      (∀ l, l = 0 ∨ l = np1 n → ∀ k < n, (starRingEnd ℂ) (g (negIx n k) l) = g k l) := by
  obtain ⟨g, hg, _, hs⟩ := half n hn powerlaw theta ellip angles
  obtain ⟨c, hc, hcn, hcm, hv⟩ := fullPowermap_spec n hn g
  obtain ⟨cn, cm, cg⟩ := c
  simp only at hcn hcm
  subst hcn hcm
  refine ⟨g, cg, hg, ?_, hv, hs⟩
  unfold makeExtended
  rw [if_neg (by rintro (h | h) <;> linarith)]
  simp only [hg, bind, Except.bind, if_true, not_true_eq_false, if_false, hc, pure, Except.pure]

private theorem full_herm {n : ℕ} (hn : 0 < n) {g F : ℕ → ℕ → ℂ}
    (hF : ∀ i < n, ∀ j < n, F i j = if j < n / 2 + 1 then g i j else cconj (g (negIx n i) (n - j)))
    (hs : ∀ l, l = 0 ∨ l = np1 n → ∀ k < n, (starRingEnd ℂ) (g (negIx n k) l) = g k l) :
    ∀ i < n, ∀ j < n, F (negIx n i) (negIx n j) = (starRingEnd ℂ) (F i j) := by
  intro i hi j hj
  rw [hF _ (negIx_lt hi) _ (negIx_lt hj), hF i hi j hj, negIx_negIx hi]
  have hnp := np1_eq n
  by_cases hj0 : j = 0
  · subst hj0
    have : negIx n 0 = 0 := by simp [negIx]
    rw [this, if_pos (by omega), if_pos (by omega)]
    have := hs 0 (Or.inl rfl) i hi
    rw [← this, Complex.conj_conj]
  · have hnj : negIx n j = n - j := by simp [negIx, hj0]
    rw [hnj]
    by_cases h2 : 2 * j = n
    · have h3 : n - j = j := by omega
      rw [h3, if_pos (by omega), if_pos (by omega)]
      have := hs j (Or.inr (by omega)) i hi
      rw [← this, Complex.conj_conj]
    · by_cases h3 : 2 * j < n
      · rw [if_neg (by omega), if_pos (by omega)]
        have h4 : n - (n - j) = j := by omega
        rw [h4]; rfl
      · rw [if_pos (by omega), if_neg (by omega)]
        unfold cconj
        rw [Complex.conj_conj]

private theorem shift_get (n : ℕ) (hn : 0 < n) (F : ℕ → ℕ → ℂ) (k l : ℤ) :
    centredAt (Arr2.fftshift ⟨n, n, F⟩) k l = F (k % n).toNat (l % n).toNat := by
  have key : ∀ k : ℤ, rollIx n ((n / 2 : ℕ) : ℤ) ((k + (n / 2 : ℕ)) % (n : ℤ)).toNat = (k % n).toNat := by
    intro k
    unfold rollIx
    have h1 : 0 ≤ (k + (n / 2 : ℕ)) % (n : ℤ) := Int.emod_nonneg _ (by omega)
    rw [Int.toNat_of_nonneg h1, Int.emod_sub_emod]
    congr 2; ring
  unfold centredAt Arr2.fftshift Arr2.roll0 Arr2.roll1
  simp only
  rw [key, key]

private theorem neg_mod (n : ℕ) (hn : 0 < n) (k : ℤ) : ((-k) % (n : ℤ)).toNat = negIx n (k % n).toNat := by
  have h1 := Int.emod_nonneg k (by omega : (n : ℤ) ≠ 0)
  have h2 := Int.emod_lt_of_pos k (by omega : (0 : ℤ) < n)
  have hd : k = n * (k / n) + k % n := (Int.mul_ediv_add_emod k n).symm
  unfold negIx
  split_ifs with h
  · have h0 : k % (n : ℤ) = 0 := by omega
    have : (-k) % (n : ℤ) = 0 := Int.emod_eq_zero_of_dvd ((Int.dvd_of_emod_eq_zero h0).neg_right)
    rw [this]; rfl
  · have h4 : (-k) % (n : ℤ) = n - k % n := by
      have e : -k = (n - k % n) + n * (-(k / n) - 1) := by
        linear_combination -hd
      rw [e, Int.add_mul_emod_self_left, Int.emod_eq_of_lt (by omega) (by omega)]
    rw [h4]; omega

/-- For every size, odd or even, and any drawn angles, the returned Fourier map is n×n and Hermitian. -/
theorem C53_full_hermitian (n : ℕ) (hn : 0 < n) (powerlaw theta ellip : ℝ) (h0 : 0 < ellip) (h1 : ellip ≤ 1)
    (angles : ℕ → ℕ → ℝ) :
    ∃ b, makeExtended n powerlaw theta ellip true true angles = .ok (.fft b) ∧ b.n = n ∧ b.m = n ∧ HermitianMap b := by
  obtain ⟨g, F, hg, hm, hF, hs⟩ := full_map n hn powerlaw theta ellip h0 h1 angles
  refine ⟨_, hm, rfl, rfl, ?_⟩
  intro k l
  rw [shift_get n hn, shift_get n hn, neg_mod n hn, neg_mod n hn]
  have a : ∀ k : ℤ, (k % (n : ℤ)).toNat < n := by
    intro k
    have h1 := Int.emod_nonneg k (by omega : (n : ℤ) ≠ 0)
    have h2 := Int.emod_lt_of_pos k (by omega : (0 : ℤ) < n)
    omega
  exact full_herm hn hF hs _ (a k) _ (a l)

/-- Even sizes: the image is n×n, and its Fourier transform is exactly the map returned with
`return_fft=True` for the same draws. -/
theorem C53_image_even (n : ℕ) (hn : 0 < n) (hev : n % 2 = 0) (powerlaw theta ellip : ℝ) (h0 : 0 < ellip) (h1 : ellip ≤ 1)
    (angles : ℕ → ℕ → ℝ) :
    ∃ (a : Arr2 ℝ) (b : Arr2 ℂ), makeExtended n powerlaw theta ellip false true angles = .ok (.image a) ∧
      makeExtended n powerlaw theta ellip true true angles = .ok (.fft b) ∧ a.n = n ∧ a.m = n ∧
      ∀ k l : ℤ, dft2 n n (fun i j => (a.get i j : ℂ)) k l = centredAt b k l := by
  obtain ⟨g, F, hg, hm, hF, hs⟩ := full_map n hn powerlaw theta ellip h0 h1 angles
  have hnp := np1_eq n
  have hN : 2 * (np1 n + 1 - 1) = n := by omega
  refine ⟨⟨n, n, fun i j => irfft1 n (fun l => idft1 n (fun k => g k l) i) j⟩, _, ?_, hm, rfl, rfl, ?_⟩
  · unfold makeExtended irfft2
    rw [if_neg (by rintro (h | h) <;> linarith)]
    simp only [hg, bind, Except.bind, pure, Except.pure, Bool.false_eq_true, if_false, hN]
    rw [if_neg (by omega)]
  · intro k l
    rw [shift_get n hn]
    have a : ∀ k : ℤ, (k % (n : ℤ)).toNat < n ∧ (n : ℤ) ∣ k - ((k % (n : ℤ)).toNat : ℕ) := by
      intro k
      have h1 := Int.emod_nonneg k (by omega : (n : ℤ) ≠ 0)
      have h2 := Int.emod_lt_of_pos k (by omega : (0 : ℤ) < n)
      refine ⟨by omega, ?_⟩
      rw [Int.toNat_of_nonneg h1]
      exact Int.dvd_self_sub_emod
    rw [dft2_congr_freq _ (a k).2 (a l).2]
    have hk := (a k).1
    have hl := (a l).1
    generalize (k % (n : ℤ)).toNat = k' at hk ⊢
    generalize (l % (n : ℤ)).toNat = l' at hl ⊢
    have base : ∀ k < n, ∀ l ≤ n / 2, dft2 n n (fun i j => (irfft1 n (fun l => idft1 n (fun k => g k l) i) j : ℂ)) k l = g k l := by
      intro k hk l hl
      exact dft2_irfft2 hn hev g (fun l hl => hs l (by omega)) hk hl
    rw [hF k' hk l' hl]
    split_ifs with hc
    · exact base k' hk l' (by omega)
    · have hb := base (negIx n k') (negIx_lt hk) (n - l') (by omega)
      rw [← hb]
      unfold cconj
      rw [conj_dft2]
      apply dft2_congr_freq
      · have := dvd_negIx n k' hk
        have e : (k' : ℤ) - -((negIx n k' : ℕ) : ℤ) = ((negIx n k' : ℕ) : ℤ) - -(k' : ℤ) := by ring
        rw [e]; exact this
      · exact ⟨1, by omega⟩

/-- Odd sizes give an image with one column too few. -/
theorem C53_odd_image_not_square (n : ℕ) (hn : 3 ≤ n) (hodd : n % 2 = 1) (powerlaw theta ellip : ℝ) (h0 : 0 < ellip) (h1 : ellip ≤ 1)
    (angles : ℕ → ℕ → ℝ) :
    ∃ a, makeExtended n powerlaw theta ellip false true angles = .ok (.image a) ∧ a.n = n ∧ a.m = n - 1 := by
  obtain ⟨g, hg, _⟩ := half n (by omega) powerlaw theta ellip angles
  have hnp := np1_eq n
  unfold makeExtended irfft2
  rw [if_neg (by rintro (h | h) <;> linarith)]
  simp only [hg, bind, Except.bind, pure, Except.pure, Bool.false_eq_true, if_false]
  rw [if_neg (by omega)]
  exact ⟨_, rfl, rfl, by simp only; omega⟩

private theorem norm_unitPhase (t : ℝ) : ‖unitPhase t‖ = 1 := by
  unfold unitPhase
  have : Complex.cos t + Complex.I * Complex.sin t = Complex.exp (t * Complex.I) := by
    rw [Complex.exp_mul_I]; ring
  rw [this, Complex.norm_exp_ofReal_mul_I]

private theorem freq_eq {n i : ℕ} (hi : i < n) : (fftfreq n).get i = signedFreq n i := by
  unfold fftfreq signedFreq
  simp only
  by_cases h : 2 * i < n
  · rw [if_pos (by omega), if_pos h]
  · rw [if_neg (by omega), if_neg h]

private theorem radius_eq {n i : ℕ} (hi : i < n) (theta ellip : ℝ) (h1 : ellip ≤ 1) (j : ℕ) :
    extRadius n theta ellip i j = ellRadius theta ellip (signedFreq n i) ((j : ℝ) / n) := by
  unfold extRadius ellRadius
  simp only [freq_eq hi]
  split_ifs with h
  · rfl
  · have : ellip = 1 := le_antisymm h1 (not_lt.1 h)
    subst this
    congr 1
    have := Real.sin_sq_add_cos_sq theta
    linear_combination ((j : ℝ) / n) ^ 2 * (-this) + (signedFreq n i) ^ 2 * (-this)

private theorem signedFreq_neg {n i : ℕ} (hi : i < n) (hs : negIx n i ≠ i) : signedFreq n (negIx n i) = - signedFreq n i := by
  unfold signedFreq negIx at *
  by_cases h0 : i = 0
  · simp [h0] at hs
  · rw [if_neg h0] at hs ⊢
    have hn : (n : ℝ) ≠ 0 := by
      have : n ≠ 0 := by omega
      exact_mod_cast this
    by_cases h : 2 * i < n
    · rw [if_neg (by omega), if_pos h, Nat.cast_sub (by omega)]; ring
    · rw [if_pos (by omega), if_neg h, Nat.cast_sub (by omega)]; ring

private theorem phaseNorm_le (n : ℕ) (angles : ℕ → ℕ → ℝ) : ‖phaseNorm n angles‖ ≤ 1 := by
  unfold phaseNorm
  rw [show (1 / 2 : ℂ) = ((1 / 2 : ℝ) : ℂ) by push_cast; ring, Complex.norm_cpow_real]
  apply Real.rpow_le_one (norm_nonneg _) _ (by norm_num)
  rw [norm_div, Complex.norm_natCast]
  apply div_le_one_of_le₀ _ (Nat.cast_nonneg _)
  refine (norm_sum_le _ _).trans ?_
  refine (sum_le_sum (fun i _ => norm_sum_le _ _)).trans ?_
  simp [norm_unitPhase]
  linarith

/-- All amplitudes share one factor that depends on the drawn angles only (0 or at least 1): away from the self-conjugate
frequencies the modulus is that factor times the requested amplitude; at self-conjugate ones it is at most
that.  (Half plane returned with `full_fft=False`; column `n // 2` is read at the mirrored row in its lower
half.)  The full property asks for the factor to be 1: see `C53_amplitude_violated`. -/
theorem C53_amplitude_partial (n : ℕ) (hn : 0 < n) (angles : ℕ → ℕ → ℝ) :
    ∃ c : ℝ, (c = 0 ∨ 1 ≤ c) ∧ ∀ powerlaw theta ellip : ℝ, 0 < ellip → ellip ≤ 1 →
      ∃ b, makeExtended n powerlaw theta ellip true false angles = .ok (.fft b) ∧ b.n = n ∧ b.m = n / 2 + 1 ∧
        ∀ i < n, ∀ j < n / 2 + 1,
          (0 < j → j < n / 2 → ‖b.get i j‖ = c * requested powerlaw (ellRadius theta ellip (signedFreq n i) ((j : ℝ) / n))) ∧
          (j = 0 → negIx n i ≠ i → ‖b.get i j‖ = c * requested powerlaw (ellRadius theta ellip (signedFreq n i) 0)) ∧
          (‖b.get i j‖ = c * requested powerlaw (ellRadius theta ellip (signedFreq n i) ((j : ℝ) / n)) ∨
            ‖b.get i j‖ = c * requested powerlaw (ellRadius theta ellip (signedFreq n (negIx n i)) ((j : ℝ) / n)) ∨
            (negIx n i = i ∧ ‖b.get i j‖ ≤ c * requested powerlaw (ellRadius theta ellip (signedFreq n i) ((j : ℝ) / n)))) := by
  refine ⟨‖(phaseNorm n angles)⁻¹‖, ?_, ?_⟩
  · by_cases h0 : phaseNorm n angles = 0
    · left; rw [h0]; simp
    · right
      rw [norm_inv]
      exact (one_le_inv₀ (norm_pos_iff.2 h0)).2 (phaseNorm_le n angles)
  intro powerlaw theta ellip h0 h1
  obtain ⟨g, hg, hv, hs⟩ := half n hn powerlaw theta ellip angles
  have hnp := np1_eq n
  have hreq : ∀ r, 0 ≤ r → 0 ≤ requested powerlaw r := by
    intro r hr; unfold requested; split_ifs
    · exact le_refl _
    · exact Real.rpow_nonneg hr _
  have hraw : ∀ i < n, ∀ j, ‖(extRaw n powerlaw theta ellip angles).get i j‖ =
      ‖(phaseNorm n angles)⁻¹‖ * requested powerlaw (ellRadius theta ellip (signedFreq n i) ((j : ℝ) / n)) := by
    intro i hi j
    unfold extRaw
    simp only
    rw [radius_eq hi _ _ h1, norm_mul, norm_div, norm_unitPhase, norm_inv, one_div, mul_comm]
    congr 1
    rw [Complex.norm_real, Real.norm_of_nonneg]
    · rfl
    · exact hreq _ (Real.sqrt_nonneg _)
  refine ⟨⟨n, np1 n + 1, g⟩, ?_, rfl, by simp only; omega, ?_⟩
  · unfold makeExtended
    rw [if_neg (by rintro (h | h) <;> linarith)]
    simp only [hg, bind, Except.bind, if_true, pure, Except.pure, Bool.false_eq_true, not_false_eq_true]
  · intro i hi j hj
    have hval := hv i hi j (by omega)
    have hcn : ∀ z, ‖cconj z‖ = ‖z‖ := fun z => Complex.norm_conj z
    simp only
    refine ⟨?_, ?_, ?_⟩
    · intro hj0 hj1
      rw [hval, if_pos ⟨by omega, by omega⟩]
      exact hraw i hi j
    · intro hj0 hself
      subst hj0
      rw [hval, if_neg (by omega), if_neg hself]
      have hsym : ellRadius theta ellip (signedFreq n (negIx n i)) (((0 : ℕ) : ℝ) / n) =
          ellRadius theta ellip (signedFreq n i) 0 := by
        rw [signedFreq_neg hi hself]
        unfold ellRadius
        congr 1
        simp
      split_ifs
      · rw [hcn, hraw _ (negIx_lt hi), hsym]
      · rw [hraw _ hi]; simp
    · rw [hval]
      split_ifs with c1 c2 c3
      · left; exact hraw i hi j
      · right; right
        refine ⟨c2, ?_⟩
        rw [← hraw i hi j]
        unfold realPart
        rw [Complex.norm_real]
        exact Complex.abs_re_le_norm _
      · right; left
        rw [hcn]; exact hraw _ (negIx_lt hi) j
      · left; exact hraw i hi j

private theorem signedFreq_mod {n : ℕ} (hn : 0 < n) (hev : n % 2 = 0) {k : ℤ} (h1 : -(n / 2 : ℕ) < k) (h2 : k < (n / 2 : ℕ)) :
    signedFreq n (k % n).toNat = (k : ℝ) / n := by
  unfold signedFreq
  by_cases hk : 0 ≤ k
  · have e : k % (n : ℤ) = k := Int.emod_eq_of_lt hk (by omega)
    rw [e, if_pos (by omega)]
    congr 1
    exact_mod_cast Int.toNat_of_nonneg hk
  · have e : k % (n : ℤ) = k + n := by
      rw [← Int.add_emod_right]
      exact Int.emod_eq_of_lt (by omega) (by omega)
    rw [e, if_neg (by omega)]
    congr 1
    have : (((k + n).toNat : ℕ) : ℤ) = k + n := Int.toNat_of_nonneg (by omega)
    have h3 : (((k + n).toNat : ℕ) : ℝ) = (k : ℝ) + n := by exact_mod_cast this
    rw [h3]; ring

/-- **C53 (spectrum of an image).** Even sizes: at every frequency below the Nyquist frequency of both axes
the Fourier amplitude of the image is the requested one times a factor that depends on the drawn angles only
(0 or at least 1); when the factor is 0 the image is 0. Missing: a factor of 1 (`C53_amplitude_violated`), the Nyquist frequencies, and
odd sizes (`C53_odd_image_not_square`). -/
theorem C53_image_amplitude_partial (n : ℕ) (hn : 0 < n) (hev : n % 2 = 0) (angles : ℕ → ℕ → ℝ) :
    ∃ c : ℝ, (c = 0 ∨ 1 ≤ c) ∧ ∀ powerlaw theta ellip : ℝ, 0 < ellip → ellip ≤ 1 →
      ∃ a, makeExtended n powerlaw theta ellip false true angles = .ok (.image a) ∧ a.n = n ∧ a.m = n ∧
        (c = 0 → ∀ i < n, ∀ j < n, a.get i j = 0) ∧
        ∀ k l : ℤ, -(n / 2 : ℕ) < k → k < (n / 2 : ℕ) → -(n / 2 : ℕ) < l → l < (n / 2 : ℕ) →
          ‖dft2 n n (fun i j => (a.get i j : ℂ)) k l‖ =
            c * requested powerlaw (ellRadius theta ellip ((k : ℝ) / n) ((l : ℝ) / n)) := by
  obtain ⟨c, hc, hall⟩ := C53_amplitude_partial n hn angles
  refine ⟨c, hc, ?_⟩
  intro powerlaw theta ellip h0 h1
  obtain ⟨a, b, ha, hb, han, ham, hd⟩ := C53_image_even n hn hev powerlaw theta ellip h0 h1 angles
  obtain ⟨g, F, hg, hm, hF, hs⟩ := full_map n hn powerlaw theta ellip h0 h1 angles
  obtain ⟨b', hb', hbn', hbm', hv⟩ := hall powerlaw theta ellip h0 h1
  have hbg : b' = ⟨n, np1 n + 1, g⟩ := by
    unfold makeExtended at hb'
    rw [if_neg (by rintro (h | h) <;> linarith)] at hb'
    simp only [hg, bind, Except.bind, if_true, pure, Except.pure, Bool.false_eq_true, not_false_eq_true] at hb'
    cases hb'; rfl
  subst hbg
  simp only at hv
  rw [hm] at hb; cases hb
  have hcn : ∀ z, ‖cconj z‖ = ‖z‖ := fun z => Complex.norm_conj z
  have mlt : ∀ k : ℤ, (k % (n : ℤ)).toNat < n := by
    intro k
    have h1 := Int.emod_nonneg k (by omega : (n : ℤ) ≠ 0)
    have h2 := Int.emod_lt_of_pos k (by omega : (0 : ℤ) < n)
    omega
  have hval : ∀ k l : ℤ, dft2 n n (fun i j => (a.get i j : ℂ)) k l = F (k % n).toNat (l % n).toNat := by
    intro k l
    rw [hd, shift_get n hn]
  have half' : ∀ k l : ℤ, -(n / 2 : ℕ) < k → k < (n / 2 : ℕ) → 0 ≤ l → l < (n / 2 : ℕ) →
      ‖g (k % n).toNat (l % n).toNat‖ = c * requested powerlaw (ellRadius theta ellip ((k : ℝ) / n) ((l : ℝ) / n)) := by
    intro k l k1 k2 l1 l2
    have el : (l % (n : ℤ)).toNat = l.toNat := by rw [Int.emod_eq_of_lt l1 (by omega)]
    have el2 : ((l.toNat : ℕ) : ℝ) = l := by exact_mod_cast Int.toNat_of_nonneg l1
    obtain ⟨v1, v2, v3⟩ := hv _ (mlt k) l.toNat (by omega)
    rw [el]
    by_cases hl : l = 0
    · subst hl
      by_cases hk : negIx n (k % n).toNat = (k % n).toNat
      · have hk0 : k = 0 := by
          unfold negIx at hk
          have e : k % (n : ℤ) = if 0 ≤ k then k else k + n := by
            split_ifs with h
            · exact Int.emod_eq_of_lt h (by omega)
            · rw [← Int.add_emod_right]
              exact Int.emod_eq_of_lt (by omega) (by omega)
          rw [e] at hk
          split_ifs at hk <;> omega
        subst hk0
        have hr : requested powerlaw (ellRadius theta ellip 0 0) = 0 := by
          unfold requested ellRadius; simp
        have hs0 : signedFreq n 0 = 0 := by unfold signedFreq; simp
        have hneg : negIx n 0 = 0 := by simp [negIx]
        simp only [Int.zero_emod, Int.toNat_zero, Nat.cast_zero, zero_div, hneg, hs0, hr, mul_zero] at v3
        simp only [Int.zero_emod, Int.toNat_zero, Int.cast_zero, zero_div, hr, mul_zero]
        rcases v3 with h | h | ⟨-, h⟩
        · exact h
        · exact h
        · exact le_antisymm h (norm_nonneg _)
      · rw [v2 rfl hk, signedFreq_mod hn hev k1 k2]; simp
    · rw [v1 (by omega) (by omega), signedFreq_mod hn hev k1 k2, el2]
  refine ⟨a, ha, han, ham, ?_, ?_⟩
  · intro hc0
    have hg0 : ∀ i < n, ∀ j < n / 2 + 1, ‖g i j‖ = 0 := by
      intro i hi j hj
      obtain ⟨-, -, v3⟩ := hv i hi j hj
      rw [hc0] at v3
      simp only [zero_mul] at v3
      rcases v3 with h | h | ⟨-, h⟩
      · exact h
      · exact h
      · exact le_antisymm h (norm_nonneg _)
    have hz : ∀ k l : ℤ, power2 a k l = 0 := by
      intro k l
      unfold power2
      rw [han, ham, hval, hF _ (mlt k) _ (mlt l)]
      split_ifs with hj
      · rw [hg0 _ (mlt k) _ hj]; norm_num
      · have := mlt l
        rw [hcn, hg0 _ (negIx_lt (mlt k)) _ (by omega)]; norm_num
    have hp := sum_power2 a (by omega) (by omega) 0 0
    simp only [hz, sum_const_zero] at hp
    have hsum : ∑ i ∈ range n, ∑ j ∈ range n, a.get i j ^ 2 = 0 := by
      rw [han, ham] at hp
      have hn0 : (n : ℝ) * n ≠ 0 := by
        have : (n : ℝ) ≠ 0 := by exact_mod_cast hn.ne'
        exact mul_ne_zero this this
      exact (mul_eq_zero.1 hp.symm).resolve_left hn0
    intro i hi j hj
    have h1 := (sum_eq_zero_iff_of_nonneg (fun i _ => sum_nonneg (fun j _ => sq_nonneg (a.get i j)))).1 hsum i (mem_range.2 hi)
    have h2 := (sum_eq_zero_iff_of_nonneg (fun j _ => sq_nonneg (a.get i j))).1 h1 j (mem_range.2 hj)
    exact pow_eq_zero_iff (two_ne_zero) |>.1 h2
  · intro k l k1 k2 l1 l2
    rw [hval, hF _ (mlt k) _ (mlt l)]
    by_cases hl : 0 ≤ l
    · have el : (l % (n : ℤ)).toNat = l.toNat := by rw [Int.emod_eq_of_lt hl (by omega)]
      rw [if_pos (by omega)]
      exact half' k l k1 k2 hl l2
    · have el : (l % (n : ℤ)) = l + n := by
        rw [← Int.add_emod_right]
        exact Int.emod_eq_of_lt (by omega) (by omega)
      rw [el, if_neg (by omega), hcn, ← neg_mod n hn]
      have e2 : n - (l + n).toNat = ((-l) % (n : ℤ)).toNat := by
        rw [Int.emod_eq_of_lt (by omega) (by omega)]; omega
      rw [e2, half' (-k) (-l) (by omega) (by omega) (by omega) (by omega)]
      congr 2
      unfold ellRadius
      congr 1
      push_cast; ring

/-- Even sizes: every entry of the half spectrum of the image, in terms of the drawn phases. -/
theorem image_half_spectrum (n : ℕ) (hn : 0 < n) (hev : n % 2 = 0) (powerlaw theta ellip : ℝ) (h0 : 0 < ellip) (h1 : ellip ≤ 1)
    (angles : ℕ → ℕ → ℝ) :
    ∃ a, makeExtended n powerlaw theta ellip false true angles = .ok (.image a) ∧ a.n = n ∧ a.m = n ∧
      ∀ k < n, ∀ l ≤ n / 2, dft2 n n (fun i j => (a.get i j : ℂ)) k l =
        if l ≠ 0 ∧ l ≠ np1 n then (extRaw n powerlaw theta ellip angles).get k l
        else if negIx n k = k then realPart ((extRaw n powerlaw theta ellip angles).get k l)
        else if 2 * k < n then cconj ((extRaw n powerlaw theta ellip angles).get (negIx n k) l)
        else (extRaw n powerlaw theta ellip angles).get k l := by
  obtain ⟨a, b, ha, hb, han, ham, hd⟩ := C53_image_even n hn hev powerlaw theta ellip h0 h1 angles
  obtain ⟨g, F, hg, hm, hF, hs⟩ := full_map n hn powerlaw theta ellip h0 h1 angles
  obtain ⟨g', hg', hv, -⟩ := half n hn powerlaw theta ellip angles
  rw [hg] at hg'; cases hg'
  rw [hm] at hb; cases hb
  have hnp := np1_eq n
  refine ⟨a, ha, han, ham, ?_⟩
  intro k hk l hl
  have ek : ((k : ℤ) % (n : ℤ)).toNat = k := by rw [Int.emod_eq_of_lt (by omega) (by omega)]; rfl
  have el : ((l : ℤ) % (n : ℤ)).toNat = l := by rw [Int.emod_eq_of_lt (by omega) (by omega)]; rfl
  rw [hd, shift_get n hn, ek, el, hF k hk l (by omega), if_pos (by omega)]
  exact hv k hk l (by omega)

/-- The drawn entry at a frequency of the half plane: modulus of the requested amplitude over that of the
divisor of the phases. -/
theorem extRaw_get {n : ℕ} {powerlaw theta ellip : ℝ} (h1 : ellip ≤ 1) {angles : ℕ → ℕ → ℝ} {i : ℕ} (hi : i < n) (j : ℕ) :
    (extRaw n powerlaw theta ellip angles).get i j =
      (requested powerlaw (ellRadius theta ellip (signedFreq n i) ((j : ℝ) / n)) : ℂ) *
        (unitPhase (angles i j) / phaseNorm n angles) := by
  unfold extRaw
  simp only
  rw [radius_eq hi _ _ h1]
  rfl

/-- The factor is not 1: phases are divided by a complex root of their mean square, so the amplitude depends on
the draw.  Size 2, angles 0, 0, 0, π/2: the amplitude at frequency (0, 1/2) is off by √2 for every power law. -/
theorem C53_amplitude_violated (powerlaw : ℝ) : ∃ (angles : ℕ → ℕ → ℝ) (b : Arr2 ℂ),
    makeExtended 2 powerlaw 0 1 true false angles = .ok (.fft b) ∧
      ‖b.get 0 1‖ = Real.sqrt 2 * (1 / 2 : ℝ) ^ (-powerlaw / 2) ∧
      ‖b.get 0 1‖ ≠ requested powerlaw (ellRadius 0 1 (signedFreq 2 0) ((1 : ℕ) / (2 : ℕ))) := by
  let angles : ℕ → ℕ → ℝ := fun i j => if i = 1 ∧ j = 1 then Real.pi / 2 else 0
  obtain ⟨g, hg, hv, _⟩ := half 2 (by norm_num) powerlaw 0 1 angles
  have hnorm : phaseNorm 2 angles = ((Real.sqrt (1 / 2) : ℝ) : ℂ) := by
    unfold phaseNorm
    have hsum : (∑ i ∈ range 2, ∑ j ∈ range (np1 2 + 1), unitPhase (angles i j) ^ 2) / ((2 * (np1 2 + 1) : ℕ) : ℂ) =
        ((1 / 2 : ℝ) : ℂ) := by
      have h2 : np1 2 = 1 := rfl
      have e0 : unitPhase 0 = 1 := by simp [unitPhase]
      have e1 : unitPhase (Real.pi / 2) = Complex.I := by
        unfold unitPhase
        rw [← Complex.ofReal_cos, ← Complex.ofReal_sin, Real.cos_pi_div_two, Real.sin_pi_div_two]
        simp
      rw [h2]
      simp only [sum_range_succ, sum_range_zero, angles]
      norm_num [e0, e1]
    rw [hsum, Real.sqrt_eq_rpow, Complex.ofReal_cpow (by norm_num)]
    push_cast
    norm_num
  have hreq : requested powerlaw (ellRadius 0 1 (signedFreq 2 0) ((1 : ℕ) / (2 : ℕ))) = (1 / 2 : ℝ) ^ (-powerlaw / 2) := by
    have : ellRadius 0 1 (signedFreq 2 0) ((1 : ℕ) / (2 : ℕ)) = 1 / 2 := by
      unfold ellRadius signedFreq
      rw [show (1 * ((((1 : ℕ) : ℝ) / (2 : ℕ)) * Real.cos 0 - (if 2 * 0 < 2 then ((0 : ℕ) : ℝ) / (2 : ℕ) else (((0 : ℕ) : ℝ) - (2 : ℕ)) / (2 : ℕ)) * Real.sin 0)) ^ 2 +
        ((((1 : ℕ) : ℝ) / (2 : ℕ)) * Real.sin 0 + (if 2 * 0 < 2 then ((0 : ℕ) : ℝ) / (2 : ℕ) else (((0 : ℕ) : ℝ) - (2 : ℕ)) / (2 : ℕ)) * Real.cos 0) ^ 2 = (1 / 2 : ℝ) ^ 2 by norm_num]
      exact Real.sqrt_sq (by norm_num)
    rw [this]
    unfold requested
    rw [if_neg (by norm_num)]
  have hpos : (0 : ℝ) < (1 / 2 : ℝ) ^ (-powerlaw / 2) := Real.rpow_pos_of_pos (by norm_num) _
  have hval : ‖g 0 1‖ = Real.sqrt 2 * (1 / 2 : ℝ) ^ (-powerlaw / 2) := by
    have h := hv 0 (by norm_num) 1 (by decide)
    rw [if_neg (by decide), if_pos (by decide)] at h
    rw [h]
    unfold extRaw
    simp only
    rw [radius_eq (by norm_num) _ _ (le_refl _), hnorm]
    have e0 : unitPhase (angles 0 1) = 1 := by simp [unitPhase, angles]
    rw [e0]
    have e1 : plawAmp powerlaw (ellRadius 0 1 (signedFreq 2 0) (((1 : ℕ) : ℝ) / ((2 : ℕ) : ℝ))) = (1 / 2 : ℝ) ^ (-powerlaw / 2) := hreq
    rw [e1]
    have e2 : (((1 / 2 : ℝ) ^ (-powerlaw / 2) : ℝ) : ℂ) * (1 / ((Real.sqrt (1 / 2) : ℝ) : ℂ)) =
        (((1 / 2 : ℝ) ^ (-powerlaw / 2) * (1 / Real.sqrt (1 / 2)) : ℝ) : ℂ) := by push_cast; rfl
    rw [e2]
    unfold realPart
    rw [Complex.ofReal_re, Complex.norm_real, Real.norm_of_nonneg (by positivity)]
    have e3 : 1 / Real.sqrt (1 / 2) = Real.sqrt 2 := by
      rw [Real.sqrt_div (by norm_num), Real.sqrt_one, one_div_one_div]
    rw [e3, mul_comm]
  refine ⟨angles, ⟨2, np1 2 + 1, g⟩, ?_, hval, ?_⟩
  · unfold makeExtended
    rw [if_neg (by norm_num)]
    simp only [hg, bind, Except.bind, if_true, pure, Except.pure, Bool.false_eq_true, not_false_eq_true]
  · simp only
    rw [hval, hreq]
    intro h
    have h2 : Real.sqrt 2 = 1 := by
      have : (Real.sqrt 2 - 1) * (1 / 2 : ℝ) ^ (-powerlaw / 2) = 0 := by linarith
      rcases mul_eq_zero.1 this with h' | h'
      · linarith
      · exact absurd h' hpos.ne'
    have h3 := Real.sq_sqrt (show (0 : ℝ) ≤ 2 by norm_num)
    rw [h2] at h3
    norm_num at h3

example : (0 : ℝ) < 0.5 ∧ (0.5 : ℝ) ≤ 1 ∧ 0 < 7 ∧ 8 % 2 = 0 := by norm_num

end TS
