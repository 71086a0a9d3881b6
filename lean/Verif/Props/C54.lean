import Verif.Lemmas.GenField3
import Verif.Props.C53

/-! C54 — 3D power-law fields: Hermitian planes, amplitudes and rms. -/

namespace TS
open Finset Complex

namespace Spec

/-- Root mean square of all the values of a cube. -/
noncomputable def rmsOf (a : Arr3 ℝ) : ℝ :=
  Real.sqrt ((∑ i ∈ range a.n, ∑ j ∈ range a.m, ∑ t ∈ range a.p, a.get i j t ^ 2) / (a.n * a.m * a.p : ℕ))

/-- Signed frequency of an integer frequency modulo `n`. -/
noncomputable def freqOf (n : ℕ) (k : ℤ) : ℝ := signedFreq n (k % n).toNat

/-- Length of a 3D frequency. -/
noncomputable def radius3 (n : ℕ) (k l q : ℤ) : ℝ := Real.sqrt (freqOf n k ^ 2 + freqOf n l ^ 2 + freqOf n q ^ 2)

end Spec
open Spec

private theorem fieldRaw_eta (n : ℕ) (p : ℝ) (an : ℕ → ℕ → ℕ → ℝ) :
    fieldRaw n p an = ⟨n, n, np1 n + 1, (fieldRaw n p an).get⟩ := rfl

/-- The first and last planes of the Fourier map satisfy `F(-k) = conj F(k)`, for every size and draw. -/
theorem C54_planes (n : ℕ) (hn : 0 < n) (powerlaw : ℝ) (angles : ℕ → ℕ → ℕ → ℝ) :
    ∃ F, imposeSym3 n (fieldRaw n powerlaw angles) = .ok F ∧ F.n = n ∧ F.m = n ∧ F.p = n / 2 + 1 ∧
      ∀ t, t = 0 ∨ t = n / 2 → ∀ i < n, ∀ j < n,
        (starRingEnd ℂ) (F.get (negIx n i) (negIx n j) t) = F.get i j t := by
  obtain ⟨g, hg, hv⟩ := imposeSym3_spec n hn (fieldRaw n powerlaw angles).get
  have hnp := np1_eq n
  refine ⟨_, hg, rfl, rfl, by simp only; omega, ?_⟩
  intro t ht i hi j hj
  simp only
  have ht' : ¬ (t ≠ 0 ∧ t ≠ np1 n) := by omega
  have e1 := hv i hi j hj t (by omega)
  have e2 := hv _ (negIx_lt hi) _ (negIx_lt hj) t (by omega)
  rw [if_neg ht'] at e1 e2
  rw [negIx_negIx hi, negIx_negIx hj] at e2
  by_cases hs : negIx n i = i ∧ negIx n j = j
  · rw [if_pos hs] at e1
    rw [hs.1, hs.2, e1]
    simp [realPart]
  · rw [if_neg hs] at e1
    rw [if_neg (fun h => hs ⟨h.1.symm, h.2.symm⟩)] at e2
    rw [e1, e2]
    by_cases h : HalfPlane n i j
    · rw [if_neg (halfPlane_neg hi hj h), if_pos h]
      rfl
    · rw [if_pos (halfPlane_or hi hj h hs), if_neg h]
      unfold cconj
      rw [Complex.conj_conj]

private theorem norm_phase (t : ℝ) : ‖unitPhase t‖ = 1 := by
  unfold unitPhase
  have : Complex.cos t + Complex.I * Complex.sin t = Complex.exp (t * Complex.I) := by
    rw [Complex.exp_mul_I]; ring
  rw [this, Complex.norm_exp_ofReal_mul_I]

private theorem requested_nonneg (p r : ℝ) (hr : 0 ≤ r) : 0 ≤ requested p r := by
  unfold requested; split_ifs
  · exact le_refl _
  · exact Real.rpow_nonneg hr _

private theorem freq_sq {n i : ℕ} (hi : i < n) : (fftfreq n).get i ^ 2 = signedFreq n i ^ 2 := by
  unfold fftfreq signedFreq
  simp only
  by_cases h : 2 * i < n
  · rw [if_pos (by omega), if_pos h]
  · rw [if_neg (by omega), if_neg h]

private theorem neg_sq {n i : ℕ} (hi : i < n) : signedFreq n (negIx n i) ^ 2 = signedFreq n i ^ 2 := by
  by_cases hs : negIx n i = i
  · rw [hs]
  · unfold signedFreq negIx at *
    by_cases h0 : i = 0
    · simp [h0] at hs
    · rw [if_neg h0] at hs ⊢
      have hn : (n : ℝ) ≠ 0 := by
        have : n ≠ 0 := by omega
        exact_mod_cast this
      by_cases h : 2 * i < n
      · rw [if_neg (by omega), if_pos h, Nat.cast_sub (by omega)]; ring
      · rw [if_pos (by omega), if_neg h, Nat.cast_sub (by omega)]; ring

private theorem norm_raw (n : ℕ) (p : ℝ) (an : ℕ → ℕ → ℕ → ℝ) {i j : ℕ} (hi : i < n) (hj : j < n) (t : ℕ) :
    ‖(fieldRaw n p an).get i j t‖ = requested p (Real.sqrt (signedFreq n i ^ 2 + signedFreq n j ^ 2 + ((t : ℝ) / n) ^ 2)) := by
  unfold fieldRaw
  simp only
  have hr : fieldRadius n i j t = Real.sqrt (signedFreq n i ^ 2 + signedFreq n j ^ 2 + ((t : ℝ) / n) ^ 2) := by
    unfold fieldRadius
    rw [freq_sq hi, freq_sq hj, add_comm (signedFreq n j ^ 2)]
  rw [hr, norm_mul, norm_phase, mul_one, Complex.norm_real, Real.norm_of_nonneg]
  · rfl
  · exact requested_nonneg _ _ (Real.sqrt_nonneg _)

/-- The pieces of `make_3dfield`. -/
private theorem core (n : ℕ) (hn : 2 ≤ n) (powerlaw : ℝ) (angles : ℕ → ℕ → ℕ → ℝ) :
    ∃ (g : ℕ → ℕ → ℕ → ℂ) (z : ℕ → ℕ → ℕ → ℝ),
      (∀ amp, make3dfield n powerlaw amp angles = .ok (normalise3 amp ⟨n, n, 2 * (n / 2), z⟩)) ∧
      (∀ i < n, ∀ j < n, ∀ t ≤ n / 2, dft3 n n (2 * (n / 2)) (fun i j t => (z i j t : ℂ)) i j t = g i j t) ∧
      (∀ i < n, ∀ j < n, ∀ t ≤ n / 2,
        ‖g i j t‖ ≤ requested powerlaw (Real.sqrt (signedFreq n i ^ 2 + signedFreq n j ^ 2 + ((t : ℝ) / n) ^ 2)) ∧
        (¬ (negIx n i = i ∧ negIx n j = j ∧ (t = 0 ∨ t = n / 2)) →
          ‖g i j t‖ = requested powerlaw (Real.sqrt (signedFreq n i ^ 2 + signedFreq n j ^ 2 + ((t : ℝ) / n) ^ 2)))) := by
  have hn0 : 0 < n := by omega
  have hnp := np1_eq n
  obtain ⟨F, hF, hFn, hFm, hFp, hherm⟩ := C54_planes n hn0 powerlaw angles
  obtain ⟨g, hg, hv⟩ := imposeSym3_spec n hn0 (fieldRaw n powerlaw angles).get
  have hg' : imposeSym3 n (fieldRaw n powerlaw angles) = .ok ⟨n, n, np1 n + 1, g⟩ := hg
  rw [hg'] at hF
  injection hF with hF
  subst hF
  simp only at hherm
  have hN : 2 * (np1 n + 1 - 1) = 2 * (n / 2) := by omega
  refine ⟨g, fun i j t => irfft1 (2 * (n / 2)) (fun l => idft1 n (fun k1 => idft1 n (fun k2 => g k1 k2 l) j) i) t, ?_, ?_, ?_⟩
  · intro amp
    unfold make3dfield irfft3
    simp only [hg', bind, Except.bind, pure, Except.pure, hN]
    rw [if_neg (by omega)]
  · intro i hi j hj t ht
    have h2 : 2 * (n / 2) / 2 = n / 2 := by omega
    exact dft3_irfft3 (by omega) (by omega) g (fun q hq k hk l hl => hherm q (by omega) k hk l hl) hi hj (by omega)
  · intro i hi j hj t ht
    have e := hv i hi j hj t (by omega)
    have hc : ∀ w, ‖cconj w‖ = ‖w‖ := fun w => Complex.norm_conj w
    have hmir : ‖(fieldRaw n powerlaw angles).get (negIx n i) (negIx n j) t‖ =
        requested powerlaw (Real.sqrt (signedFreq n i ^ 2 + signedFreq n j ^ 2 + ((t : ℝ) / n) ^ 2)) := by
      rw [norm_raw _ _ _ (negIx_lt hi) (negIx_lt hj), neg_sq hi, neg_sq hj]
    rw [e]
    by_cases c1 : t ≠ 0 ∧ t ≠ np1 n
    · rw [if_pos c1]
      exact ⟨(norm_raw _ _ _ hi hj t).le, fun _ => norm_raw _ _ _ hi hj t⟩
    · rw [if_neg c1]
      by_cases c2 : negIx n i = i ∧ negIx n j = j
      · rw [if_pos c2]
        refine ⟨?_, fun h => absurd ⟨c2.1, c2.2, by omega⟩ h⟩
        rw [← norm_raw n powerlaw angles hi hj t]
        unfold realPart
        rw [Complex.norm_real]
        exact Complex.abs_re_le_norm _
      · rw [if_neg c2]
        by_cases c3 : HalfPlane n i j
        · rw [if_pos c3, hc]
          exact ⟨hmir.le, fun _ => hmir⟩
        · rw [if_neg c3]
          exact ⟨(norm_raw _ _ _ hi hj t).le, fun _ => norm_raw _ _ _ hi hj t⟩

private theorem rms3_eq (a : Arr3 ℝ) : rms3 a = rmsOf a := by
  unfold rms3 rmsOf
  rw [Real.sqrt_div]
  exact sum_nonneg fun i _ => sum_nonneg fun j _ => sum_nonneg fun t _ => sq_nonneg _

private theorem rms_scale (a : Arr3 ℝ) (c : ℝ) : rmsOf (a.map (fun x => x / c)) = rmsOf a / |c| := by
  unfold rmsOf Arr3.map
  simp only
  rw [← Real.sqrt_sq_eq_abs, ← Real.sqrt_div (by
    apply div_nonneg _ (Nat.cast_nonneg _)
    exact sum_nonneg fun i _ => sum_nonneg fun j _ => sum_nonneg fun t _ => sq_nonneg _)]
  congr 1
  simp only [div_pow, ← sum_div]
  rw [div_right_comm]

/-- A field with rms 0 has a zero transform. -/
private theorem dft_of_rms_zero (n m p : ℕ) (hn : 0 < n) (hm : 0 < m) (hp : 0 < p) (z : ℕ → ℕ → ℕ → ℝ)
    (h : rmsOf ⟨n, m, p, z⟩ = 0) (k l q : ℤ) : dft3 n m p (fun i j t => (z i j t : ℂ)) k l q = 0 := by
  unfold rmsOf at h
  simp only at h
  have hpos : (0 : ℝ) < ((n * m * p : ℕ) : ℝ) := by exact_mod_cast Nat.mul_pos (Nat.mul_pos hn hm) hp
  have hs0 : ∀ i ∈ range n, 0 ≤ ∑ j ∈ range m, ∑ t ∈ range p, z i j t ^ 2 :=
    fun i _ => sum_nonneg fun j _ => sum_nonneg fun t _ => sq_nonneg _
  rw [Real.sqrt_eq_zero (div_nonneg (sum_nonneg hs0) hpos.le), div_eq_zero_iff] at h
  have h1 : ∑ i ∈ range n, ∑ j ∈ range m, ∑ t ∈ range p, z i j t ^ 2 = 0 := by
    rcases h with h | h
    · exact h
    · exact absurd h hpos.ne'
  rw [sum_eq_zero_iff_of_nonneg hs0] at h1
  unfold dft3
  apply sum_eq_zero; intro i hi
  apply sum_eq_zero; intro j hj
  apply sum_eq_zero; intro t ht
  have h2 := h1 i hi
  rw [sum_eq_zero_iff_of_nonneg (fun j _ => sum_nonneg fun t _ => sq_nonneg _)] at h2
  have h3 := h2 j hj
  rw [sum_eq_zero_iff_of_nonneg (fun t _ => sq_nonneg _)] at h3
  have h4 : z i j t = 0 := by simpa using h3 t ht
  simp [h4]

private theorem rms_pos (n : ℕ) (hn : 3 ≤ n) (powerlaw : ℝ) {g : ℕ → ℕ → ℕ → ℂ} {z : ℕ → ℕ → ℕ → ℝ}
    (hd : ∀ i < n, ∀ j < n, ∀ t ≤ n / 2, dft3 n n (2 * (n / 2)) (fun i j t => (z i j t : ℂ)) i j t = g i j t)
    (hg : ∀ i < n, ∀ j < n, ∀ t ≤ n / 2,
        ‖g i j t‖ ≤ requested powerlaw (Real.sqrt (signedFreq n i ^ 2 + signedFreq n j ^ 2 + ((t : ℝ) / n) ^ 2)) ∧
        (¬ (negIx n i = i ∧ negIx n j = j ∧ (t = 0 ∨ t = n / 2)) →
          ‖g i j t‖ = requested powerlaw (Real.sqrt (signedFreq n i ^ 2 + signedFreq n j ^ 2 + ((t : ℝ) / n) ^ 2)))) :
    0 < rmsOf ⟨n, n, 2 * (n / 2), z⟩ := by
  rcases (Real.sqrt_nonneg _ : 0 ≤ rmsOf ⟨n, n, 2 * (n / 2), z⟩).lt_or_eq with h | h
  · exact h
  exfalso
  have h0 := dft_of_rms_zero n n (2 * (n / 2)) (by omega) (by omega) (by omega) z h.symm (1 : ℕ) (0 : ℕ) (0 : ℕ)
  rw [hd 1 (by omega) 0 (by omega) 0 (by omega)] at h0
  have h1 := (hg 1 (by omega) 0 (by omega) 0 (by omega)).2 (by
    rintro ⟨h, _⟩
    unfold negIx at h
    rw [if_neg (by norm_num)] at h
    omega)
  rw [h0, norm_zero] at h1
  have hnr : (0 : ℝ) < n := by exact_mod_cast (by omega : 0 < n)
  have hr : 0 < Real.sqrt (signedFreq n 1 ^ 2 + signedFreq n 0 ^ 2 + (((0 : ℕ) : ℝ) / n) ^ 2) := by
    apply Real.sqrt_pos.2
    have : signedFreq n 1 = 1 / n := by unfold signedFreq; rw [if_pos (by omega)]; simp
    rw [this]
    positivity
  unfold requested at h1
  rw [if_neg hr.ne'] at h1
  exact absurd h1.symm (Real.rpow_pos_of_pos hr _).ne'

/-- For every size from 3 up and every draw, the field has the requested rms. Missing: sizes 1 and 2 (`C54_size_one`,
`C54_size_two_zero`). -/
theorem C54_rms_partial (n : ℕ) (hn : 3 ≤ n) (powerlaw amp : ℝ) (angles : ℕ → ℕ → ℕ → ℝ) :
    ∃ a, make3dfield n powerlaw amp angles = .ok a ∧ a.n = n ∧ a.m = n ∧ rmsOf a = |amp| := by
  obtain ⟨g, z, hm, hd, hg⟩ := core n (by omega) powerlaw angles
  refine ⟨_, hm amp, rfl, rfl, ?_⟩
  have hpos := rms_pos n hn powerlaw hd hg
  unfold normalise3
  rw [rms_scale, rms3_eq, abs_div, abs_of_pos hpos]
  by_cases h : amp = 0
  · simp [h]
  · have : |amp| ≠ 0 := abs_ne_zero.2 h
    field_simp

private theorem mod_facts (n : ℕ) (hn : 0 < n) (k : ℤ) : (k % (n : ℤ)).toNat < n ∧ (n : ℤ) ∣ k - ((k % (n : ℤ)).toNat : ℕ) := by
  have h1 := Int.emod_nonneg k (by omega : (n : ℤ) ≠ 0)
  have h2 := Int.emod_lt_of_pos k (by omega : (0 : ℤ) < n)
  refine ⟨by omega, ?_⟩
  rw [Int.toNat_of_nonneg h1]
  exact Int.dvd_self_sub_emod

private theorem self_iff (n : ℕ) (hn : 0 < n) (k : ℤ) : negIx n (k % (n : ℤ)).toNat = (k % (n : ℤ)).toNat ↔ (n : ℤ) ∣ 2 * k := by
  obtain ⟨h1, h2⟩ := mod_facts n hn k
  generalize (k % (n : ℤ)).toNat = r at h1 h2
  have h3 : (n : ℤ) ∣ 2 * k ↔ (n : ℤ) ∣ 2 * r := by
    have : 2 * k = 2 * (r : ℤ) + 2 * (k - r) := by ring
    rw [this]
    exact dvd_add_left (h2.mul_left 2)
  rw [h3]
  constructor
  · intro h
    unfold negIx at h
    split_ifs at h with h0
    · subst h0; simp
    · exact ⟨1, by omega⟩
  · rintro ⟨c, hc⟩
    have hc0 : 0 ≤ c := by
      by_contra hneg
      push Not at hneg
      have : (n : ℤ) * c < 0 := mul_neg_of_pos_of_neg (by omega) hneg
      omega
    have hc2 : c < 2 := by
      by_contra hge
      push Not at hge
      have : (n : ℤ) * 2 ≤ n * c := mul_le_mul_of_nonneg_left hge (by omega)
      omega
    unfold negIx
    have : c = 0 ∨ c = 1 := by omega
    rcases this with rfl | rfl <;> split_ifs <;> omega

/-- Even sizes: the field is an n×n×n real cube whose transform has modulus (one common factor) × r^(−powerlaw/2)
at every frequency that is not its own mirror image, and at most that at those that are; the factor is positive. -/
theorem C54_spectrum (n : ℕ) (hn : 2 ≤ n) (hev : n % 2 = 0) (powerlaw amp : ℝ) (angles : ℕ → ℕ → ℕ → ℝ) :
    ∃ (a : Arr3 ℝ) (c : ℝ), make3dfield n powerlaw amp angles = .ok a ∧ a.n = n ∧ a.m = n ∧ a.p = n ∧ 0 ≤ c ∧
      (4 ≤ n → amp ≠ 0 → 0 < c) ∧
      ∀ k l q : ℤ,
        ‖dft3 n n n (fun i j t => (a.get i j t : ℂ)) k l q‖ ≤ c * requested powerlaw (radius3 n k l q) ∧
        (¬ ((n : ℤ) ∣ 2 * k ∧ (n : ℤ) ∣ 2 * l ∧ (n : ℤ) ∣ 2 * q) →
          ‖dft3 n n n (fun i j t => (a.get i j t : ℂ)) k l q‖ = c * requested powerlaw (radius3 n k l q)) := by
  obtain ⟨g, z, hm, hd, hg⟩ := core n hn powerlaw angles
  have hN : 2 * (n / 2) = n := by omega
  have hn0 : 0 < n := by omega
  refine ⟨_, |1 / (rms3 ⟨n, n, 2 * (n / 2), z⟩ / amp)|, hm amp, rfl, rfl, hN, abs_nonneg _, ?_, ?_⟩
  · intro h4 hamp
    have hpos := rms_pos n (by omega) powerlaw hd hg
    rw [rms3_eq]
    apply abs_pos.2
    have := hpos.ne'
    positivity
  · rw [hN] at hd ⊢
    set c := rms3 ⟨n, n, n, z⟩ / amp with hc
    have hscale : ∀ k l q : ℤ, dft3 n n n (fun i j t => (((normalise3 amp ⟨n, n, n, z⟩).get i j t : ℝ) : ℂ)) k l q =
        ((1 / c : ℝ) : ℂ) * dft3 n n n (fun i j t => (z i j t : ℂ)) k l q := by
      intro k l q
      unfold dft3
      simp only [mul_sum]
      apply sum_congr rfl; intro i _
      apply sum_congr rfl; intro j _
      apply sum_congr rfl; intro t _
      simp only [normalise3, Arr3.map, ← hc]
      push_cast
      ring
    -- statement for the untouched half, in terms of array indices
    have half : ∀ i < n, ∀ j < n, ∀ t ≤ n / 2,
        ‖dft3 n n n (fun i j t => (z i j t : ℂ)) i j t‖ ≤ requested powerlaw (Real.sqrt (signedFreq n i ^ 2 + signedFreq n j ^ 2 + signedFreq n t ^ 2)) ∧
        (¬ (negIx n i = i ∧ negIx n j = j ∧ negIx n t = t) →
          ‖dft3 n n n (fun i j t => (z i j t : ℂ)) i j t‖ = requested powerlaw (Real.sqrt (signedFreq n i ^ 2 + signedFreq n j ^ 2 + signedFreq n t ^ 2))) := by
      intro i hi j hj t ht
      have hsq : ((t : ℝ) / n) ^ 2 = signedFreq n t ^ 2 := by
        unfold signedFreq
        split_ifs with h
        · rfl
        · have h2 : n = 2 * t := by omega
          have : (n : ℝ) = 2 * t := by exact_mod_cast h2
          rw [this]; ring
      have := hg i hi j hj t ht
      rw [hsq] at this
      rw [hd i hi j hj t ht]
      refine ⟨this.1, fun h => this.2 (fun h' => h ⟨h'.1, h'.2.1, ?_⟩)⟩
      unfold negIx
      split_ifs <;> omega
    intro k l q
    rw [hscale]
    have hnc : ∀ w : ℂ, ‖((1 / c : ℝ) : ℂ) * w‖ = |1 / c| * ‖w‖ := by
      intro w; rw [norm_mul, Complex.norm_real, Real.norm_eq_abs]
    rw [hnc]
    have key : ‖dft3 n n n (fun i j t => (z i j t : ℂ)) k l q‖ ≤ requested powerlaw (radius3 n k l q) ∧
        (¬ ((n : ℤ) ∣ 2 * k ∧ (n : ℤ) ∣ 2 * l ∧ (n : ℤ) ∣ 2 * q) →
          ‖dft3 n n n (fun i j t => (z i j t : ℂ)) k l q‖ = requested powerlaw (radius3 n k l q)) := by
      obtain ⟨k1, k2⟩ := mod_facts n hn0 k
      obtain ⟨l1, l2⟩ := mod_facts n hn0 l
      obtain ⟨q1, q2⟩ := mod_facts n hn0 q
      rw [← self_iff n hn0, ← self_iff n hn0, ← self_iff n hn0]
      unfold radius3 freqOf
      rw [dft3_congr_freq _ k2 l2 q2]
      generalize (k % (n : ℤ)).toNat = k' at *
      generalize (l % (n : ℤ)).toNat = l' at *
      generalize (q % (n : ℤ)).toNat = q' at *
      by_cases hq : q' ≤ n / 2
      · exact half k' k1 l' l1 q' hq
      · have hq2 : negIx n q' ≤ n / 2 := by unfold negIx; split_ifs <;> omega
        have := half _ (negIx_lt k1) _ (negIx_lt l1) _ hq2
        rw [neg_sq k1, neg_sq l1, neg_sq q1, negIx_negIx k1, negIx_negIx l1, negIx_negIx q1,
          dft3_congr_freq _ (dvd_negIx n k' k1) (dvd_negIx n l' l1) (dvd_negIx n q' q1), norm_dft3_neg] at this
        refine ⟨this.1, fun h => this.2 (fun h' => h ⟨h'.1.symm, h'.2.1.symm, h'.2.2.symm⟩)⟩
    exact ⟨mul_le_mul_of_nonneg_left key.1 (abs_nonneg _), fun h => by rw [key.2 h]⟩

/-- Odd sizes give a cube whose last axis is one short. -/
theorem C54_odd_not_cube (n : ℕ) (hn : 3 ≤ n) (hodd : n % 2 = 1) (powerlaw amp : ℝ) (angles : ℕ → ℕ → ℕ → ℝ) :
    ∃ a, make3dfield n powerlaw amp angles = .ok a ∧ a.n = n ∧ a.m = n ∧ a.p = n - 1 := by
  obtain ⟨g, z, hm, _⟩ := core n (by omega) powerlaw angles
  exact ⟨_, hm amp, rfl, rfl, by simp only [normalise3, Arr3.map]; omega⟩

/-- Size 1 raises ValueError. -/
theorem C54_size_one (powerlaw amp : ℝ) (angles : ℕ → ℕ → ℕ → ℝ) :
    make3dfield 1 powerlaw amp angles = .error .valueError := by
  obtain ⟨g, hg, _⟩ := imposeSym3_spec 1 (by norm_num) (fieldRaw 1 powerlaw angles).get
  have hg' : imposeSym3 1 (fieldRaw 1 powerlaw angles) = .ok ⟨1, 1, np1 1 + 1, g⟩ := hg
  unfold make3dfield irfft3
  simp only [hg', bind, Except.bind]
  rw [if_pos (Or.inr (Or.inr (by decide)))]

/-- `return_fft=True` returns the transform of the same field, but only its non-negative last-axis frequencies
(the documentation promises the full map). -/
theorem C54_fft_half (n : ℕ) (hn : 2 ≤ n) (hev : n % 2 = 0) (powerlaw amp : ℝ) (angles : ℕ → ℕ → ℕ → ℝ) :
    ∃ a b, make3dfield n powerlaw amp angles = .ok a ∧ make3dfieldFft n powerlaw amp angles = .ok b ∧
      b.n = n ∧ b.m = n ∧ b.p = n / 2 + 1 ∧
      ∀ k l q, b.get k l q = dft3 n n n (fun i j t => (a.get i j t : ℂ)) k l q := by
  obtain ⟨g, z, hm, _⟩ := core n hn powerlaw angles
  have hN : 2 * (n / 2) = n := by omega
  refine ⟨_, ?_, hm amp, ?_, ?_⟩
  · exact rfft3 (normalise3 amp ⟨n, n, 2 * (n / 2), z⟩)
  · unfold make3dfieldFft; rw [hm amp]; rfl
  · rw [hN]
    exact ⟨rfl, rfl, rfl, fun k l q => rfl⟩

/-- Size 2: every frequency is its own mirror image, and a draw of quarter-turn phases makes the field vanish,
so the normalisation divides zero by zero. -/
theorem C54_size_two_zero (powerlaw : ℝ) : ∃ (angles : ℕ → ℕ → ℕ → ℝ) (F : Arr3 ℂ) (z : Arr3 ℝ),
    imposeSym3 2 (fieldRaw 2 powerlaw angles) = .ok F ∧ irfft3 F = .ok z ∧
      ∀ i < 2, ∀ j < 2, ∀ t < 2, z.get i j t = 0 := by
  let angles : ℕ → ℕ → ℕ → ℝ := fun _ _ _ => Real.pi / 2
  obtain ⟨g, hg, hv⟩ := imposeSym3_spec 2 (by norm_num) (fieldRaw 2 powerlaw angles).get
  have h2 : np1 2 = 1 := rfl
  have hzero : ∀ i < 2, ∀ j < 2, ∀ t < 2, g i j t = 0 := by
    intro i hi j hj t ht
    have e := hv i hi j hj t (by omega)
    have hni : ∀ i < 2, negIx 2 i = i := by decide
    rw [if_neg (by omega), if_pos ⟨hni i hi, hni j hj⟩] at e
    rw [e]
    unfold fieldRaw realPart
    simp only
    have e1 : unitPhase (angles i j t) = Complex.I := by
      unfold unitPhase
      simp only [angles]
      rw [← Complex.ofReal_cos, ← Complex.ofReal_sin, Real.cos_pi_div_two, Real.sin_pi_div_two]
      simp
    rw [e1]
    simp
  refine ⟨angles, _, ?_, hg, ?_, ?_⟩
  · exact ⟨2, 2, 2 * (np1 2 + 1 - 1), fun i j t => irfft1 (2 * (np1 2 + 1 - 1))
      (fun l => idft1 2 (fun k1 => idft1 2 (fun k2 => g k1 k2 l) j) i) t⟩
  · unfold irfft3
    simp only
    rw [if_neg (by decide)]
  · intro i hi j hj t ht
    simp only [h2]
    have hi0 : ∀ l < 2, idft1 2 (fun k1 => idft1 2 (fun k2 => g k1 k2 l) j) i = 0 := by
      intro l hl
      unfold idft1
      simp only [sum_range_succ, sum_range_zero]
      rw [hzero 0 (by omega) 0 (by omega) l hl, hzero 0 (by omega) 1 (by omega) l hl,
        hzero 1 (by omega) 0 (by omega) l hl, hzero 1 (by omega) 1 (by omega) l hl]
      simp
    generalize hG : (fun l => idft1 2 (fun k1 => idft1 2 (fun k2 => g k1 k2 l) j) i) = G
    have hG0 : ∀ l < 2, G l = 0 := by
      intro l hl; rw [← hG]; exact hi0 l hl
    unfold irfft1 idft1
    rw [sum_eq_zero, mul_zero]
    · rfl
    · intro l hl
      have hl2 : l < 2 := by simpa using hl
      unfold hermExt
      rw [if_pos (by omega), hG0 l hl2]
      simp [realPart]

example : 3 ≤ 7 ∧ 2 ≤ 8 ∧ 8 % 2 = 0 ∧ ¬ ((8 : ℤ) ∣ 2 * 1 ∧ (8 : ℤ) ∣ 2 * 0 ∧ (8 : ℤ) ∣ 2 * 3) := by decide

end TS
