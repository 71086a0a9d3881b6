import Verif.Model.ThreeDPspec
import Verif.Props.C53
import Mathlib.Tactic.Linarith
import Mathlib.Tactic.FieldSimp

/-! C55 — the 3D power spectrum. -/

namespace TS
open Finset

namespace Spec

/-- Radius (cycles per pixel) of Fourier mode `c`. -/
noncomputable def modeR (a : Arr3 ℝ) (c : ℕ × ℕ × ℕ) : ℝ :=
  Real.sqrt (signedFreq a.n c.1 ^ 2 + signedFreq a.m c.2.1 ^ 2 + signedFreq a.p c.2.2 ^ 2)

/-- Mode `c` lies in ring `k` of `B` rings of width `1/N` starting at `1/N`; the last ring has no outer edge. -/
def InRing (a : Arr3 ℝ) (N B k : ℕ) (c : ℕ × ℕ × ℕ) : Prop :=
  (c.1 < a.n ∧ c.2.1 < a.m ∧ c.2.2 < a.p) ∧ k < B ∧ ((k : ℝ) + 1) / N ≤ modeR a c ∧
    (k + 1 < B → modeR a c < ((k : ℝ) + 2) / N)

/-- Power of mode `c`. -/
noncomputable def modePower (a : Arr3 ℝ) (c : ℕ × ℕ × ℕ) : ℝ :=
  ‖dft3 a.n a.m a.p (fun i j t => (a.get i j t : ℂ)) c.1 c.2.1 c.2.2‖ ^ 2

end Spec
open Spec

/-- Arrays without exactly three dimensions are rejected. -/
theorem C55_ndim (ndim : ℕ) (a : Arr3 ℝ) (h : ndim ≠ 3) : threeDPspec ndim a = .error .valueError := by
  unfold threeDPspec; rw [if_pos h]

private theorem freq_sq' {n i : ℕ} (hi : i < n) : (fftfreq n).get i ^ 2 = signedFreq n i ^ 2 := by
  unfold fftfreq signedFreq
  simp only
  by_cases h : 2 * i < n
  · rw [if_pos (by omega), if_pos h]
  · rw [if_neg (by omega), if_neg h]

private theorem radius_eq3 {a : Arr3 ℝ} {c : ℕ × ℕ × ℕ} (h : c ∈ allModes a) : modeRadius a c = modeR a c := by
  unfold allModes at h
  simp only [mem_product, mem_range] at h
  unfold modeRadius modeR
  rw [freq_sq' h.1, freq_sq' h.2.1, freq_sq' h.2.2]

private theorem bins_n {a : Arr3 ℝ} (h : 0 < maxSide a) : (freqBins3 a).n = (maxSide a - 1) / 2 := by
  unfold freqBins3 arange
  simp only
  generalize maxSide a = N at h
  have hN : (0 : ℝ) < N := by exact_mod_cast h
  have e : ((1 : ℝ) / 2 - 1 / N) / (1 / N) = N / 2 - 1 := by field_simp
  rw [e]
  have hc : ⌈(N : ℝ) / 2 - 1⌉ = (((N - 1) / 2 : ℕ) : ℤ) := by
    rw [Int.ceil_eq_iff]
    have h1 : N - 1 < 2 * ((N - 1) / 2) + 2 := by omega
    have h2 : 2 * ((N - 1) / 2) ≤ N - 1 := by omega
    have h3 : (N : ℝ) ≤ 2 * (((N - 1) / 2 : ℕ) : ℝ) + 2 := by
      have : N ≤ 2 * ((N - 1) / 2) + 2 := by omega
      exact_mod_cast this
    have h4 : 2 * (((N - 1) / 2 : ℕ) : ℝ) + 1 ≤ N := by
      have : 2 * ((N - 1) / 2) + 1 ≤ N := by omega
      exact_mod_cast this
    rw [Int.cast_natCast]
    constructor <;> linarith
  rw [hc]; rfl

private theorem bins_get (a : Arr3 ℝ) (k : ℕ) : (freqBins3 a).get k = ((k : ℝ) + 1) / maxSide a := by
  unfold freqBins3 arange
  simp only
  ring

private theorem digit {a : Arr3 ℝ} (h : 0 < maxSide a) (r : ℝ) (hr : 0 ≤ r) :
    digitize (freqBins3 a) r = min ((maxSide a - 1) / 2) ⌊r * maxSide a⌋₊ := by
  unfold digitize
  rw [bins_n h]
  have hN : (0 : ℝ) < maxSide a := by exact_mod_cast h
  have : (range ((maxSide a - 1) / 2)).filter (fun k => (freqBins3 a).get k ≤ r) = range (min ((maxSide a - 1) / 2) ⌊r * maxSide a⌋₊) := by
    ext k
    simp only [mem_filter, mem_range, lt_min_iff, bins_get]
    apply and_congr_right
    intro _
    rw [div_le_iff₀ hN, ← Nat.succ_le_iff, Nat.le_floor_iff (by positivity)]
    push_cast
    rfl
  rw [this, card_range]

private theorem ring_iff {a : Arr3 ℝ} (h : 0 < maxSide a) {c : ℕ × ℕ × ℕ} (hc : c ∈ allModes a) (k : ℕ) (hk : k < (maxSide a - 1) / 2) :
    whichBin3 a c = k + 1 ↔ InRing a (maxSide a) ((maxSide a - 1) / 2) k c := by
  have hN : (0 : ℝ) < maxSide a := by exact_mod_cast h
  have hr : 0 ≤ modeR a c := Real.sqrt_nonneg _
  unfold whichBin3 InRing
  rw [radius_eq3 hc, digit h _ hr]
  have hmem : c.1 < a.n ∧ c.2.1 < a.m ∧ c.2.2 < a.p := by
    unfold allModes at hc
    simpa only [mem_product, mem_range] using hc
  rw [div_le_iff₀ hN, lt_div_iff₀ hN]
  have e1 : (k : ℝ) + 1 ≤ modeR a c * maxSide a ↔ k + 1 ≤ ⌊modeR a c * maxSide a⌋₊ := by
    rw [Nat.le_floor_iff (by positivity)]; push_cast; rfl
  have e2 : modeR a c * maxSide a < (k : ℝ) + 2 ↔ ⌊modeR a c * maxSide a⌋₊ < k + 2 := by
    rw [Nat.floor_lt (by positivity)]; push_cast; rfl
  rw [e1, e2]
  constructor
  · intro h'
    refine ⟨hmem, hk, by omega, fun _ => by omega⟩
  · rintro ⟨_, _, h1, h2⟩
    by_cases h3 : k + 1 < (maxSide a - 1) / 2
    · have := h2 h3; omega
    · omega

/-- A mode along the longest axis at frequency `q/N`. -/
private theorem axis_mode {a : Arr3 ℝ} (h0 : 0 < a.n) (h1 : 0 < a.m) (h2 : 0 < a.p) (q : ℕ) (hq : 2 * q < maxSide a) :
    ∃ c ∈ allModes a, modeR a c = (q : ℝ) / maxSide a := by
  have hz : ∀ n, 0 < n → signedFreq n 0 = 0 := by intro n hn; unfold signedFreq; rw [if_pos (by omega)]; simp
  have hm : maxSide a = a.n ∨ maxSide a = a.m ∨ maxSide a = a.p := by unfold maxSide; omega
  have hs : ∀ x : ℝ, 0 ≤ x → Real.sqrt (x ^ 2) = x := fun x hx => Real.sqrt_sq hx
  rcases hm with e | e | e
  · refine ⟨(q, 0, 0), by unfold allModes; simp only [mem_product, mem_range]; omega, ?_⟩
    unfold modeR
    simp only
    rw [hz _ h1, hz _ h2, e]
    unfold signedFreq
    rw [if_pos (by omega)]
    norm_num
    exact hs _ (by positivity)
  · refine ⟨(0, q, 0), by unfold allModes; simp only [mem_product, mem_range]; omega, ?_⟩
    unfold modeR
    simp only
    rw [hz _ h0, hz _ h2, e]
    unfold signedFreq
    rw [if_pos (by omega)]
    norm_num
    exact hs _ (by positivity)
  · refine ⟨(0, 0, q), by unfold allModes; simp only [mem_product, mem_range]; omega, ?_⟩
    unfold modeR
    simp only
    rw [hz _ h0, hz _ h1, e]
    unfold signedFreq
    rw [if_pos (by omega)]
    norm_num
    exact hs _ (by positivity)

private theorem sup_eq {a : Arr3 ℝ} (h0 : 0 < a.n) (h1 : 0 < a.m) (h2 : 0 < a.p) :
    (allModes a).sup (whichBin3 a) = (maxSide a - 1) / 2 := by
  have hN : 0 < maxSide a := by unfold maxSide; omega
  apply le_antisymm
  · apply Finset.sup_le
    intro c hc
    unfold whichBin3
    rw [radius_eq3 hc, digit hN _ (show 0 ≤ modeR a c from Real.sqrt_nonneg _)]
    exact min_le_left _ _
  · obtain ⟨c, hc, hr⟩ := axis_mode h0 h1 h2 ((maxSide a - 1) / 2) (by omega)
    refine le_trans ?_ (Finset.le_sup hc)
    unfold whichBin3
    rw [radius_eq3 hc, hr, digit hN _ (by positivity)]
    have : (((maxSide a - 1) / 2 : ℕ) : ℝ) / maxSide a * maxSide a = (((maxSide a - 1) / 2 : ℕ) : ℝ) := by
      have : (maxSide a : ℝ) ≠ 0 := by exact_mod_cast hN.ne'
      field_simp
    rw [this, Nat.floor_natCast, min_self]

/-- As many values (and deviations) as frequency bins: `(N - 1) // 2`, the k-th starting at `(k+1)/N`. -/
theorem C55_lengths (a : Arr3 ℝ) (h0 : 0 < a.n) (h1 : 0 < a.m) (h2 : 0 < a.p) :
    ∃ fb ps sd, threeDPspec 3 a = .ok (fb, ps, sd) ∧
      fb.n = (max (max a.n a.m) a.p - 1) / 2 ∧ ps.n = fb.n ∧ sd.n = fb.n ∧
      ∀ k < fb.n, fb.get k = ((k : ℝ) + 1) / (max (max a.n a.m) a.p : ℕ) := by
  have hN : 0 < maxSide a := by unfold maxSide; omega
  unfold threeDPspec
  rw [if_neg (by simp), if_neg (by omega)]
  refine ⟨_, _, _, rfl, bins_n hN, ?_, ?_, ?_⟩
  · simp only; rw [sup_eq h0 h1 h2, bins_n hN]
  · simp only; rw [sup_eq h0 h1 h2, bins_n hN]
  · intro k _; exact bins_get a k

open Classical in
/-- Each value is the mean power of the modes of its ring and each deviation their standard deviation; no ring is
empty, so no value is NaN. -/
theorem C55_values (a : Arr3 ℝ) (h0 : 0 < a.n) (h1 : 0 < a.m) (h2 : 0 < a.p) :
    ∃ fb ps sd, threeDPspec 3 a = .ok (fb, ps, sd) ∧ ∀ k < fb.n,
      ∃ ring : Finset (ℕ × ℕ × ℕ), ring.Nonempty ∧
        (∀ c, c ∈ ring ↔ InRing a (max (max a.n a.m) a.p) fb.n k c) ∧
        ∃ mean, mean = (∑ c ∈ ring, modePower a c) / ring.card ∧ ps.get k = some mean ∧
          sd.get k = some (Real.sqrt ((∑ c ∈ ring, (modePower a c - mean) ^ 2) / ring.card)) := by
  have hN : 0 < maxSide a := by unfold maxSide; omega
  unfold threeDPspec
  rw [if_neg (by simp), if_neg (by omega)]
  refine ⟨_, _, _, rfl, ?_⟩
  intro k hk
  simp only at hk ⊢
  rw [bins_n hN] at hk ⊢
  have hmem : ∀ c, c ∈ (allModes a).filter (fun c => whichBin3 a c = k + 1) ↔
      InRing a (max (max a.n a.m) a.p) ((maxSide a - 1) / 2) k c := by
    intro c
    rw [mem_filter]
    constructor
    · rintro ⟨hc, h⟩; exact (ring_iff hN hc k hk).1 h
    · intro h
      have hc : c ∈ allModes a := by
        unfold allModes; simp only [mem_product, mem_range]; exact h.1
      exact ⟨hc, (ring_iff hN hc k hk).2 h⟩
  have hne : ((allModes a).filter (fun c => whichBin3 a c = k + 1)).Nonempty := by
    obtain ⟨c, hc, hr⟩ := axis_mode h0 h1 h2 (k + 1) (by omega)
    refine ⟨c, mem_filter.2 ⟨hc, ?_⟩⟩
    unfold whichBin3
    rw [radius_eq3 hc, hr, digit hN _ (by positivity)]
    have : (((k + 1 : ℕ) : ℝ)) / maxSide a * maxSide a = ((k + 1 : ℕ) : ℝ) := by
      have : (maxSide a : ℝ) ≠ 0 := by exact_mod_cast hN.ne'
      field_simp
    rw [this, Nat.floor_natCast]
    omega
  have hcard : ((allModes a).filter (fun c => whichBin3 a c = k + 1)).card ≠ 0 := (card_pos.2 hne).ne'
  have hmean : binMean3 a (k + 1) = some ((∑ c ∈ (allModes a).filter (fun c => whichBin3 a c = k + 1), modePower a c) /
      ((allModes a).filter (fun c => whichBin3 a c = k + 1)).card) := by
    unfold binMean3
    simp only
    rw [if_neg hcard]
    rfl
  refine ⟨_, hne, hmem, _, rfl, hmean, ?_⟩
  unfold binStd3
  simp only [hmean]
  rfl

/-- No mode enters two rings, and (three or more pixels on the longest side) only the zero-frequency mode enters none. -/
theorem C55_each_mode_once (a : Arr3 ℝ) (h0 : 0 < a.n) (h1 : 0 < a.m) (h2 : 0 < a.p) (c : ℕ × ℕ × ℕ) (B : ℕ) :
    (∀ k k', InRing a (max (max a.n a.m) a.p) B k c → InRing a (max (max a.n a.m) a.p) B k' c → k = k') ∧
    (3 ≤ max (max a.n a.m) a.p → B = (max (max a.n a.m) a.p - 1) / 2 → c.1 < a.n → c.2.1 < a.m → c.2.2 < a.p →
      ((∃ k, InRing a (max (max a.n a.m) a.p) B k c) ↔ c ≠ (0, 0, 0))) := by
  generalize hNN : max (max a.n a.m) a.p = N
  have hN : 0 < N := by omega
  have hNr : (0 : ℝ) < N := by exact_mod_cast hN
  constructor
  · have key : ∀ k k', k < k' → InRing a N B k c → InRing a N B k' c → False := by
      rintro k k' hlt ⟨_, hk, h3, h4⟩ ⟨_, hk', h3', _⟩
      have := h4 (by omega)
      have h5 : ((k : ℝ) + 2) / N ≤ ((k' : ℝ) + 1) / N := by
        apply div_le_div_of_nonneg_right _ hNr.le
        have : (k : ℝ) + 1 ≤ k' := by exact_mod_cast hlt
        linarith
      linarith
    intro k k' h h'
    rcases Nat.lt_trichotomy k k' with hl | he | hg
    · exact (key k k' hl h h').elim
    · exact he
    · exact (key k' k hg h' h).elim
  · intro h3 hB hc0 hc1 hc2
    have hzero : ∀ n, 0 < n → signedFreq n 0 = 0 := by intro n hn; unfold signedFreq; rw [if_pos (by omega)]; simp
    -- a non-zero index has frequency at least 1/N in modulus
    have hlow : ∀ n i, i < n → n ≤ N → i ≠ 0 → (1 / (N : ℝ)) ^ 2 ≤ signedFreq n i ^ 2 := by
      intro n i hi hnN hi0
      have hn : (0 : ℝ) < n := by exact_mod_cast (by omega : 0 < n)
      have hnN' : (n : ℝ) ≤ N := by exact_mod_cast hnN
      have h1n : 1 / (N : ℝ) ≤ 1 / n := one_div_le_one_div_of_le hn hnN'
      have habs : 1 / (n : ℝ) ≤ |signedFreq n i| := by
        unfold signedFreq
        split_ifs with h
        · rw [abs_of_nonneg (by positivity)]
          apply div_le_div_of_nonneg_right _ hn.le
          exact_mod_cast (by omega : 1 ≤ i)
        · have : ((i : ℝ) - n) / n = -(((n : ℝ) - i) / n) := by ring
          rw [this, abs_neg, abs_of_nonneg]
          · apply div_le_div_of_nonneg_right _ hn.le
            have : (i : ℝ) + 1 ≤ n := by exact_mod_cast hi
            linarith
          · apply div_nonneg _ hn.le
            have : (i : ℝ) + 1 ≤ n := by exact_mod_cast hi
            linarith
      rw [← sq_abs (signedFreq n i)]
      have : 0 ≤ 1 / (N : ℝ) := by positivity
      exact pow_le_pow_left₀ this (le_trans h1n habs) 2
    constructor
    · rintro ⟨k, _, _, hr, _⟩ rfl
      unfold modeR at hr
      simp only at hr
      rw [hzero _ h0, hzero _ h1, hzero _ h2] at hr
      norm_num at hr
      have : (0 : ℝ) < ((k : ℝ) + 1) / N := by positivity
      linarith
    · intro hne
      have hr1 : 1 / (N : ℝ) ≤ modeR a c := by
        unfold modeR
        apply Real.le_sqrt_of_sq_le
        have s0 := sq_nonneg (signedFreq a.n c.1)
        have s1 := sq_nonneg (signedFreq a.m c.2.1)
        have s2 := sq_nonneg (signedFreq a.p c.2.2)
        by_cases e0 : c.1 = 0
        · by_cases e1 : c.2.1 = 0
          · have e2 : c.2.2 ≠ 0 := by
              intro e2; exact hne (Prod.ext e0 (Prod.ext e1 e2))
            have := hlow a.p c.2.2 hc2 (by omega) e2
            linarith
          · have := hlow a.m c.2.1 hc1 (by omega) e1
            linarith
        · have := hlow a.n c.1 hc0 (by omega) e0
          linarith
      have hr0 : 0 ≤ modeR a c := Real.sqrt_nonneg _
      have hf1 : 1 ≤ ⌊modeR a c * N⌋₊ := by
        rw [Nat.le_floor_iff (by positivity)]
        rw [div_le_iff₀ hNr] at hr1
        push_cast; exact hr1
      have hB1 : 1 ≤ B := by omega
      have hfl := Nat.floor_le (show 0 ≤ modeR a c * N by positivity)
      have hfl2 := Nat.lt_floor_add_one (modeR a c * N)
      refine ⟨min B ⌊modeR a c * N⌋₊ - 1, ⟨hc0, hc1, hc2⟩, by omega, ?_, ?_⟩
      · rw [div_le_iff₀ hNr]
        have : ((min B ⌊modeR a c * N⌋₊ - 1 : ℕ) : ℝ) + 1 ≤ (⌊modeR a c * N⌋₊ : ℝ) := by
          have : min B ⌊modeR a c * N⌋₊ - 1 + 1 ≤ ⌊modeR a c * N⌋₊ := by omega
          exact_mod_cast this
        linarith
      · intro hlt
        rw [lt_div_iff₀ hNr]
        have : ((⌊modeR a c * N⌋₊ : ℕ) : ℝ) = ((min B ⌊modeR a c * N⌋₊ - 1 : ℕ) : ℝ) + 1 := by
          have : ⌊modeR a c * N⌋₊ = min B ⌊modeR a c * N⌋₊ - 1 + 1 := by omega
          exact_mod_cast this
        linarith

/-- Not vacuous: a 4×5×6 cube has two rings. -/
example : (max (max 4 5) 6 - 1) / 2 = 2 := by decide

end TS
