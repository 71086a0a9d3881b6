import Verif.Model.PcaFit
import Mathlib.Tactic.NormNum
import Mathlib.Tactic.FieldSimp
import Mathlib.Analysis.SpecialFunctions.Pow.Deriv

/-! C76: the sonic length. -/

namespace TS

namespace Spec

/-- First-order error of `g a b` for independent errors `da`, `db`. -/
noncomputable def firstOrder (g : ℝ → ℝ → ℝ) (a b da db : ℝ) : ℝ :=
  Real.sqrt ((deriv (fun t => g t b) a * da) ^ 2 + (deriv (fun t => g a t) b * db) ^ 2)

/-- The size at which the relation `v = v₀ l^α` reaches the speed `c`. -/
noncomputable def sizeAt (c α v0 : ℝ) : ℝ := (c / v0) ^ (1 / α)

end Spec

/-- `sizeAt` is the only positive size with that line width. -/
theorem sizeAt_iff {c α v0 l : ℝ} (hc : 0 < c) (hv : 0 < v0) (hα : α ≠ 0) (hl : 0 < l) :
    v0 * l ^ α = c ↔ l = Spec.sizeAt c α v0 := by
  unfold Spec.sizeAt
  constructor
  · intro h
    rw [← h, mul_div_cancel_left₀ _ hv.ne', ← Real.rpow_mul hl.le, mul_one_div_cancel hα, Real.rpow_one]
  · rintro rfl
    rw [← Real.rpow_mul (div_pos hc hv).le, one_div_mul_cancel hα, Real.rpow_one]
    field_simp

/-- **C76 (meaning).** The sonic length is the one size at which the fitted relation, with the index in
use, gives a line width equal to the sound speed. -/
theorem C76_meaning (g : Bool) (cs : ℝ) (f : PcaFit) (hc : 0 < cs) (hv : 0 < f.intercept)
    (hα : (sonicIndex g f).1 ≠ 0) :
    0 < sonicLength g cs f ∧ f.intercept * sonicLength g cs f ^ (sonicIndex g f).1 = cs ∧
    ∀ l, 0 < l → f.intercept * l ^ (sonicIndex g f).1 = cs → l = sonicLength g cs f := by
  have hp : 0 < sonicLength g cs f := Real.rpow_pos_of_pos (div_pos hc hv) _
  exact ⟨hp, (sizeAt_iff hc hv hα hp).2 rfl, fun l hl h => (sizeAt_iff hc hv hα hl).1 h⟩

/-- The sonic length does not depend on the channel width: `d` times smaller channels make sound speed
and intercept `d` times larger. -/
theorem C76_channels (g : Bool) (cs d : ℝ) (hd : 0 < d) (f f' : PcaFit) (hi : f'.index = f.index)
    (hr : f'.indexRange = f.indexRange) (hv : f'.intercept = d * f.intercept) :
    sonicLength g (d * cs) f' = sonicLength g cs f := by
  unfold sonicLength sonicIndex
  rw [hi, hr, hv, mul_div_mul_left _ _ hd.ne']

/-- **C76 (grid, uncorrected index).** With `use_gamma=False` the sonic length is a physical size: with
pixels `c` times smaller (same index, intercept changed accordingly, see C75) it is `c` times as many
pixels. Missing: `use_gamma=True`, the default (`C76_grid_violated`). -/
theorem C76_grid_partial (cs c : ℝ) (hc : 0 < c) (hcs : 0 < cs) (f f' : PcaFit) (hi : f'.index = f.index)
    (hr : f'.indexRange = f.indexRange) (h0 : f.index ≠ 0) (hpos : 0 < f.intercept)
    (hv : f'.intercept = f.intercept / c ^ f.index) :
    sonicLength false cs f' = c * sonicLength false cs f := by
  simp only [sonicLength, sonicIndex, Bool.false_eq_true, if_false, hi]
  have hcp : 0 < c ^ f.index := Real.rpow_pos_of_pos hc _
  have : cs / f'.intercept = c ^ f.index * (cs / f.intercept) := by
    rw [hv]; field_simp
  rw [this, Real.mul_rpow hcp.le (div_pos hcs hpos).le, ← Real.rpow_mul hc.le, mul_one_div_cancel h0, Real.rpow_one]

/-- **C76 (grid, violation).** With the default `use_gamma=True` it is not: the intercept belongs to the
uncorrected index, so the number of pixels grows with another power of `c`. -/
theorem C76_grid_violated (cs c : ℝ) (hc : 0 < c) (hc1 : c ≠ 1) (hcs : 0 < cs) (f f' : PcaFit)
    (hi : f'.index = f.index) (hr : f'.indexRange = f.indexRange) (hg : bruntCorrect f.index ≠ 0)
    (hne : bruntCorrect f.index ≠ f.index) (hpos : 0 < f.intercept)
    (hv : f'.intercept = f.intercept / c ^ f.index) :
    sonicLength true cs f' = c ^ (f.index / bruntCorrect f.index) * sonicLength true cs f ∧
    sonicLength true cs f' ≠ c * sonicLength true cs f := by
  have hcp : 0 < c ^ f.index := Real.rpow_pos_of_pos hc _
  have e : sonicLength true cs f' = c ^ (f.index / bruntCorrect f.index) * sonicLength true cs f := by
    simp only [sonicLength, sonicIndex, if_true, hi]
    have : cs / f'.intercept = c ^ f.index * (cs / f.intercept) := by
      rw [hv]; field_simp
    rw [this, Real.mul_rpow hcp.le (div_pos hcs hpos).le, ← Real.rpow_mul hc.le, mul_one_div]
  refine ⟨e, ?_⟩
  rw [e]
  have hl : sonicLength true cs f ≠ 0 := (Real.rpow_pos_of_pos (div_pos hcs hpos) _).ne'
  intro h
  have h1 : c ^ (f.index / bruntCorrect f.index) = c ^ (1 : ℝ) := by
    rw [Real.rpow_one]; exact mul_right_cancel₀ hl h
  have h2 := (Real.rpow_right_inj hc hc1).1 h1
  rw [div_eq_one_iff_eq hg] at h2
  exact hne h2.symm

private theorem deriv_size (c α v : ℝ) (hc : 0 < c) (hα : α ≠ 0) (hv : 0 < v) :
    deriv (fun t => Spec.sizeAt c t v) α = -(Spec.sizeAt c α v / α * (Real.log (c / v) / α)) ∧
    deriv (fun t => Spec.sizeAt c α t) v = -(Spec.sizeAt c α v / α * (1 / v)) := by
  have hq : 0 < c / v := div_pos hc hv
  constructor
  · have h1 : HasDerivAt (fun t : ℝ => 1 / t) (-(α ^ 2)⁻¹) α := by
      simpa [one_div] using hasDerivAt_inv hα
    have h2 := h1.const_rpow hq
    unfold Spec.sizeAt
    rw [h2.deriv]
    field_simp
  · have h1 : HasDerivAt (fun t : ℝ => c / t) (-c / v ^ 2) v := by
      have := (hasDerivAt_inv hv.ne').const_mul c
      simpa [div_eq_mul_inv] using this
    have h2 := h1.rpow_const (p := 1 / α) (Or.inl hq.ne')
    unfold Spec.sizeAt
    rw [h2.deriv, Real.rpow_sub_one hq.ne']
    field_simp

/-- The first-order error of the sonic length, written out. -/
theorem firstOrder_size (c α v da db : ℝ) (hc : 0 < c) (hα : α ≠ 0) (hv : 0 < v) :
    Spec.firstOrder (Spec.sizeAt c) α v da db =
      |Spec.sizeAt c α v / α| * Real.sqrt ((Real.log (c / v) * (da / α)) ^ 2 + (db / v) ^ 2) := by
  obtain ⟨h1, h2⟩ := deriv_size c α v hc hα hv
  unfold Spec.firstOrder
  rw [h1, h2, ← Real.sqrt_sq_eq_abs, ← Real.sqrt_mul (sq_nonneg _)]
  congr 1
  ring

/-- **C76 (error, violation).** The reported error is not the first-order error.  When only the index is
uncertain it is smaller by the factor `ln 10`; when only the intercept is uncertain it is off by the
factor `0.434 / intercept`, which depends on the channel width. -/
theorem C76_error_violated (g : Bool) (cs : ℝ) (f : PcaFit) (hcs : 0 < cs) (hv : 0 < f.intercept)
    (hα : 0 < (sonicIndex g f).1) :
    (f.interceptRange.1 = f.intercept →
      Real.log 10 * sonicError g cs f =
        Spec.firstOrder (Spec.sizeAt cs) (sonicIndex g f).1 f.intercept
          ((sonicIndex g f).1 - (sonicIndex g f).2.1) (f.intercept - f.interceptRange.1)) ∧
    ((sonicIndex g f).2.1 = (sonicIndex g f).1 →
      sonicError g cs f = 0.434 / f.intercept *
        Spec.firstOrder (Spec.sizeAt cs) (sonicIndex g f).1 f.intercept
          ((sonicIndex g f).1 - (sonicIndex g f).2.1) (f.intercept - f.interceptRange.1)) := by
  have hl : 0 < sonicLength g cs f := Real.rpow_pos_of_pos (div_pos hcs hv) _
  have hs : Spec.sizeAt cs (sonicIndex g f).1 f.intercept = sonicLength g cs f := rfl
  have hq : 0 ≤ sonicLength g cs f / (sonicIndex g f).1 := (div_pos hl hα).le
  rw [firstOrder_size _ _ _ _ _ hcs hα.ne' hv, hs, abs_of_nonneg hq]
  unfold sonicError
  simp only
  set α := (sonicIndex g f).1
  set L := sonicLength g cs f
  have h10 : 0 < Real.log 10 := Real.log_pos (by norm_num)
  constructor
  · intro h
    rw [h]
    simp only [sub_self, abs_zero, mul_zero, zero_div, ne_eq, OfNat.ofNat_ne_zero, not_false_eq_true, zero_pow,
      add_zero]
    rw [Real.sqrt_sq_eq_abs, Real.sqrt_sq_eq_abs, abs_mul, abs_mul, abs_div, abs_div, abs_abs]
    have : log10 (cs / f.intercept) = Real.log (cs / f.intercept) / Real.log 10 := rfl
    rw [this, abs_div, abs_of_pos h10]
    field_simp
  · intro h
    rw [h]
    simp only [sub_self, abs_zero, mul_zero, zero_div, ne_eq, OfNat.ofNat_ne_zero, not_false_eq_true, zero_pow,
      zero_add]
    rw [Real.sqrt_sq_eq_abs, Real.sqrt_sq_eq_abs, abs_div, abs_div, abs_div, abs_mul, abs_abs, abs_of_pos hv,
      abs_of_pos (show (0 : ℝ) < 0.434 by norm_num)]
    field_simp

private theorem sorted_replicate (n : ℕ) (x : ℝ) :
    (List.replicate n x).insertionSort (· ≤ ·) = List.replicate n x :=
  List.Pairwise.insertionSort_eq (List.pairwise_replicate.2 (Or.inr le_rfl))

private theorem percentile_replicate (n : ℕ) (hn : 0 < n) (x q : ℝ) (h0 : 0 ≤ q) (h1 : q ≤ 100) :
    npPercentile (List.replicate n x) q = x := by
  unfold npPercentile
  simp only [sorted_replicate, List.length_replicate]
  have hk : ⌊q / 100 * ((n : ℝ) - 1)⌋₊ < n := by
    have hn1 : (0 : ℝ) ≤ (n : ℝ) - 1 := by
      have : (1 : ℝ) ≤ n := by exact_mod_cast hn
      linarith
    have : q / 100 * ((n : ℝ) - 1) < n := by
      have h2 : q / 100 ≤ 1 := by rw [div_le_one (by norm_num)]; exact h1
      nlinarith
    exact (Nat.floor_lt (mul_nonneg (by positivity) hn1)).2 this
  have g1 : (List.replicate n x).getD ⌊q / 100 * ((n : ℝ) - 1)⌋₊ 0 = x := by
    simp [List.getD_eq_getElem?_getD, List.getElem?_replicate, hk]
  have g2 : (List.replicate n x).getD (min (⌊q / 100 * ((n : ℝ) - 1)⌋₊ + 1) (n - 1)) 0 = x := by
    have : min (⌊q / 100 * ((n : ℝ) - 1)⌋₊ + 1) (n - 1) < n := by omega
    simp [List.getD_eq_getElem?_getD, List.getElem?_replicate, this]
  rw [g1, g2]; ring

/-- **C76 (MCMC range, violation).** The range after MCMC ignores the sampled indices: samples that agree
on the intercept give a range of width 0, however much their indices (and so their sonic lengths) differ. -/
theorem C76_bayes_violated (g : Bool) (cs : ℝ) (f : PcaFit) (samps : List (ℝ × ℝ)) (b : ℝ)
    (hne : samps ≠ []) (hb : ∀ s ∈ samps, s.2 = b) :
    (sonicRangeBayes g cs f samps).1 = (sonicRangeBayes g cs f samps).2 := by
  unfold sonicRangeBayes
  simp only
  have : samps.map (fun s => (cs / (10 : ℝ) ^ s.2) ^ (1 / (sonicIndex g f).1)) =
      List.replicate samps.length ((cs / (10 : ℝ) ^ b) ^ (1 / (sonicIndex g f).1)) := by
    rw [List.eq_replicate_iff]
    refine ⟨by simp, fun x hx => ?_⟩
    obtain ⟨s, hs, rfl⟩ := List.mem_map.1 hx
    rw [hb s hs]
  have hn : 0 < samps.length := List.length_pos_iff.2 hne
  rw [this, percentile_replicate _ hn _ 15 (by norm_num) (by norm_num),
    percentile_replicate _ hn _ 85 (by norm_num) (by norm_num)]

/-- Non-vacuity: index 1/2, intercept 1, sound speed 2: the sonic length is 4 pixels without correction. -/
example : sonicLength false 2 ⟨1 / 2, (1 / 2, 1 / 2), 1, (1, 1)⟩ = 4 ∧
    (sonicIndex true ⟨1 / 2, (1 / 2, 1 / 2), 1, (1, 1)⟩).1 = 0.57 ∧
    bruntCorrect (1 / 2) ≠ 0 ∧ bruntCorrect (1 / 2) ≠ 1 / 2 := by
  refine ⟨?_, ?_, ?_, ?_⟩
  · simp only [sonicLength, sonicIndex, Bool.false_eq_true, if_false]
    norm_num
  all_goals norm_num [sonicIndex, bruntCorrect]

/-- **C76 (sound speed).** The line width at the sonic length, turned back into a velocity with the channel width, is the
isothermal sound speed `sqrt(k_B T / (mu m_p))`. -/
theorem C76_sound_speed (g : Bool) (kB T mu mp chan : ℝ) (hk : 0 < kB) (hT : 0 < T) (hmu : 0 < mu) (hmp : 0 < mp)
    (hch : 0 < chan) (f : PcaFit) (hv : 0 < f.intercept) (hα : (sonicIndex g f).1 ≠ 0) :
    chan * (f.intercept * sonicLength g (soundSpeed kB T mu mp chan) f ^ (sonicIndex g f).1) =
      Real.sqrt (kB * T / (mu * mp)) := by
  have hc : 0 < soundSpeed kB T mu mp chan := by
    unfold soundSpeed
    positivity
  rw [(C76_meaning g _ f hc hv hα).2.1]
  unfold soundSpeed
  field_simp

end TS
