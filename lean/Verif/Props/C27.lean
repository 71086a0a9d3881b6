import Verif.Model.Scf
import Verif.Lemmas.Minkowski

/-! C27 — the SCF distance is a metric on surfaces. -/

namespace TS
open Finset

namespace Spec
/-- A `size × size` surface without missing values. -/
def FullSurface (size : ℕ) (s : Arr2 (Option ℝ)) : Prop :=
  s.n = size ∧ s.m = size ∧ ∀ j < size, ∀ i < size, ∃ v, s.get j i = some v

/-- The weight of a lag: one, or one over its distance from the central lag (one at the centre itself). -/
noncomputable def lagWeight (weighted : Bool) (size j i : ℕ) : ℝ :=
  if weighted = true ∧ ¬ (i = size / 2 ∧ j = size / 2) then
    (Real.sqrt (((i : ℝ) - (size / 2 : ℕ)) ^ 2 + ((j : ℝ) - (size / 2 : ℕ)) ^ 2))⁻¹ else 1
end Spec

theorem scfWeight_pos (weighted : Bool) (size j i : ℕ) : 0 < scfWeight weighted size j i := by
  unfold scfWeight
  simp only
  split_ifs with h1 h2
  · norm_num
  · have : (0 : ℝ) < (((i : ℤ) - (size / 2 : ℕ) : ℤ) : ℝ) ^ 2 + (((j : ℤ) - (size / 2 : ℕ) : ℤ) : ℝ) ^ 2 := by
      by_cases ha : (i : ℤ) - (size / 2 : ℕ) = 0
      · have hb : (j : ℤ) - (size / 2 : ℕ) ≠ 0 := fun h => h2 ⟨ha, h⟩
        have : (((j : ℤ) - (size / 2 : ℕ) : ℤ) : ℝ) ≠ 0 := by exact_mod_cast hb
        positivity
      · have : (((i : ℤ) - (size / 2 : ℕ) : ℤ) : ℝ) ≠ 0 := by exact_mod_cast ha
        positivity
    exact div_pos one_pos (Real.sqrt_pos.2 this)
  · norm_num

/-- Sum of the weights. -/
private noncomputable def wsum (weighted : Bool) (size : ℕ) : ℝ :=
  ∑ x ∈ range size ×ˢ range size, scfWeight weighted size x.1 x.2

private theorem wsum_pos (weighted : Bool) {size : ℕ} (h : 0 < size) : 0 < wsum weighted size := by
  apply sum_pos (fun x _ => scfWeight_pos _ _ _ _)
  exact ⟨(0, 0), by simp [h]⟩

private noncomputable def val (s : Arr2 (Option ℝ)) (x : ℕ × ℕ) : ℝ := (s.get x.1 x.2).getD 0

private theorem dist_eq (weighted : Bool) {size : ℕ} (h : 0 < size) {s1 s2 : Arr2 (Option ℝ)}
    (h1 : Spec.FullSurface size s1) (h2 : Spec.FullSurface size s2) :
    scfDistance weighted size s1 s2 = .ok (some (Real.sqrt
      (∑ x ∈ range size ×ˢ range size, (val s1 x - val s2 x) ^ 2 * scfWeight weighted size x.1 x.2) /
        Real.sqrt (wsum weighted size))) := by
  unfold scfDistance
  rw [if_pos ⟨h1.1, h1.2.1, h2.1, h2.2.1⟩, if_neg, if_neg (by omega)]
  · rw [← Real.sqrt_div (sum_nonneg (fun x _ => mul_nonneg (sq_nonneg _) (scfWeight_pos _ _ _ _).le))]
    unfold wsum
    rw [sum_product, sum_product]
    rfl
  · rintro ⟨j, hj, i, hi, hn | hn⟩
    · obtain ⟨v, hv⟩ := h1.2.2 j hj i hi
      rw [hv] at hn; cases hn
    · obtain ⟨v, hv⟩ := h2.2.2 j hj i hi
      rw [hv] at hn; cases hn

/-- For surfaces without missing values the distance is defined, non-negative, symmetric, zero exactly
on equal surfaces, and satisfies the triangle inequality. -/
theorem C27_metric (weighted : Bool) (size : ℕ) (hsize : 0 < size) (s1 s2 s3 : Arr2 (Option ℝ))
    (h1 : Spec.FullSurface size s1) (h2 : Spec.FullSurface size s2) (h3 : Spec.FullSurface size s3) :
    ∃ d12 d21 d13 d23, scfDistance weighted size s1 s2 = .ok (some d12) ∧
      scfDistance weighted size s2 s1 = .ok (some d21) ∧
      scfDistance weighted size s1 s3 = .ok (some d13) ∧
      scfDistance weighted size s2 s3 = .ok (some d23) ∧
      0 ≤ d12 ∧ d12 = d21 ∧ (d12 = 0 ↔ s1.Same s2) ∧ d13 ≤ d12 + d23 := by
  refine ⟨_, _, _, _, dist_eq weighted hsize h1 h2, dist_eq weighted hsize h2 h1,
    dist_eq weighted hsize h1 h3, dist_eq weighted hsize h2 h3, ?_, ?_, ?_, ?_⟩
  · positivity
  · congr 2
    apply sum_congr rfl; intro x _
    ring
  · have hW : Real.sqrt (wsum weighted size) ≠ 0 := ne_of_gt (Real.sqrt_pos.2 (wsum_pos weighted hsize))
    have hnn : ∀ x ∈ range size ×ˢ range size,
        0 ≤ (val s1 x - val s2 x) ^ 2 * scfWeight weighted size x.1 x.2 :=
      fun x _ => mul_nonneg (sq_nonneg _) (scfWeight_pos _ _ _ _).le
    rw [div_eq_zero_iff, or_iff_left hW, Real.sqrt_eq_zero (sum_nonneg hnn), sum_eq_zero_iff_of_nonneg hnn]
    constructor
    · intro h
      refine ⟨h1.1.trans h2.1.symm, h1.2.1.trans h2.2.1.symm, ?_⟩
      intro j hj i hi
      rw [h1.1] at hj
      rw [h1.2.1] at hi
      have := h (j, i) (by simp [hj, hi])
      obtain ⟨u, hu⟩ := h1.2.2 j hj i hi
      obtain ⟨v, hv⟩ := h2.2.2 j hj i hi
      rcases mul_eq_zero.1 this with h0 | h0
      · have : val s1 (j, i) - val s2 (j, i) = 0 := by simpa using h0
        simp only [val, hu, hv, Option.getD_some] at this
        rw [hu, hv, sub_eq_zero.1 this]
      · exact absurd h0 (ne_of_gt (scfWeight_pos _ _ _ _))
    · rintro ⟨_, _, h⟩ ⟨j, i⟩ hx
      simp only [mem_product, mem_range] at hx
      have := h j (by rw [h1.1]; exact hx.1) i (by rw [h1.2.1]; exact hx.2)
      simp only [val, this]
      ring
  · rw [← add_div]
    apply div_le_div_of_nonneg_right _ (Real.sqrt_nonneg _)
    exact minkowski_weighted _ _ _ _ _ (fun x _ => (scfWeight_pos _ _ _ _).le)

/-- The weights: one over the distance from the centre (one at the centre itself), or equal weights. -/
theorem C27_weights (size : ℕ) (j i : ℕ) :
    scfWeight false size j i = 1 ∧
    (i = size / 2 ∧ j = size / 2 → scfWeight true size j i = 1) ∧
    (¬ (i = size / 2 ∧ j = size / 2) → scfWeight true size j i *
      Real.sqrt (((i : ℝ) - (size / 2 : ℕ)) ^ 2 + ((j : ℝ) - (size / 2 : ℕ)) ^ 2) = 1) := by
  refine ⟨rfl, ?_, ?_⟩
  · rintro ⟨rfl, rfl⟩
    simp [scfWeight]
  · intro h
    have hne : ¬ ((i : ℤ) - (size / 2 : ℕ) = 0 ∧ (j : ℤ) - (size / 2 : ℕ) = 0) := by
      intro h'; apply h; omega
    have hp := scfWeight_pos true size j i
    unfold scfWeight at hp ⊢
    simp only [if_true] at hp ⊢
    rw [if_neg hne] at hp ⊢
    simp only [Int.cast_sub, Int.cast_natCast] at hp ⊢
    rw [one_div, inv_mul_cancel₀]
    intro h0
    rw [h0] at hp
    simp at hp

theorem scfWeight_lag (weighted : Bool) (size : ℕ) (j i : ℕ) : scfWeight weighted size j i = Spec.lagWeight weighted size j i := by
  obtain ⟨w1, w2, w3⟩ := C27_weights size j i
  unfold Spec.lagWeight
  cases weighted with
  | false => simpa using w1
  | true =>
    by_cases hc : i = size / 2 ∧ j = size / 2
    · rw [if_neg (by simp [hc])]; exact w2 hc
    · rw [if_pos ⟨rfl, hc⟩]; exact eq_inv_of_mul_eq_one_left (w3 hc)

/-- The distance is the root of the weighted mean square difference of the two surfaces. -/
theorem C27_value (weighted : Bool) (size : ℕ) (hsize : 0 < size) (s1 s2 : Arr2 (Option ℝ)) (u v : ℕ → ℕ → ℝ) (hn : s1.n = size ∧ s1.m = size)
    (hn' : s2.n = size ∧ s2.m = size) (h1 : ∀ j < size, ∀ i < size, s1.get j i = some (u j i)) (h2 : ∀ j < size, ∀ i < size, s2.get j i = some (v j i)) :
    ∃ d, scfDistance weighted size s1 s2 = .ok (some d) ∧ 0 ≤ d ∧
      d ^ 2 * ∑ j ∈ range size, ∑ i ∈ range size, Spec.lagWeight weighted size j i =
        ∑ j ∈ range size, ∑ i ∈ range size, Spec.lagWeight weighted size j i * (u j i - v j i) ^ 2 := by
  have hw := scfWeight_lag weighted size
  have f1 : Spec.FullSurface size s1 := ⟨hn.1, hn.2, fun j hj i hi => ⟨_, h1 j hj i hi⟩⟩
  have f2 : Spec.FullSurface size s2 := ⟨hn'.1, hn'.2, fun j hj i hi => ⟨_, h2 j hj i hi⟩⟩
  refine ⟨_, dist_eq weighted hsize f1 f2, by positivity, ?_⟩
  have hW := wsum_pos weighted hsize
  rw [div_pow, Real.sq_sqrt (sum_nonneg (fun x _ => mul_nonneg (sq_nonneg _) (scfWeight_pos _ _ _ _).le)), Real.sq_sqrt hW.le]
  have e : ∑ j ∈ range size, ∑ i ∈ range size, Spec.lagWeight weighted size j i = wsum weighted size := by
    unfold wsum
    rw [sum_product]
    simp only [hw]
  rw [e, div_mul_cancel₀ _ hW.ne', sum_product]
  apply sum_congr rfl
  intro j hj
  apply sum_congr rfl
  intro i hi
  rw [hw]
  simp only [val, h1 j (mem_range.1 hj) i (mem_range.1 hi), h2 j (mem_range.1 hj) i (mem_range.1 hi), Option.getD_some]
  ring

/-- Two 3×3 surfaces, one constant 1 and one constant 3: the hypotheses of `C27_value` hold and the two differ. -/
example : ∃ d, scfDistance true 3 ⟨3, 3, fun _ _ => some 1⟩ ⟨3, 3, fun _ _ => some 3⟩ = .ok (some d) ∧ 0 ≤ d ∧
    d ^ 2 * ∑ j ∈ range 3, ∑ i ∈ range 3, Spec.lagWeight true 3 j i =
      ∑ j ∈ range 3, ∑ i ∈ range 3, Spec.lagWeight true 3 j i * ((1 : ℝ) - 3) ^ 2 :=
  C27_value true 3 (by norm_num) _ _ (fun _ _ => 1) (fun _ _ => 3) ⟨rfl, rfl⟩ ⟨rfl, rfl⟩ (fun _ _ _ _ => rfl) (fun _ _ _ _ => rfl)

/-- A missing value in either surface makes the distance NaN; surfaces of another size raise. -/
theorem C27_missing (weighted : Bool) (size : ℕ) (s1 s2 : Arr2 (Option ℝ)) :
    ((s1.n = size ∧ s1.m = size ∧ s2.n = size ∧ s2.m = size) →
      (∃ j < size, ∃ i < size, s1.get j i = none ∨ s2.get j i = none) →
      scfDistance weighted size s1 s2 = .ok none) ∧
    (¬ (s1.n = size ∧ s1.m = size ∧ s2.n = size ∧ s2.m = size) →
      scfDistance weighted size s1 s2 = .error .valueError) := by
  constructor
  · intro h h'
    unfold scfDistance
    rw [if_pos h, if_pos h']
  · intro h
    unfold scfDistance
    rw [if_neg h]

example : Spec.FullSurface 3 ⟨3, 3, fun j i => some ((j : ℝ) - i)⟩ :=
  ⟨rfl, rfl, fun _ _ _ _ => ⟨_, rfl⟩⟩

end TS
