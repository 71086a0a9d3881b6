import Verif.Model.Bispec
import Verif.Lemmas.L2
import Mathlib.Tactic.Linarith

/-! C67 — Bispectrum distance laws. -/

namespace TS
open Finset

namespace Spec

/-- A bicoherence surface without NaN. -/
def surfOf (n m : ℕ) (f : ℕ → ℕ → ℝ) : Arr2 (Option ℝ) := ⟨n, m, fun i j => some (f i j)⟩

/-- Frobenius distance of two n×m surfaces. -/
noncomputable def frob (n m : ℕ) (f g : ℕ → ℕ → ℝ) : ℝ :=
  Real.sqrt (∑ i ∈ range n, ∑ j ∈ range m, (f i j - g i j) ^ 2)

/-- Mean of a surface. -/
noncomputable def meanOf (n m : ℕ) (f : ℕ → ℕ → ℝ) : ℝ := (∑ i ∈ range n, ∑ j ∈ range m, f i j) / (n * m : ℝ)

end Spec
open Spec

private theorem sumO_some (n m : ℕ) (f : ℕ → ℕ → ℝ) : (surfOf n m f).sumO = some (∑ i ∈ range n, ∑ j ∈ range m, f i j) := by
  unfold Arr2.sumO surfOf
  simp

private theorem meanO_some (n m : ℕ) (hn : 0 < n) (hm : 0 < m) (f : ℕ → ℕ → ℝ) : (surfOf n m f).meanO = some (meanOf n m f) := by
  unfold Arr2.meanO
  rw [sumO_some]
  have : ((n * m : ℕ) : ℝ) ≠ 0 := by
    have : 0 < n * m := Nat.mul_pos hn hm
    exact_mod_cast this.ne'
  have h2 : (((surfOf n m f).n * (surfOf n m f).m : ℕ) : ℝ) = ((n * m : ℕ) : ℝ) := rfl
  simp only [divO, bind, Option.bind, h2]
  rw [if_neg this]
  unfold meanOf; push_cast; rfl

/-- Two complete surfaces of equal shape: Frobenius distance and difference of means. -/
theorem C67_value (n m : ℕ) (hn : 0 < n) (hm : 0 < m) (f g : ℕ → ℕ → ℝ) :
    bispecDistance (surfOf n m f) (surfOf n m g) = ⟨some (frob n m f g), some |meanOf n m f - meanOf n m g|⟩ := by
  unfold bispecDistance
  rw [meanO_some n m hn hm, meanO_some n m hn hm]
  have : (⟨(surfOf n m f).n, (surfOf n m f).m, fun i j =>
      (subO ((surfOf n m f).get i j) ((surfOf n m g).get i j)).map (fun x => x ^ 2)⟩ : Arr2 (Option ℝ)) =
      surfOf n m (fun i j => (f i j - g i j) ^ 2) := rfl
  rw [this, sumO_some, if_pos ⟨rfl, rfl⟩]
  rfl

/-- Surfaces of different shapes: no surface distance, but still a mean distance. -/
theorem C67_shapes (n m n' m' : ℕ) (hn : 0 < n) (hm : 0 < m) (hn' : 0 < n') (hm' : 0 < m') (f g : ℕ → ℕ → ℝ)
    (h : ¬ (n = n' ∧ m = m')) :
    bispecDistance (surfOf n m f) (surfOf n' m' g) = ⟨none, some |meanOf n m f - meanOf n' m' g|⟩ := by
  unfold bispecDistance
  rw [meanO_some n m hn hm, meanO_some n' m' hn' hm']
  have : ¬ ((surfOf n m f).n = (surfOf n' m' g).n ∧ (surfOf n m f).m = (surfOf n' m' g).m) := h
  rw [if_neg this]
  rfl

/-- Symmetric for all surfaces, with or without NaN and of any shapes. -/
theorem C67_symm (a b : Arr2 (Option ℝ)) : bispecDistance a b = bispecDistance b a := by
  have hsub : ∀ x y : Option ℝ, (subO x y).map (fun x => x ^ 2) = (subO y x).map (fun x => x ^ 2) := by
    intro x y
    cases x <;> cases y <;> simp [subO]
    ring
  have habs : ∀ x y : Option ℝ, (subO x y).map (fun x => |x|) = (subO y x).map (fun x => |x|) := by
    intro x y
    cases x <;> cases y <;> simp [subO]
    exact abs_sub_comm _ _
  unfold bispecDistance
  rw [habs]
  congr 1
  by_cases h : a.n = b.n ∧ a.m = b.m
  · rw [if_pos h, if_pos ⟨h.1.symm, h.2.symm⟩, h.1, h.2]
    congr 3
    funext i j
    exact hsub _ _
  · rw [if_neg h, if_neg (fun h' => h ⟨h'.1.symm, h'.2.symm⟩)]

private theorem frob_flat (n m : ℕ) (f g : ℕ → ℕ → ℝ) :
    frob n m f g = l2 (n * m) (fun k => f (k / m) (k % m) - g (k / m) (k % m)) := by
  unfold frob l2
  congr 1
  rcases Nat.eq_zero_or_pos m with rfl | hm
  · simp
  · rw [← Finset.sum_product']
    symm
    apply sum_bij' (fun k _ => (k / m, k % m)) (fun p _ => p.1 * m + p.2)
    · intro k hk
      rw [mem_range] at hk
      rw [mem_product, mem_range, mem_range]
      exact ⟨Nat.div_lt_of_lt_mul (by rwa [mul_comm]), Nat.mod_lt _ hm⟩
    · intro p hp
      rw [mem_product, mem_range, mem_range] at hp
      rw [mem_range]
      nlinarith [hp.1, hp.2]
    · intro k _
      exact Nat.div_add_mod' k m
    · intro p hp
      rw [mem_product, mem_range, mem_range] at hp
      have h1 : (p.1 * m + p.2) / m = p.1 := by
        rw [mul_comm, Nat.mul_add_div hm, Nat.div_eq_of_lt hp.2, add_zero]
      have h2 : (p.1 * m + p.2) % m = p.2 := by
        rw [mul_comm, Nat.mul_add_mod, Nat.mod_eq_of_lt hp.2]
      simp only [h1, h2]
    · intro k _; rfl

/-- On complete surfaces the surface distance is a metric. -/
theorem C67_metric (n m : ℕ) (f g h : ℕ → ℕ → ℝ) :
    0 ≤ frob n m f g ∧ (frob n m f g = 0 ↔ ∀ i < n, ∀ j < m, f i j = g i j) ∧
      frob n m f h ≤ frob n m f g + frob n m g h := by
  refine ⟨Real.sqrt_nonneg _, ?_, ?_⟩
  · unfold frob
    rw [Real.sqrt_eq_zero (sum_nonneg fun i _ => sum_nonneg fun j _ => sq_nonneg _),
      sum_eq_zero_iff_of_nonneg (fun i _ => sum_nonneg fun j _ => sq_nonneg _)]
    constructor
    · intro hh i hi j hj
      have := hh i (mem_range.2 hi)
      rw [sum_eq_zero_iff_of_nonneg (fun j _ => sq_nonneg _)] at this
      have := this j (mem_range.2 hj)
      have := pow_eq_zero_iff (two_ne_zero) |>.1 this
      linarith
    · intro hh i hi
      apply sum_eq_zero
      intro j hj
      rw [hh i (mem_range.1 hi) j (mem_range.1 hj), sub_self]; norm_num
  · rw [frob_flat, frob_flat, frob_flat]
    exact l2_sub_triangle _ _ _ _

/-- One NaN bin in either surface makes the surface distance NaN (e.g. a bin whose samples all vanish). -/
theorem C67_nan_spreads (a b : Arr2 (Option ℝ)) (i j : ℕ) (hi : i < a.n) (hj : j < a.m) (h : a.get i j = none) :
    (bispecDistance a b).surface = none ∧ (bispecDistance a b).mean = none := by
  have hm : a.meanO = none := by
    unfold Arr2.meanO Arr2.sumO
    rw [if_neg (fun hh => hh i (mem_range.2 hi) j (mem_range.2 hj) h)]
    rfl
  constructor
  · unfold bispecDistance
    simp only
    split_ifs
    · unfold Arr2.sumO
      rw [if_neg]
      · rfl
      · intro hh
        apply hh i (mem_range.2 hi) j (mem_range.2 hj)
        simp [h, subO]
    · rfl
  · unfold bispecDistance
    simp only [hm]
    rfl

example : bispecDistance (surfOf 1 2 (fun _ j => (j : ℝ))) (surfOf 1 2 (fun _ _ => 0)) = ⟨some 1, some (1 / 2)⟩ := by
  rw [C67_value 1 2 one_pos two_pos]
  simp [frob, meanOf, sum_range_succ]

end TS
