import Verif.Model.StatsUtils

/-! C24 — the multivariate ECDF of dendrogram histograms. -/

namespace TS
open Finset

theorem rowSum_some (f : ℕ → ℝ) (n : ℕ) :
    rowSum (fun k => some (f k)) n = some (∑ k ∈ range n, f k) := by
  unfold rowSum
  induction n with
  | zero => simp
  | succ n ih =>
    rw [List.range_succ, List.foldl_append, ih, sum_range_succ]
    rfl

theorem rowSum_congr {f g : ℕ → Option ℝ} {n : ℕ} (h : ∀ k < n, f k = g k) :
    rowSum f n = rowSum g n := by
  unfold rowSum
  induction n with
  | zero => rfl
  | succ n ih =>
    rw [List.range_succ, List.foldl_append, List.foldl_append, ih (fun k hk => h k (by omega))]
    simp only [List.foldl_cons, List.foldl_nil]
    rw [h n (by omega)]

private theorem mecdf_row (a : Arr2 (Option ℝ)) (i : ℕ) (r : ℕ → ℝ) (hr : ∀ j < a.m, a.get i j = some (r j))
    (hpos : 0 < ∑ k ∈ range a.m, r k) {j : ℕ} (hj : j < a.m) :
    (mecdf a).get i j = some ((∑ k ∈ range (j + 1), r k) / ∑ k ∈ range a.m, r k) := by
  show rowSum (fun k => divO (a.get i k) (rowSum (a.get i) a.m)) (j + 1) = _
  have h1 : rowSum (a.get i) a.m = some (∑ k ∈ range a.m, r k) := by
    rw [rowSum_congr (g := fun k => some (r k)) hr, rowSum_some]
  rw [h1]
  rw [rowSum_congr (g := fun k => some (r k / ∑ k ∈ range a.m, r k)), rowSum_some, sum_div]
  intro k hk
  rw [hr k (by omega)]
  show (if (∑ k ∈ range a.m, r k) = 0 then none else some _) = _
  rw [if_neg hpos.ne']

namespace Spec
/-- Row `i` of the table holds the non-negative numbers `r`, not all zero. -/
def CountRow (a : Arr2 (Option ℝ)) (i : ℕ) (r : ℕ → ℝ) : Prop :=
  (∀ j < a.m, a.get i j = some (r j)) ∧ (∀ j < a.m, 0 ≤ r j) ∧ ∃ j < a.m, 0 < r j
end Spec

private theorem pos_sum {a : Arr2 (Option ℝ)} {i : ℕ} {r : ℕ → ℝ} (h : Spec.CountRow a i r) :
    0 < ∑ k ∈ range a.m, r k := by
  obtain ⟨_, h0, j, hj, hp⟩ := h
  exact sum_pos' (fun k hk => h0 k (mem_range.1 hk)) ⟨j, mem_range.2 hj, hp⟩

/-- Each row of counts becomes a cumulative distribution: values in [0, 1], non-decreasing, ending
at 1, the steps being the fractions of the row total. -/
theorem C24_cumulative (a : Arr2 (Option ℝ)) (i : ℕ) (r : ℕ → ℝ) (h : Spec.CountRow a i r) :
    ∃ c : ℕ → ℝ, (∀ j < a.m, (mecdf a).get i j = some (c j)) ∧
      (∀ j < a.m, 0 ≤ c j ∧ c j ≤ 1) ∧ (∀ j k, j ≤ k → k < a.m → c j ≤ c k) ∧
      c (a.m - 1) = 1 ∧ c 0 * ∑ k ∈ range a.m, r k = r 0 ∧
      ∀ j, j + 1 < a.m → (c (j + 1) - c j) * ∑ k ∈ range a.m, r k = r (j + 1) := by
  have hp := pos_sum h
  obtain ⟨hr, h0, jj, hjj, _⟩ := h
  have mono : ∀ j k, j ≤ k → k < a.m → ∑ t ∈ range (j + 1), r t ≤ ∑ t ∈ range (k + 1), r t := by
    intro j k hjk hk
    apply sum_le_sum_of_subset_of_nonneg
    · intro t ht; rw [mem_range] at ht ⊢; omega
    · intro t ht _; rw [mem_range] at ht; exact h0 t (by omega)
  have last : a.m - 1 + 1 = a.m := by omega
  refine ⟨fun j => (∑ t ∈ range (j + 1), r t) / ∑ t ∈ range a.m, r t,
    fun j hj => mecdf_row a i r hr hp hj, ?_, ?_, ?_, ?_, ?_⟩
  · intro j hj
    refine ⟨div_nonneg (sum_nonneg (fun t ht => ?_)) hp.le, (div_le_one hp).2 ?_⟩
    · rw [mem_range] at ht; exact h0 t (by omega)
    · have := mono j (a.m - 1) (by omega) (by omega)
      rwa [last] at this
  · intro j k hjk hk
    exact div_le_div_of_nonneg_right (mono j k hjk hk) hp.le
  · show (∑ t ∈ range (a.m - 1 + 1), r t) / _ = 1
    rw [last, div_self hp.ne']
  · show (∑ t ∈ range (0 + 1), r t) / _ * _ = _
    rw [div_mul_cancel₀ _ hp.ne']; simp
  · intro j _
    show ((∑ t ∈ range (j + 1 + 1), r t) / _ - (∑ t ∈ range (j + 1), r t) / _) * _ = _
    rw [sub_mul, div_mul_cancel₀ _ hp.ne', div_mul_cancel₀ _ hp.ne', sum_range_succ _ (j + 1)]
    ring

/-- Rescaling a row by a positive factor does not change its distribution, and other rows never
matter. -/
theorem C24_scale_free (a b : Arr2 (Option ℝ)) (i i' : ℕ) (r : ℕ → ℝ) (c : ℝ) (hc : 0 < c)
    (hm : b.m = a.m) (h : Spec.CountRow a i r) (hb : ∀ j < a.m, b.get i' j = some (c * r j)) :
    ∀ j < a.m, (mecdf b).get i' j = (mecdf a).get i j := by
  have hp := pos_sum h
  intro j hj
  rw [mecdf_row a i r h.1 hp hj, mecdf_row b i' (fun j => c * r j) (by rw [hm]; exact hb)
    (by rw [← mul_sum, hm]; exact mul_pos hc hp) (by rw [hm]; exact hj), ← mul_sum, ← mul_sum, hm,
    mul_div_mul_left _ _ hc.ne']

/-- A constant row rises in equal steps `1/m`. -/
theorem C24_constant_row (a : Arr2 (Option ℝ)) (i : ℕ) (v : ℝ) (hv : 0 < v)
    (h : ∀ j < a.m, a.get i j = some v) :
    ∀ j < a.m, (mecdf a).get i j = some (((j : ℝ) + 1) / a.m) := by
  intro j hj
  have hm : (0 : ℝ) < a.m := by exact_mod_cast (by omega : 0 < a.m)
  rw [mecdf_row a i (fun _ => v) h (by simp; positivity) hj]
  congr 1
  simp only [sum_const, card_range, nsmul_eq_mul]
  push_cast
  field_simp

/-- A missing value anywhere in a row (rows padded with NaN to a common length) makes the whole row
missing: no distribution is produced for it. -/
theorem C24_padded_rows_are_lost (a : Arr2 (Option ℝ)) (i k : ℕ) (hk : k < a.m) (h : a.get i k = none) :
    ∀ j < a.m, (mecdf a).get i j = none := by
  have hs : ∀ (f : ℕ → Option ℝ) (n t : ℕ), t < n → f t = none → rowSum f n = none := by
    intro f n t
    induction n with
    | zero => intro ht; omega
    | succ n ih =>
      intro ht hf
      unfold rowSum at ih ⊢
      rw [List.range_succ, List.foldl_append]
      simp only [List.foldl_cons, List.foldl_nil]
      rcases Nat.lt_or_ge t n with h1 | h1
      · rw [ih h1 hf]; rfl
      · have : t = n := by omega
        subst this
        rw [hf]
        cases List.foldl (fun acc k => addO acc (f k)) (some 0) (List.range t) <;> rfl
  intro j _
  show rowSum (fun k => divO (a.get i k) (rowSum (a.get i) a.m)) (j + 1) = none
  rw [hs (a.get i) a.m k hk h]
  apply hs _ _ 0 (by omega)
  cases a.get i 0 <;> rfl

example : Spec.CountRow ⟨1, 3, fun _ j => some (j : ℝ)⟩ 0 (fun j => j) :=
  ⟨fun _ _ => rfl, fun _ _ => Nat.cast_nonneg _, 2, by decide, by norm_num⟩

end TS
