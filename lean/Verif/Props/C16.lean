import Verif.Model.Distances
import Verif.Lemmas.L2

/-! C16 — the Hellinger distance. -/

namespace TS
open Finset

/-- A 1D array of plain numbers. -/
def numArr (n : ℕ) (p : ℕ → ℝ) : Arr1 (Option ℝ) := ⟨n, fun i => some (p i)⟩

private theorem hell_eq {n : ℕ} {p q : ℕ → ℝ} (hp : ∀ i < n, 0 ≤ p i) (hq : ∀ i < n, 0 ≤ q i) (w : ℝ) :
    hellinger (numArr n p) (numArr n q) w
      = .ok (w / Real.sqrt 2 * l2 n (fun i => Real.sqrt (p i) - Real.sqrt (q i))) := by
  unfold hellinger numArr l2
  simp only [ne_eq, not_true_eq_false, if_false]
  congr 3
  apply Finset.sum_congr rfl
  intro i hi
  have hi := Finset.mem_range.1 hi
  simp [hellTerm, sqrtO, subO, not_lt.2 (hp i hi), not_lt.2 (hq i hi)]

private theorem w_pos {w : ℝ} (hw : 0 < w) : 0 < w / Real.sqrt 2 := by positivity

/-- On non-negative vectors of equal length the Hellinger distance is a metric: symmetric,
non-negative, zero exactly for equal vectors, and subject to the triangle inequality. -/
theorem C16_metric (n : ℕ) (p q r : ℕ → ℝ) (hp : ∀ i < n, 0 ≤ p i) (hq : ∀ i < n, 0 ≤ q i)
    (hr : ∀ i < n, 0 ≤ r i) (w : ℝ) (hw : 0 < w) :
    ∃ dpq dqr dpr, hellinger (numArr n p) (numArr n q) w = .ok dpq ∧
      hellinger (numArr n q) (numArr n r) w = .ok dqr ∧
      hellinger (numArr n p) (numArr n r) w = .ok dpr ∧
      hellinger (numArr n q) (numArr n p) w = .ok dpq ∧
      0 ≤ dpq ∧ (dpq = 0 ↔ ∀ i < n, p i = q i) ∧ dpr ≤ dpq + dqr := by
  refine ⟨_, _, _, hell_eq hp hq w, hell_eq hq hr w, hell_eq hp hr w, ?_, ?_, ?_, ?_⟩
  · rw [hell_eq hq hp w, l2_sub_comm]
  · have := l2_nonneg n (fun i => Real.sqrt (p i) - Real.sqrt (q i))
    positivity
  · rw [mul_eq_zero, or_iff_right (w_pos hw).ne', l2_eq_zero]
    constructor
    · intro h i hi
      exact (Real.sqrt_inj (hp i hi) (hq i hi)).1 (sub_eq_zero.1 (h i hi))
    · intro h i hi
      rw [h i hi, sub_self]
  · rw [← mul_add]
    exact mul_le_mul_of_nonneg_left (l2_sub_triangle n _ _ _) (w_pos hw).le

example : (∀ i < 3, (0 : ℝ) ≤ (fun i : ℕ => (i : ℝ)) i) ∧ (0 : ℝ) < 1 :=
  ⟨fun i _ => Nat.cast_nonneg i, one_pos⟩

private theorem sum_sq_le {n : ℕ} {p q : ℕ → ℝ} (hp : ∀ i < n, 0 ≤ p i) (hq : ∀ i < n, 0 ≤ q i)
    {s : ℝ} (sp : ∑ i ∈ range n, p i = s) (sq' : ∑ i ∈ range n, q i = s) :
    ∑ i ∈ range n, (Real.sqrt (p i) - Real.sqrt (q i)) ^ 2 ≤ 2 * s := by
  calc ∑ i ∈ range n, (Real.sqrt (p i) - Real.sqrt (q i)) ^ 2
      ≤ ∑ i ∈ range n, (p i + q i) := by
        apply Finset.sum_le_sum
        intro i hi
        have hi := Finset.mem_range.1 hi
        have h1 := Real.sq_sqrt (hp i hi)
        have h2 := Real.sq_sqrt (hq i hi)
        have h3 := Real.sqrt_nonneg (p i)
        have h4 := Real.sqrt_nonneg (q i)
        nlinarith [mul_nonneg h3 h4]
    _ = 2 * s := by rw [Finset.sum_add_distrib, sp, sq']; ring

/-- For probability vectors (sum 1) and the default bin width the distance is at most 1. -/
theorem C16_at_most_one (n : ℕ) (p q : ℕ → ℝ) (hp : ∀ i < n, 0 ≤ p i) (hq : ∀ i < n, 0 ≤ q i)
    (sp : ∑ i ∈ range n, p i = 1) (sq' : ∑ i ∈ range n, q i = 1) :
    ∃ d, hellinger (numArr n p) (numArr n q) 1 = .ok d ∧ 0 ≤ d ∧ d ≤ 1 := by
  refine ⟨_, hell_eq hp hq 1, ?_, ?_⟩
  · have := l2_nonneg n (fun i => Real.sqrt (p i) - Real.sqrt (q i))
    positivity
  · unfold l2
    have h2 : (0 : ℝ) < Real.sqrt 2 := by positivity
    rw [div_mul_eq_mul_div, one_mul, div_le_one h2]
    apply Real.sqrt_le_sqrt
    have := sum_sq_le hp hq sp sq'
    linarith

example : ∑ i ∈ range 2, (fun _ : ℕ => (1 / 2 : ℝ)) i = 1 := by norm_num [Finset.sum_range_succ]

/-- For densities on bins of width `w` (so that `w · sum = 1`) the result is bounded by `√w`.
Missing for the full claim: the bound 1, which fails for bins wider than 1
(`C16_bin_width_unbounded`). -/
theorem C16_density_bound_partial (n : ℕ) (p q : ℕ → ℝ) (hp : ∀ i < n, 0 ≤ p i)
    (hq : ∀ i < n, 0 ≤ q i) (w : ℝ) (hw : 0 < w) (sp : w * ∑ i ∈ range n, p i = 1)
    (sq' : w * ∑ i ∈ range n, q i = 1) :
    ∃ d, statMomentsDistance ⟨n, p⟩ ⟨n, q⟩ w = .ok d ∧ 0 ≤ d ∧ d ≤ Real.sqrt w := by
  refine ⟨_, hell_eq hp hq w, ?_, ?_⟩
  · have := l2_nonneg n (fun i => Real.sqrt (p i) - Real.sqrt (q i))
    positivity
  · have e1 : ∑ i ∈ range n, p i = 1 / w := by field_simp; linarith
    have e2 : ∑ i ∈ range n, q i = 1 / w := by field_simp; linarith
    have h := sum_sq_le hp hq e1 e2
    have h2 : (0 : ℝ) < Real.sqrt 2 := by positivity
    unfold l2
    have h3 : Real.sqrt (∑ i ∈ range n, (Real.sqrt (p i) - Real.sqrt (q i)) ^ 2)
        ≤ Real.sqrt (2 * (1 / w)) := Real.sqrt_le_sqrt h
    calc w / Real.sqrt 2 * Real.sqrt (∑ i ∈ range n, (Real.sqrt (p i) - Real.sqrt (q i)) ^ 2)
        ≤ w / Real.sqrt 2 * Real.sqrt (2 * (1 / w)) :=
          mul_le_mul_of_nonneg_left h3 (w_pos hw).le
      _ = Real.sqrt w := by
          rw [Real.sqrt_mul (by norm_num), Real.sqrt_div (by norm_num), Real.sqrt_one]
          have h5 : (0 : ℝ) < Real.sqrt w := Real.sqrt_pos.2 hw
          field_simp
          exact (Real.sq_sqrt hw.le).symm

/-- The bound 1 fails: two non-overlapping densities on bins of width 4 are at distance 2. -/
theorem C16_bin_width_unbounded :
    ¬ ∀ (n : ℕ) (p q : ℕ → ℝ) (w d : ℝ), (∀ i < n, 0 ≤ p i) → (∀ i < n, 0 ≤ q i) → 0 < w →
      w * ∑ i ∈ range n, p i = 1 → w * ∑ i ∈ range n, q i = 1 →
      statMomentsDistance ⟨n, p⟩ ⟨n, q⟩ w = .ok d → d ≤ 1 := by
  intro h
  have hp : ∀ i < 2, (0 : ℝ) ≤ (fun i : ℕ => if i = 0 then (1 / 4 : ℝ) else 0) i := by
    intro i _; simp only; split <;> norm_num
  have hq : ∀ i < 2, (0 : ℝ) ≤ (fun i : ℕ => if i = 0 then (0 : ℝ) else 1 / 4) i := by
    intro i _; simp only; split <;> norm_num
  have := h 2 _ _ 4 _ hp hq (by norm_num) (by norm_num [Finset.sum_range_succ])
    (by norm_num [Finset.sum_range_succ]) (hell_eq hp hq 4)
  have h4 : Real.sqrt (1 / 4) = 1 / 2 := by
    rw [show (1 / 4 : ℝ) = (1 / 2) ^ 2 by norm_num, Real.sqrt_sq (by norm_num)]
  unfold l2 at this
  simp only [Finset.sum_range_succ, Finset.sum_range_zero, if_true, Nat.one_ne_zero, if_false,
    Real.sqrt_zero, h4] at this
  rw [show (0 + (1 / 2 - 0) ^ 2 + (0 - 1 / 2) ^ 2 : ℝ) = 1 / 2 by norm_num,
    Real.sqrt_div (by norm_num), Real.sqrt_one] at this
  have h2 : Real.sqrt 2 * Real.sqrt 2 = 2 := Real.mul_self_sqrt (by norm_num)
  have h0 : (0 : ℝ) < Real.sqrt 2 := by positivity
  rw [div_mul_div_comm, h2] at this
  norm_num at this

/-- `PDF_Distance`'s Hellinger distance lies in [0, 1], is symmetric, and is zero exactly when the
two densities are proportional. -/
theorem C16_pdf_distance (n : ℕ) (p q : ℕ → ℝ) (hp : ∀ i < n, 0 ≤ p i) (hq : ∀ i < n, 0 ≤ q i)
    (sp : 0 < ∑ i ∈ range n, p i) (sq' : 0 < ∑ i ∈ range n, q i) :
    ∃ d, pdfHellinger ⟨n, p⟩ ⟨n, q⟩ = .ok d ∧ pdfHellinger ⟨n, q⟩ ⟨n, p⟩ = .ok d ∧
      0 ≤ d ∧ d ≤ 1 ∧
      (d = 0 ↔ ∀ i < n, p i * ∑ k ∈ range n, q k = q i * ∑ k ∈ range n, p k) := by
  have conv : ∀ f : ℕ → ℝ, 0 < ∑ i ∈ range n, f i →
      (⟨n, fun i => divO (some (f i)) (some (∑ k ∈ range n, f k))⟩ : Arr1 (Option ℝ))
        = numArr n (fun i => f i / ∑ k ∈ range n, f k) := by
    intro f hf
    unfold numArr
    congr 1
    funext i
    simp [divO, hf.ne']
  have hp' : ∀ i < n, 0 ≤ p i / ∑ k ∈ range n, p k := fun i hi => div_nonneg (hp i hi) sp.le
  have hq' : ∀ i < n, 0 ≤ q i / ∑ k ∈ range n, q k := fun i hi => div_nonneg (hq i hi) sq'.le
  obtain ⟨d, h1, h2, h3⟩ := C16_at_most_one n _ _ hp' hq'
    (by rw [← Finset.sum_div, div_self sp.ne']) (by rw [← Finset.sum_div, div_self sq'.ne'])
  obtain ⟨d', _, _, h4, _, _, h5, _, h6, _⟩ := C16_metric n _ _ _ hp' hq' hq' 1 one_pos
  rw [h1] at h4
  cases h4
  refine ⟨d, ?_, ?_, h2, h3, ?_⟩
  · unfold pdfHellinger; simp only; rw [conv p sp, conv q sq', h1]
  · unfold pdfHellinger; simp only; rw [conv p sp, conv q sq', h5]
  · rw [h6]
    constructor
    · intro h i hi
      have := h i hi
      rw [div_eq_div_iff sp.ne' sq'.ne'] at this
      exact this
    · intro h i hi
      rw [div_eq_div_iff sp.ne' sq'.ne']
      exact h i hi

example : 0 < ∑ i ∈ range 2, (fun i : ℕ => (i : ℝ)) i := by norm_num [Finset.sum_range_succ]

private theorem mapM_ok {α β : Type*} (f : α → Py β) (g : α → β) (l : List α)
    (h : ∀ a ∈ l, f a = .ok (g a)) : l.mapM f = .ok (l.map g) := by
  induction l with
  | nil => rfl
  | cons a l ih =>
    rw [List.mapM_cons, h a (by simp), ih (fun b hb => h b (List.mem_cons_of_mem _ hb))]
    rfl

/-- The dendrogram histogram distance: the mean over thresholds of Hellinger distances of
normalised histograms lies in [0, 1]. -/
theorem C16_dendrogram_distance (r n : ℕ) (hr : 0 < r) (p q : ℕ → ℕ → ℝ)
    (hp : ∀ t < r, ∀ i < n, 0 ≤ p t i) (hq : ∀ t < r, ∀ i < n, 0 ≤ q t i)
    (sp : ∀ t < r, ∑ i ∈ range n, p t i = 1) (sq' : ∀ t < r, ∑ i ∈ range n, q t i = 1) :
    ∃ d, hellingerStat ⟨r, n, fun t i => some (p t i)⟩ ⟨r, n, fun t i => some (q t i)⟩ = .ok d ∧
      0 ≤ d ∧ d ≤ 1 := by
  have hrow : ∀ t ∈ List.range r, hellinger ⟨n, fun i => some (p t i)⟩ ⟨n, fun i => some (q t i)⟩ 1
      = .ok (1 / Real.sqrt 2 * l2 n (fun i => Real.sqrt (p t i) - Real.sqrt (q t i))) := by
    intro t ht
    have ht := List.mem_range.1 ht
    exact hell_eq (hp t ht) (hq t ht) 1
  have hbd : ∀ t < r, 0 ≤ 1 / Real.sqrt 2 * l2 n (fun i => Real.sqrt (p t i) - Real.sqrt (q t i)) ∧
      1 / Real.sqrt 2 * l2 n (fun i => Real.sqrt (p t i) - Real.sqrt (q t i)) ≤ 1 := by
    intro t ht
    obtain ⟨d, e, h0, h1⟩ := C16_at_most_one n _ _ (hp t ht) (hq t ht) (sp t ht) (sq' t ht)
    rw [hell_eq (hp t ht) (hq t ht) 1] at e
    cases e
    exact ⟨h0, h1⟩
  have hr' : (0 : ℝ) < r := by exact_mod_cast hr
  have hsum0 : 0 ≤ ((List.range r).map (fun t => 1 / Real.sqrt 2 *
      l2 n (fun i => Real.sqrt (p t i) - Real.sqrt (q t i)))).sum := by
    apply List.sum_nonneg
    intro x hx
    obtain ⟨t, ht, rfl⟩ := List.mem_map.1 hx
    exact (hbd t (List.mem_range.1 ht)).1
  have hsum1 : ((List.range r).map (fun t => 1 / Real.sqrt 2 *
      l2 n (fun i => Real.sqrt (p t i) - Real.sqrt (q t i)))).sum ≤ r := by
    have := List.sum_le_card_nsmul ((List.range r).map (fun t => 1 / Real.sqrt 2 *
      l2 n (fun i => Real.sqrt (p t i) - Real.sqrt (q t i)))) 1 (by
        intro x hx
        obtain ⟨t, ht, rfl⟩ := List.mem_map.1 hx
        exact (hbd t (List.mem_range.1 ht)).2)
    simpa using this
  refine ⟨((List.range r).map (fun t => 1 / Real.sqrt 2 *
      l2 n (fun i => Real.sqrt (p t i) - Real.sqrt (q t i)))).sum / r, ?_, ?_, ?_⟩
  · simp only [hellingerStat, ne_eq, not_true_eq_false, or_self, if_false]
    rw [mapM_ok _ _ _ hrow]
    rfl
  · exact div_nonneg hsum0 hr'.le
  · exact (div_le_one hr').2 hsum1

example : ∀ t < 2, ∑ i ∈ range 2, (fun (_ _ : ℕ) => (1 / 2 : ℝ)) t i = 1 := by
  intro t _; norm_num [Finset.sum_range_succ]

end TS
