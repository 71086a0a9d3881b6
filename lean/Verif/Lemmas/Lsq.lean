import Verif.Spec.Lsq
import Mathlib.Tactic.Ring
import Mathlib.Tactic.Linarith
import Mathlib.Tactic.LinearCombination
import Mathlib.Tactic.FieldSimp
import Mathlib.Tactic.Positivity
import Mathlib.Algebra.Order.BigOperators.Group.List

/-! Facts about least-squares lines: uniqueness, recovery of exact lines, equivariance, and a
closed form meeting the contract. -/

namespace TS
open Spec

/-- Sum of a per-point quantity. -/
private def S (pts : List (ℝ × ℝ × ℝ)) (f : ℝ × ℝ × ℝ → ℝ) : ℝ := (pts.map f).sum

private theorem S_nonneg {pts : List (ℝ × ℝ × ℝ)} {f : ℝ × ℝ × ℝ → ℝ} (h : ∀ q ∈ pts, 0 ≤ f q) :
    0 ≤ S pts f := by
  unfold S
  apply List.sum_nonneg
  intro x hx
  obtain ⟨q, hq, rfl⟩ := List.mem_map.1 hx
  exact h q hq

private theorem S_zero {pts : List (ℝ × ℝ × ℝ)} {f : ℝ × ℝ × ℝ → ℝ} (h : ∀ q ∈ pts, 0 ≤ f q)
    (h0 : S pts f ≤ 0) : ∀ q ∈ pts, f q = 0 := by
  induction pts with
  | nil => intro q hq; cases hq
  | cons a l ih =>
    have ha := h a (List.mem_cons_self ..)
    have hl : 0 ≤ S l f := S_nonneg (fun q hq => h q (List.mem_cons_of_mem _ hq))
    have hs : S (a :: l) f = f a + S l f := by simp [S]
    intro q hq
    rcases List.mem_cons.1 hq with rfl | hq
    · linarith
    · exact ih (fun q hq => h q (List.mem_cons_of_mem _ hq)) (by linarith) q hq

private theorem S_add (pts : List (ℝ × ℝ × ℝ)) (f g : ℝ × ℝ × ℝ → ℝ) :
    S pts (fun q => f q + g q) = S pts f + S pts g := by
  induction pts with
  | nil => simp [S]
  | cons a l ih => simp only [S, List.map_cons, List.sum_cons] at *; rw [ih]; ring

private theorem S_mul (pts : List (ℝ × ℝ × ℝ)) (c : ℝ) (f : ℝ × ℝ × ℝ → ℝ) :
    S pts (fun q => c * f q) = c * S pts f := by
  induction pts with
  | nil => simp [S]
  | cons a l ih => simp only [S, List.map_cons, List.sum_cons] at *; rw [ih]; ring

/-- Two lines that agree at two different abscissae are equal. -/
private theorem line_eq {p q : ℝ × ℝ} {x y : ℝ} (hxy : x ≠ y) (hx : p.1 + p.2 * x = q.1 + q.2 * x)
    (hy : p.1 + p.2 * y = q.1 + q.2 * y) : p = q := by
  have h : (p.2 - q.2) * (x - y) = 0 := by linear_combination hx - hy
  have h2 : p.2 = q.2 := by
    rcases mul_eq_zero.1 h with h | h
    · linarith
    · exact absurd (by linarith) hxy
  have h1 : p.1 = q.1 := by rw [h2] at hx; linarith
  exact Prod.ext h1 h2

/-- The parallelogram identity for the residual sum. -/
private theorem rss_mid (pts : List (ℝ × ℝ × ℝ)) (p q : ℝ × ℝ) :
    rss pts ((p.1 + q.1) / 2, (p.2 + q.2) / 2) =
      rss pts p / 2 + rss pts q / 2 -
        S pts (fun r => r.2.2 * (((p.1 + p.2 * r.1) - (q.1 + q.2 * r.1)) / 2) ^ 2) := by
  induction pts with
  | nil => simp [rss, S]
  | cons a l ih =>
    simp only [rss, S, List.map_cons, List.sum_cons] at *
    rw [ih]; ring

/-- The minimiser is unique as soon as two points of positive weight have different abscissae. -/
theorem lsq_unique {pts : List (ℝ × ℝ × ℝ)} (hw : ∀ q ∈ pts, 0 ≤ q.2.2) {a b : ℝ × ℝ × ℝ}
    (ha : a ∈ pts) (hb : b ∈ pts) (hwa : 0 < a.2.2) (hwb : 0 < b.2.2) (hab : a.1 ≠ b.1)
    {p q : ℝ × ℝ} (hp : ∀ r, rss pts p ≤ rss pts r) (hq : ∀ r, rss pts q ≤ rss pts r) : p = q := by
  have h1 := hp ((p.1 + q.1) / 2, (p.2 + q.2) / 2)
  have h2 := hq p
  have h3 := hp q
  rw [rss_mid] at h1
  have hz := S_zero (pts := pts)
    (f := fun r => r.2.2 * (((p.1 + p.2 * r.1) - (q.1 + q.2 * r.1)) / 2) ^ 2)
    (fun r hr => mul_nonneg (hw r hr) (sq_nonneg _)) (by linarith)
  have key : ∀ r ∈ pts, 0 < r.2.2 → p.1 + p.2 * r.1 = q.1 + q.2 * r.1 := by
    intro r hr hwr
    have := hz r hr
    rcases mul_eq_zero.1 this with h | h
    · linarith
    · have := pow_eq_zero_iff (two_ne_zero) |>.1 h
      linarith
  exact line_eq hab (key a ha hwa) (key b hb hwb)

/-- An exact line is recovered. -/
theorem lsq_exact {lsq : List (ℝ × ℝ × ℝ) → ℝ × ℝ} (hl : LeastSquares lsq)
    {pts : List (ℝ × ℝ × ℝ)} (hw : ∀ q ∈ pts, 0 ≤ q.2.2) {p : ℝ × ℝ}
    (hline : ∀ q ∈ pts, q.2.1 = p.1 + p.2 * q.1) {a b : ℝ × ℝ × ℝ}
    (ha : a ∈ pts) (hb : b ∈ pts) (hwa : 0 < a.2.2) (hwb : 0 < b.2.2) (hab : a.1 ≠ b.1) :
    lsq pts = p := by
  have h0 : rss pts p = 0 := by
    unfold rss
    have : pts.map (fun q => q.2.2 * (q.2.1 - (p.1 + p.2 * q.1)) ^ 2) = pts.map (fun _ => (0 : ℝ)) := by
      apply List.map_congr_left
      intro q hq
      rw [hline q hq]; ring
    rw [this]; simp
  apply lsq_unique hw ha hb hwa hwb hab (hl pts hw)
  intro r
  rw [h0]
  exact S_nonneg (f := fun q => q.2.2 * (q.2.1 - (r.1 + r.2 * q.1)) ^ 2)
    (fun q hq => mul_nonneg (hw q hq) (sq_nonneg _))

/-- Shifting all ordinates by `c` and all abscissae by `d` keeps the slope and moves the
intercept. -/
theorem lsq_shift {lsq : List (ℝ × ℝ × ℝ) → ℝ × ℝ} (hl : LeastSquares lsq)
    {pts : List (ℝ × ℝ × ℝ)} (hw : ∀ q ∈ pts, 0 ≤ q.2.2) {a b : ℝ × ℝ × ℝ}
    (ha : a ∈ pts) (hb : b ∈ pts) (hwa : 0 < a.2.2) (hwb : 0 < b.2.2) (hab : a.1 ≠ b.1) (d c : ℝ) :
    lsq (pts.map (fun q => (q.1 + d, q.2.1 + c, q.2.2))) =
      ((lsq pts).1 + c - (lsq pts).2 * d, (lsq pts).2) := by
  set pts' := pts.map (fun q => (q.1 + d, q.2.1 + c, q.2.2)) with hpts'
  have hr : ∀ p : ℝ × ℝ, rss pts' p = rss pts (p.1 - c + p.2 * d, p.2) := by
    intro p
    simp only [hpts', rss, List.map_map, Function.comp_def]
    congr 1
    apply List.map_congr_left
    intro q _
    ring
  have hw' : ∀ q ∈ pts', 0 ≤ q.2.2 := by
    intro q hq
    obtain ⟨r, hr, rfl⟩ := List.mem_map.1 hq
    exact hw r hr
  have hu : ((lsq pts').1 - c + (lsq pts').2 * d, (lsq pts').2) = lsq pts := by
    apply lsq_unique hw ha hb hwa hwb hab _ (hl pts hw)
    intro r
    have := hl pts' hw' (r.1 + c - r.2 * d, r.2)
    rw [hr, hr] at this
    have e : ((r.1 + c - r.2 * d, r.2).1 - c + (r.1 + c - r.2 * d, r.2).2 * d,
      (r.1 + c - r.2 * d, r.2).2) = r := by
      apply Prod.ext <;> simp only <;> ring
    rwa [e] at this
  rw [← hu]
  apply Prod.ext <;> simp only <;> ring

/-- Closed form of a weighted straight-line fit. -/
noncomputable def lsqFormula (pts : List (ℝ × ℝ × ℝ)) : ℝ × ℝ :=
  let W := (pts.map (fun q => q.2.2)).sum
  let X := (pts.map (fun q => q.2.2 * q.1)).sum
  let Y := (pts.map (fun q => q.2.2 * q.2.1)).sum
  let XX := (pts.map (fun q => q.2.2 * q.1 ^ 2)).sum
  let XY := (pts.map (fun q => q.2.2 * (q.1 * q.2.1))).sum
  let D := W * XX - X ^ 2
  let b := if D = 0 then 0 else (W * XY - X * Y) / D
  (if W = 0 then 0 else (Y - b * X) / W, b)

private theorem rss_expand (pts : List (ℝ × ℝ × ℝ)) (p : ℝ × ℝ) :
    rss pts p = S pts (fun q => q.2.2 * q.2.1 ^ 2) + p.1 ^ 2 * S pts (fun q => q.2.2)
      + p.2 ^ 2 * S pts (fun q => q.2.2 * q.1 ^ 2) + 2 * p.1 * p.2 * S pts (fun q => q.2.2 * q.1)
      - 2 * p.1 * S pts (fun q => q.2.2 * q.2.1)
      - 2 * p.2 * S pts (fun q => q.2.2 * (q.1 * q.2.1)) := by
  induction pts with
  | nil => simp [rss, S]
  | cons a l ih =>
    simp only [rss, S, List.map_cons, List.sum_cons] at *
    rw [ih]; ring

/-- The closed form meets the contract, so the contract can be met. -/
theorem lsqFormula_leastSquares : LeastSquares lsqFormula := by
  intro pts hw p
  set W := S pts (fun q => q.2.2) with hW
  set X := S pts (fun q => q.2.2 * q.1) with hX
  set Y := S pts (fun q => q.2.2 * q.2.1) with hY
  set XX := S pts (fun q => q.2.2 * q.1 ^ 2) with hXX
  set XY := S pts (fun q => q.2.2 * (q.1 * q.2.1)) with hXY
  have hf : lsqFormula pts = (if W = 0 then 0 else
      (Y - (if W * XX - X ^ 2 = 0 then 0 else (W * XY - X * Y) / (W * XX - X ^ 2)) * X) / W,
      if W * XX - X ^ 2 = 0 then 0 else (W * XY - X * Y) / (W * XX - X ^ 2)) := rfl
  have hW0 : 0 ≤ W := S_nonneg hw
  rw [hf]
  by_cases h0 : W = 0
  · -- all weights vanish
    have hz : ∀ q ∈ pts, q.2.2 = 0 := S_zero hw (by rw [← hW]; exact h0.le)
    have : ∀ r : ℝ × ℝ, rss pts r = 0 := by
      intro r
      unfold rss
      have : pts.map (fun q => q.2.2 * (q.2.1 - (r.1 + r.2 * q.1)) ^ 2) = pts.map (fun _ => (0 : ℝ)) := by
        apply List.map_congr_left
        intro q hq
        rw [hz q hq]; ring
      rw [this]; simp
    rw [this, this]
  · have hWp : 0 < W := lt_of_le_of_ne hW0 (Ne.symm h0)
    -- W * (weighted variance)
    have hvar : ∀ t : ℝ, S pts (fun q => q.2.2 * (q.1 - t) ^ 2) = XX - 2 * t * X + t ^ 2 * W := by
      intro t
      have e : (fun q : ℝ × ℝ × ℝ => q.2.2 * (q.1 - t) ^ 2) =
          fun q => (q.2.2 * q.1 ^ 2 + (-2 * t) * (q.2.2 * q.1)) + t ^ 2 * q.2.2 := by
        funext q; ring
      rw [e, S_add pts (fun q => q.2.2 * q.1 ^ 2 + (-2 * t) * (q.2.2 * q.1)) (fun q => t ^ 2 * q.2.2),
        S_add pts (fun q => q.2.2 * q.1 ^ 2) (fun q => (-2 * t) * (q.2.2 * q.1)), S_mul, S_mul]
      ring
    have hcov : ∀ t : ℝ, S pts (fun q => q.2.2 * (q.1 - t) * q.2.1) = XY - t * Y := by
      intro t
      have e : (fun q : ℝ × ℝ × ℝ => q.2.2 * (q.1 - t) * q.2.1) =
          fun q => q.2.2 * (q.1 * q.2.1) + (-t) * (q.2.2 * q.2.1) := by
        funext q; ring
      rw [e, S_add, S_mul]; ring
    have hD : 0 ≤ W * XX - X ^ 2 := by
      have h1 := hvar (X / W)
      have h2 : 0 ≤ S pts (fun q => q.2.2 * (q.1 - X / W) ^ 2) :=
        S_nonneg (fun q hq => mul_nonneg (hw q hq) (sq_nonneg _))
      rw [h1] at h2
      have : W * (XX - 2 * (X / W) * X + (X / W) ^ 2 * W) = W * XX - X ^ 2 := by
        field_simp; ring
      rw [← this]
      exact mul_nonneg hW0 h2
    rw [rss_expand, rss_expand, if_neg h0]
    rw [← hW, ← hX, ← hY, ← hXX, ← hXY]
    by_cases hd : W * XX - X ^ 2 = 0
    · -- all abscissae equal
      simp only [hd, if_true]
      have hz : ∀ q ∈ pts, q.2.2 * (q.1 - X / W) ^ 2 = 0 := by
        apply S_zero (fun q hq => mul_nonneg (hw q hq) (sq_nonneg _))
        rw [hvar]
        have : XX - 2 * (X / W) * X + (X / W) ^ 2 * W = (W * XX - X ^ 2) / W := by
          field_simp; ring
        rw [this, hd]; simp
      have hc0 : XY - X / W * Y = 0 := by
        rw [← hcov]
        unfold S
        have : pts.map (fun q => q.2.2 * (q.1 - X / W) * q.2.1) = pts.map (fun _ => (0 : ℝ)) := by
          apply List.map_congr_left
          intro q hq
          rcases mul_eq_zero.1 (hz q hq) with h | h
          · rw [h]; ring
          · rw [pow_eq_zero_iff two_ne_zero |>.1 h]; ring
        rw [this]; simp
      have hXXe : XX = X ^ 2 / W := by field_simp; linarith
      have hXYe : XY = X / W * Y := by linarith
      rw [hXXe, hXYe]
      have key : 0 ≤ W * (p.1 + p.2 * (X / W) - Y / W) ^ 2 := mul_nonneg hW0 (sq_nonneg _)
      have e : p.1 ^ 2 * W + p.2 ^ 2 * (X ^ 2 / W) + 2 * p.1 * p.2 * X - 2 * p.1 * Y
          - 2 * p.2 * (X / W * Y) = W * (p.1 + p.2 * (X / W) - Y / W) ^ 2 - Y ^ 2 / W := by
        field_simp; ring
      have e2 : ((Y - 0 * X) / W) ^ 2 * W - 2 * ((Y - 0 * X) / W) * Y = - (Y ^ 2 / W) := by
        field_simp; ring
      nlinarith [e, e2, key]
    · have hDp : 0 < W * XX - X ^ 2 := lt_of_le_of_ne hD (Ne.symm hd)
      simp only [hd, if_false]
      set b := (W * XY - X * Y) / (W * XX - X ^ 2) with hb
      set a := (Y - b * X) / W with ha
      have n1 : a * W + b * X = Y := by rw [ha]; field_simp; ring
      have n2 : a * X + b * XX = XY := by
        have hbD : b * (W * XX - X ^ 2) = W * XY - X * Y := by rw [hb]; field_simp
        have : W * (a * X + b * XX) = W * XY := by
          rw [ha]
          have : W * ((Y - b * X) / W * X + b * XX) = (Y - b * X) * X + b * XX * W := by
            field_simp
          rw [this]; linarith
        exact mul_left_cancel₀ h0 this
      have hq : 0 ≤ (p.1 - a) ^ 2 * W + (p.2 - b) ^ 2 * XX + 2 * (p.1 - a) * (p.2 - b) * X := by
        have h1 : 0 ≤ W * ((p.1 - a) + (p.2 - b) * (X / W)) ^ 2 := mul_nonneg hW0 (sq_nonneg _)
        have h2 : 0 ≤ (p.2 - b) ^ 2 * ((W * XX - X ^ 2) / W) :=
          mul_nonneg (sq_nonneg _) (div_nonneg hD hW0)
        have e : (p.1 - a) ^ 2 * W + (p.2 - b) ^ 2 * XX + 2 * (p.1 - a) * (p.2 - b) * X =
          W * ((p.1 - a) + (p.2 - b) * (X / W)) ^ 2 + (p.2 - b) ^ 2 * ((W * XX - X ^ 2) / W) := by
          field_simp; ring
        linarith
      have e : (p.1 ^ 2 * W + p.2 ^ 2 * XX + 2 * p.1 * p.2 * X - 2 * p.1 * Y - 2 * p.2 * XY) -
          (a ^ 2 * W + b ^ 2 * XX + 2 * a * b * X - 2 * a * Y - 2 * b * XY) =
          (p.1 - a) ^ 2 * W + (p.2 - b) ^ 2 * XX + 2 * (p.1 - a) * (p.2 - b) * X := by
        rw [← n1, ← n2]; ring
      linarith

end TS
