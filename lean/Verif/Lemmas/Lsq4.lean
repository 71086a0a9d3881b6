import Verif.Spec.Lsq4
import Mathlib.Tactic.Ring
import Mathlib.Tactic.Linarith
import Mathlib.Tactic.LinearCombination
import Mathlib.Tactic.Positivity
import Mathlib.Algebra.Order.BigOperators.Group.List
import Mathlib.Analysis.InnerProductSpace.Projection.Minimal
import Mathlib.Analysis.InnerProductSpace.PiL2
import Mathlib.Analysis.InnerProductSpace.Projection.Basic

/-! Facts about the four-column regression: uniqueness, recovery of exact data and existence of a
solver meeting the contract. -/

namespace TS
open Spec

private theorem sum_nonneg4 {rows : List SegRow} {f : SegRow → ℝ} (h : ∀ r ∈ rows, 0 ≤ f r) :
    0 ≤ (rows.map f).sum := by
  apply List.sum_nonneg
  intro x hx
  obtain ⟨q, hq, rfl⟩ := List.mem_map.1 hx
  exact h q hq

private theorem sum_zero4 {rows : List SegRow} {f : SegRow → ℝ} (h : ∀ r ∈ rows, 0 ≤ f r)
    (h0 : (rows.map f).sum ≤ 0) : ∀ r ∈ rows, f r = 0 := by
  induction rows with
  | nil => intro q hq; cases hq
  | cons a l ih =>
    have ha := h a (List.mem_cons_self ..)
    have hl : 0 ≤ (l.map f).sum := sum_nonneg4 (fun q hq => h q (List.mem_cons_of_mem _ hq))
    rw [List.map_cons, List.sum_cons] at h0
    intro q hq
    rcases List.mem_cons.1 hq with rfl | hq
    · linarith
    · exact ih (fun q hq => h q (List.mem_cons_of_mem _ hq)) (by linarith) q hq

private theorem rss4_mid (rows : List SegRow) (p q : Coef4) :
    rss4 rows ⟨(p.c0 + q.c0) / 2, (p.c1 + q.c1) / 2, (p.c2 + q.c2) / 2, (p.c3 + q.c3) / 2⟩ =
      rss4 rows p / 2 + rss4 rows q / 2 -
        (rows.map (fun r => r.w * ((p.at r - q.at r) / 2) ^ 2)).sum := by
  induction rows with
  | nil => simp [rss4]
  | cons a l ih =>
    simp only [rss4, List.map_cons, List.sum_cons, Coef4.at] at *
    rw [ih]; ring

/-- Two minimisers agree on every row of positive weight. -/
theorem lsq4_agree {rows : List SegRow} (hw : ∀ r ∈ rows, 0 ≤ r.w) {p q : Coef4}
    (hp : ∀ t, rss4 rows p ≤ rss4 rows t) (hq : ∀ t, rss4 rows q ≤ rss4 rows t) :
    ∀ r ∈ rows, 0 < r.w → p.at r = q.at r := by
  have h1 := hp ⟨(p.c0 + q.c0) / 2, (p.c1 + q.c1) / 2, (p.c2 + q.c2) / 2, (p.c3 + q.c3) / 2⟩
  have h2 := hq p
  have h3 := hp q
  rw [rss4_mid] at h1
  have hz := sum_zero4 (rows := rows) (f := fun r => r.w * ((p.at r - q.at r) / 2) ^ 2)
    (fun r hr => mul_nonneg (hw r hr) (sq_nonneg _)) (by linarith)
  intro r hr hwr
  rcases mul_eq_zero.1 (hz r hr) with h | h
  · linarith
  · have := pow_eq_zero_iff (two_ne_zero) |>.1 h
    linarith

theorem rss4_nonneg {rows : List SegRow} (hw : ∀ r ∈ rows, 0 ≤ r.w) (p : Coef4) : 0 ≤ rss4 rows p :=
  sum_nonneg4 (fun r hr => mul_nonneg (hw r hr) (sq_nonneg _))

theorem rss4_exact {rows : List SegRow} {p : Coef4} (h : ∀ r ∈ rows, r.y = p.at r) : rss4 rows p = 0 := by
  unfold rss4
  have : rows.map (fun r => r.w * (r.y - (p.c0 + p.c1 * r.x + p.c2 * r.u + p.c3 * r.v)) ^ 2) =
      rows.map (fun _ => (0 : ℝ)) := by
    apply List.map_congr_left
    intro r hr
    rw [h r hr, Coef4.at]; ring
  rw [this]; simp

namespace Spec

/-- The data fix all four coefficients for the break `b`: two points of positive weight at different
abscissae below the break and two at or above it. -/
def Resolved (pts : List (ℝ × ℝ × ℝ)) (b : ℝ) : Prop :=
  (∃ p ∈ pts, ∃ q ∈ pts, 0 < p.2.2 ∧ 0 < q.2.2 ∧ p.1 < q.1 ∧ q.1 < b) ∧
  (∃ p ∈ pts, ∃ q ∈ pts, 0 < p.2.2 ∧ 0 < q.2.2 ∧ b ≤ p.1 ∧ p.1 < q.1)

end Spec

theorem segU_right {b x : ℝ} (h : b ≤ x) : segU b x = x - b := by
  unfold segU
  split_ifs with h1
  · rfl
  · have : x = b := le_antisymm (not_lt.1 h1) h
    rw [this, sub_self]

theorem segU_left {b x : ℝ} (h : x < b) : segU b x = 0 := by
  unfold segU; rw [if_neg (not_lt.2 h.le)]

theorem segV_right {b x : ℝ} (h : b ≤ x) : segV b x = -1 := by
  unfold segV; rw [if_neg (not_lt.2 h)]

theorem segV_left {b x : ℝ} (h : x < b) : segV b x = 0 := by
  unfold segV; rw [if_pos h]

/-- With enough data the coefficients are determined by the values on the rows of positive weight. -/
theorem coef4_ext {pts : List (ℝ × ℝ × ℝ)} {b : ℝ} (hr : Resolved pts b) {p q : Coef4}
    (h : ∀ r ∈ segRows pts b, 0 < r.w → p.at r = q.at r) : p = q := by
  obtain ⟨⟨a1, ha1, a2, ha2, w1, w2, l1, l2⟩, ⟨a3, ha3, a4, ha4, w3, w4, l3, l4⟩⟩ := hr
  have key : ∀ t ∈ pts, 0 < t.2.2 → p.c0 + p.c1 * t.1 + p.c2 * segU b t.1 + p.c3 * segV b t.1 =
      q.c0 + q.c1 * t.1 + q.c2 * segU b t.1 + q.c3 * segV b t.1 := by
    intro t ht hw
    exact h ⟨t.1, segU b t.1, segV b t.1, t.2.1, t.2.2⟩ (List.mem_map.2 ⟨t, ht, rfl⟩) hw
  have e1 := key a1 ha1 w1
  have e2 := key a2 ha2 w2
  have e3 := key a3 ha3 w3
  have e4 := key a4 ha4 w4
  rw [segU_left (l1.trans l2), segV_left (l1.trans l2)] at e1
  rw [segU_left l2, segV_left l2] at e2
  rw [segU_right l3, segV_right l3] at e3
  rw [segU_right (l3.trans l4.le), segV_right (l3.trans l4.le)] at e4
  have h1 : (p.c1 - q.c1) * (a2.1 - a1.1) = 0 := by linear_combination e2 - e1
  have g1 : p.c1 = q.c1 := by
    rcases mul_eq_zero.1 h1 with h | h <;> linarith
  have g0 : p.c0 = q.c0 := by rw [g1] at e1; linarith
  have h2 : (p.c2 - q.c2) * (a4.1 - a3.1) = 0 := by
    rw [g0, g1] at e3 e4; linear_combination e4 - e3
  have g2 : p.c2 = q.c2 := by
    rcases mul_eq_zero.1 h2 with h | h <;> linarith
  have g3 : p.c3 = q.c3 := by rw [g0, g1, g2] at e3; linarith
  cases p; cases q; simp_all

/-- The contract can be met. -/
theorem exists_leastSquares4 : ∃ lsq4, LeastSquares4 lsq4 := by
  classical
  have h : ∀ rows : List SegRow, (∀ r ∈ rows, 0 ≤ r.w) → ∃ p, ∀ t, rss4 rows p ≤ rss4 rows t := by
    intro rows hw
    let A : (Fin 4 → ℝ) →ₗ[ℝ] EuclideanSpace ℝ (Fin rows.length) :=
      { toFun := fun c => WithLp.toLp 2 (fun i => Real.sqrt (rows.get i).w *
          (c 0 + c 1 * (rows.get i).x + c 2 * (rows.get i).u + c 3 * (rows.get i).v))
        map_add' := by
          intro a b; ext i; simp; ring
        map_smul' := by
          intro a b; ext i; simp; ring }
    let y : EuclideanSpace ℝ (Fin rows.length) :=
      WithLp.toLp 2 (fun i => Real.sqrt (rows.get i).w * (rows.get i).y)
    have hn : ∀ c : Fin 4 → ℝ, ‖y - A c‖ ^ 2 = rss4 rows ⟨c 0, c 1, c 2, c 3⟩ := by
      intro c
      rw [EuclideanSpace.norm_sq_eq]
      unfold rss4
      rw [← List.sum_ofFn]
      congr 1
      apply List.ext_get
      · simp
      · intro i h1 h2
        have hi : i < rows.length := by simpa using h1
        have hwi := hw _ (List.getElem_mem hi)
        simp only [List.get_eq_getElem, List.getElem_ofFn, List.getElem_map, PiLp.sub_apply, A, y,
          LinearMap.coe_mk, AddHom.coe_mk, Real.norm_eq_abs, sq_abs]
        rw [← mul_sub, mul_pow, Real.sq_sqrt hwi]
    have hcomp : IsComplete ((LinearMap.range A : Submodule ℝ _) : Set (EuclideanSpace ℝ (Fin rows.length))) :=
      (Submodule.complete_of_finiteDimensional _)
    obtain ⟨v, hv, hmin⟩ := Submodule.exists_norm_eq_iInf_of_complete_subspace (LinearMap.range A) hcomp y
    obtain ⟨c, rfl⟩ := hv
    refine ⟨⟨c 0, c 1, c 2, c 3⟩, fun t => ?_⟩
    have ht : ‖y - A c‖ ≤ ‖y - A ![t.c0, t.c1, t.c2, t.c3]‖ := by
      rw [hmin]
      exact ciInf_le ⟨0, by rintro _ ⟨w, rfl⟩; exact norm_nonneg _⟩
        (⟨A ![t.c0, t.c1, t.c2, t.c3], ⟨_, rfl⟩⟩ : (LinearMap.range A))
    have h2 := pow_le_pow_left₀ (norm_nonneg _) ht 2
    rw [hn, hn] at h2
    simpa using h2
  refine ⟨fun rows => if hw : ∀ r ∈ rows, 0 ≤ r.w then (h rows hw).choose else ⟨0, 0, 0, 0⟩, ?_⟩
  intro rows hw p
  simp only [dif_pos hw]
  exact (h rows hw).choose_spec p

end TS
