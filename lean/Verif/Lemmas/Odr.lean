import Verif.Spec.Odr
import Mathlib.Tactic.Linarith
import Mathlib.Tactic.LinearCombination
import Mathlib.Tactic.Positivity
import Mathlib.Algebra.Order.BigOperators.Ring.Finset

/-! Facts about orthogonal distance regression. -/

namespace TS
open Spec Finset

theorem odrCost_nonneg (pts : List OdrPt) (p : ℝ × ℝ) (ξ : Fin pts.length → ℝ) : 0 ≤ odrCost pts p ξ :=
  sum_nonneg (fun _ _ => by positivity)

/-- A line through all points is a best line. -/
theorem isOdr_of_exact {pts : List OdrPt} {p : ℝ × ℝ} (h : ∀ q ∈ pts, q.y = p.1 * q.x + p.2) : IsOdr pts p := by
  refine ⟨fun i => pts[i].x, fun p' ξ' => ?_⟩
  have : odrCost pts p (fun i => pts[i].x) = 0 := by
    refine sum_eq_zero (fun i _ => ?_)
    rw [h pts[i] (List.getElem_mem _)]
    simp
  rw [this]
  exact odrCost_nonneg _ _ _

/-- When a line goes through all points and two of them have different abscissae, it is the only best
line. -/
theorem isOdr_unique {pts : List OdrPt} {p p' : ℝ × ℝ} (h : ∀ q ∈ pts, q.y = p.1 * q.x + p.2)
    (hs : ∀ q ∈ pts, 0 < q.sx ∧ 0 < q.sy) (hd : ∃ q ∈ pts, ∃ r ∈ pts, q.x ≠ r.x) (h' : IsOdr pts p') :
    p' = p := by
  obtain ⟨ξ, hξ⟩ := h'
  have h0 : odrCost pts p' ξ = 0 := by
    refine le_antisymm ?_ (odrCost_nonneg _ _ _)
    refine (hξ p (fun i => pts[i].x)).trans (le_of_eq ?_)
    refine sum_eq_zero (fun i _ => ?_)
    rw [h pts[i] (List.getElem_mem _)]
    simp
  have hz := (sum_eq_zero_iff_of_nonneg (fun i _ => by positivity)).1 h0
  have key : ∀ q ∈ pts, q.y = p'.1 * q.x + p'.2 := by
    intro q hq
    obtain ⟨i, hi, rfl⟩ := List.getElem_of_mem hq
    have := hz ⟨i, hi⟩ (mem_univ _)
    have hp := hs pts[i] hq
    simp only [Fin.getElem_fin] at this
    have ha : ((pts[i].y - (p'.1 * ξ ⟨i, hi⟩ + p'.2)) / pts[i].sy) ^ 2 = 0 := by
      nlinarith [sq_nonneg ((pts[i].y - (p'.1 * ξ ⟨i, hi⟩ + p'.2)) / pts[i].sy),
        sq_nonneg ((pts[i].x - ξ ⟨i, hi⟩) / pts[i].sx)]
    have hb : ((pts[i].x - ξ ⟨i, hi⟩) / pts[i].sx) ^ 2 = 0 := by rw [ha] at this; linarith
    have ha' := (div_eq_zero_iff.1 (pow_eq_zero_iff (two_ne_zero)|>.1 ha)).resolve_right hp.2.ne'
    have hb' := (div_eq_zero_iff.1 (pow_eq_zero_iff (two_ne_zero)|>.1 hb)).resolve_right hp.1.ne'
    have : ξ ⟨i, hi⟩ = pts[i].x := by linarith
    rw [this] at ha'
    linarith
  obtain ⟨q, hq, r, hr, hne⟩ := hd
  have e1 := key q hq; have e2 := key r hr
  rw [h q hq] at e1; rw [h r hr] at e2
  have hm : (p'.1 - p.1) * (q.x - r.x) = 0 := by linear_combination e2 - e1
  have h1 : p'.1 = p.1 := by
    rcases mul_eq_zero.1 hm with h | h
    · linarith
    · exact absurd (by linarith) hne
  rw [h1] at e1
  exact Prod.ext h1 (by linarith)

/-- Shift of all points by `(t, s)`. -/
def OdrPt.shift (t s : ℝ) (q : OdrPt) : OdrPt := ⟨q.x + t, q.y + s, q.sx, q.sy⟩

private theorem cost_shift (t s : ℝ) (pts : List OdrPt) (p : ℝ × ℝ)
    (ξ : Fin (pts.map (OdrPt.shift t s)).length → ℝ) :
    odrCost (pts.map (OdrPt.shift t s)) p ξ =
      odrCost pts (p.1, p.2 + p.1 * t - s) (fun i => ξ (i.cast (by simp)) - t) := by
  unfold odrCost
  refine Fintype.sum_equiv (finCongr (by simp)) _ _ (fun i => ?_)
  simp only [Fin.getElem_fin, List.getElem_map, OdrPt.shift, finCongr_apply, Fin.val_cast, Fin.cast_cast,
    Fin.cast_eq_self]
  congr 1
  · congr 2; ring
  · congr 2; ring

/-- Shifting the points shifts the best line. -/
theorem isOdr_shift (t s : ℝ) (pts : List OdrPt) (p : ℝ × ℝ) (h : IsOdr (pts.map (OdrPt.shift t s)) p) :
    IsOdr pts (p.1, p.2 + p.1 * t - s) := by
  obtain ⟨ξ, hξ⟩ := h
  refine ⟨fun i => ξ (i.cast (by simp)) - t, fun p' ξ' => ?_⟩
  rw [← cost_shift]
  have := hξ (p'.1, p'.2 - p'.1 * t + s) (fun i => ξ' (i.cast (by simp)) + t)
  rw [cost_shift t s pts (p'.1, _)] at this
  refine this.trans (le_of_eq ?_)
  congr 1
  · exact Prod.ext rfl (by simp only; ring)
  · funext i
    simp

end TS
