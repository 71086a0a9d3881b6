import Verif.Model.LmSeg
import Verif.Lemmas.Psds

/-! C12 — the reported segmented model is two joined lines.  The code anchors the second line at the
evaluation point nearest to the break instead of at the break itself, so the claim holds exactly
when the evaluation grid contains the break. -/

namespace TS

/-- Specification: the continuous broken line through `(0, p0)` with slope `s1` below the break and
slope `s2` above it. -/
noncomputable def Spec.brokenLine (p0 s1 s2 brk v : ℝ) : ℝ :=
  if v < brk then p0 + s1 * v else p0 + s1 * brk + s2 * (v - brk)

private theorem exists_nearest (b : ℝ) (k : List ℝ) (hk : k ≠ []) :
    ∃ v ∈ k, ∀ w ∈ k, |v - b| ≤ |w - b| := by
  induction k with
  | nil => exact absurd rfl hk
  | cons a l ih =>
    by_cases hl : l = []
    · exact ⟨a, by simp, by simp [hl]⟩
    · obtain ⟨v, hv, hmin⟩ := ih hl
      rcases le_total |v - b| |a - b| with h | h
      · refine ⟨v, List.mem_cons_of_mem _ hv, ?_⟩
        intro w hw
        rcases List.mem_cons.1 hw with rfl | hw
        · exact h
        · exact hmin w hw
      · refine ⟨a, by simp, ?_⟩
        intro w hw
        rcases List.mem_cons.1 hw with rfl | hw
        · exact le_rfl
        · exact h.trans (hmin w hw)

/-- The anchor is a grid point nearest to the break. -/
private theorem transPt_spec (k : List ℝ) (b : ℝ) (hk : k ≠ []) :
    k.getD (segTransPt k b) 0 ∈ k ∧ ∀ w ∈ k, |k.getD (segTransPt k b) 0 - b| ≤ |w - b| := by
  obtain ⟨v, hv, hmin⟩ := exists_nearest b k hk
  have hlt : segTransPt k b < k.length := by
    unfold segTransPt
    rw [List.findIdx_lt_length]
    refine ⟨v, hv, ?_⟩
    rw [List.all_eq_true]
    intro w hw
    simpa using hmin w hw
  have hget := List.findIdx_getElem (w := hlt)
  rw [List.getD_eq_getElem?_getD, List.getElem?_eq_getElem hlt, Option.getD_some]
  refine ⟨List.getElem_mem hlt, ?_⟩
  intro w hw
  have := (List.all_eq_true.1 hget) w hw
  exact of_decide_eq_true this

private theorem segModel_eq (p0 p1 p2 brk : ℝ) (rest k : List ℝ) (hk : k ≠ []) :
    segModel (p0 :: p1 :: p2 :: rest) brk k = .ok (k.map (fun v => p0 +
      (if v < brk then p1 * v else 0)
      + (if brk ≤ v then (p1 + p2) * v + (-p2) * k.getD (segTransPt k brk) 0 else 0))) := by
  simp [segModel, hk]

/-- On any grid that contains the break, the model of a successful fit is exactly the continuous
broken line with the two reported slopes: the pieces agree at the break.  Missing for the full
claim: grids that do not contain the break (see `C12_gap`, `C12_not_joined`). -/
theorem C12_broken_line_partial (p0 p1 p2 p3 brk : ℝ) (k : List ℝ) (hb : brk ∈ k) :
    ∃ s1 s2 vals, segSlopes [p0, p1, p2, p3, brk] false = .ok [s1, s2] ∧
      segModel [p0, p1, p2, p3, brk] brk k = .ok vals ∧
      vals = k.map (Spec.brokenLine p0 s1 s2 brk) := by
  have hk : k ≠ [] := by intro h; rw [h] at hb; simp at hb
  obtain ⟨-, hmin⟩ := transPt_spec k brk hk
  have h0 : k.getD (segTransPt k brk) 0 = brk := by
    have := hmin brk hb
    rw [sub_self, abs_zero] at this
    have := abs_eq_zero.1 (le_antisymm this (abs_nonneg _))
    linarith
  refine ⟨p1, p2 + p1, _, rfl, segModel_eq p0 p1 p2 brk _ k hk, ?_⟩
  apply List.map_congr_left
  intro v _
  rw [h0, Spec.brokenLine]
  by_cases hv : v < brk
  · rw [if_pos hv, if_neg (not_le.2 hv), if_pos hv]; ring
  · rw [if_neg hv, if_pos (not_lt.1 hv), if_neg hv]; ring

example : (3 : ℝ) ∈ ([0, 1, 2, 3, 4] : List ℝ) := by simp

/-- For every grid: below the break the model is the broken line; from the break on it is offset
from it by (change of slope) × (break − nearest grid point), a constant. -/
theorem C12_gap (p0 p1 p2 p3 brk : ℝ) (k : List ℝ) (hk : k ≠ []) :
    ∃ kt ∈ k, (∀ w ∈ k, |kt - brk| ≤ |w - brk|) ∧
      segModel [p0, p1, p2, p3, brk] brk k = .ok (k.map (fun v =>
        Spec.brokenLine p0 p1 (p2 + p1) brk v + if v < brk then 0 else p2 * (brk - kt))) := by
  obtain ⟨hmem, hmin⟩ := transPt_spec k brk hk
  refine ⟨_, hmem, hmin, ?_⟩
  rw [segModel_eq p0 p1 p2 brk _ k hk]
  congr 1
  apply List.map_congr_left
  intro v _
  rw [Spec.brokenLine]
  by_cases hv : v < brk
  · rw [if_pos hv, if_neg (not_le.2 hv), if_pos hv, if_pos hv]
  · rw [if_neg hv, if_pos (not_lt.1 hv), if_neg hv, if_neg hv]; ring

/-- The claim fails on grids that miss the break: with slopes 0 and 1 and a break at 0.4, the value
at 1 on the grid {0, 1} is 1 instead of 0.6. -/
theorem C12_not_joined :
    ¬ ∀ (p0 p1 p2 p3 brk : ℝ) (k : List ℝ), k ≠ [] →
      segModel [p0, p1, p2, p3, brk] brk k = .ok (k.map (Spec.brokenLine p0 p1 (p2 + p1) brk)) := by
  intro h
  have h1 := h 0 0 1 0 (2/5) [0, 1] (by simp)
  have ht : segTransPt ([0, 1] : List ℝ) (2/5) = 0 := by
    norm_num [segTransPt, List.findIdx, List.findIdx.go, List.all, abs_of_neg, abs_of_pos]
  rw [segModel_eq 0 0 1 (2/5) _ _ (by simp), ht] at h1
  norm_num [Spec.brokenLine] at h1

/-- A failed fit (parameters: intercept, slope, break = largest x) is the straight line on every grid
that ends at the break. Missing: grids that go beyond the break (`C12_failed_fit_extrapolates_wrong`). -/
theorem C12_failed_fit_partial (p0 p1 brk : ℝ) (k : List ℝ) (hb : brk ∈ k) (hle : ∀ v ∈ k, v ≤ brk) :
    segSlopes [p0, p1, brk] true = .ok [p1] ∧
    segModel [p0, p1, brk] brk k = .ok (k.map (fun v => p0 + p1 * v)) := by
  have hk : k ≠ [] := by intro h; rw [h] at hb; simp at hb
  obtain ⟨-, hmin⟩ := transPt_spec k brk hk
  have h0 : k.getD (segTransPt k brk) 0 = brk := by
    have := hmin brk hb
    rw [sub_self, abs_zero] at this
    have := abs_eq_zero.1 (le_antisymm this (abs_nonneg _))
    linarith
  refine ⟨rfl, ?_⟩
  rw [segModel_eq p0 p1 brk brk _ k hk, h0]
  congr 1
  apply List.map_congr_left
  intro v hv
  by_cases hv' : v < brk
  · rw [if_pos hv', if_neg (not_le.2 hv')]; ring
  · have : v = brk := le_antisymm (hle v hv) (not_lt.1 hv')
    rw [if_neg hv', if_pos (not_lt.1 hv'), this]; ring

/-- Beyond the data a failed fit is not the straight line: the break itself is read as a change of
slope. -/
theorem C12_failed_fit_extrapolates_wrong :
    ¬ ∀ (p0 p1 brk : ℝ) (k : List ℝ), brk ∈ k →
      segModel [p0, p1, brk] brk k = .ok (k.map (fun v => p0 + p1 * v)) := by
  intro h
  have h1 := h 0 1 2 [2, 3] (by simp)
  have ht : segTransPt ([2, 3] : List ℝ) 2 = 0 := by
    norm_num [segTransPt, List.findIdx, List.findIdx.go, List.all]
  rw [segModel_eq 0 1 2 2 _ _ (by simp), ht] at h1
  norm_num at h1

end TS
