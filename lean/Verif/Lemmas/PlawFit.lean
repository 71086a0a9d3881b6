import Verif.Model.PlawFit
import Verif.Lemmas.Lsq
import Verif.Lemmas.Psds
import Mathlib.Analysis.SpecialFunctions.Pow.Real

/-! Lemmas about the line fits of `Model/PlawFit.lean`. -/

namespace TS
open Spec

theorem log10F_pos {v : ℝ} (h : 0 < v) : log10F (some v) = .fin (log10 v) := by
  simp [log10F, not_lt.2 h.le, h.ne']

theorem log10_rpow {A f b : ℝ} (hA : 0 < A) (hf : 0 < f) :
    log10 (A * f ^ b) = log10 A + b * log10 f := by
  unfold log10
  rw [Real.logb_mul hA.ne' (Real.rpow_pos_of_pos hf b).ne', Real.logb_rpow_eq_mul_logb_of_pos hf]

theorem log10_mul {a b : ℝ} (ha : 0 < a) (hb : 0 < b) : log10 (a * b) = log10 a + log10 b := by
  unfold log10; rw [Real.logb_mul ha.ne' hb.ne']

theorem log10_inj {a b : ℝ} (ha : 0 < a) (hb : 0 < b) (h : log10 a = log10 b) : a = b :=
  Real.logb_injOn_pos (by norm_num) ha hb h

theorem log10_le_iff {a b : ℝ} (ha : 0 < a) (hb : 0 < b) : log10 a ≤ log10 b ↔ a ≤ b :=
  Real.logb_le_logb (by norm_num) ha hb

/-- A point the regression drops. -/
def FitPt.missing (p : FitPt) : Prop := p.x = .nan ∨ p.y = .nan ∨ p.w = .nan

/-- A usable point. -/
def FitPt.usable (p : FitPt) (x y w : ℝ) : Prop := p = ⟨.fin x, .fin y, .fin w⟩

theorem dropMissing_mem {pts : List FitPt} {p : FitPt} :
    p ∈ dropMissing pts ↔ p ∈ pts ∧ ¬ p.missing := by
  unfold dropMissing FitPt.missing
  rw [List.mem_filter]
  obtain ⟨x, y, w⟩ := p
  cases x <;> cases y <;> cases w <;> simp [FVal.isNan]

/-- When every point is dropped or finite and something is left, the fit is the regression of the
points left. -/
theorem lineFit_finite (lsq : List (ℝ × ℝ × ℝ) → ℝ × ℝ) (pts : List FitPt)
    (h : ∀ p ∈ pts, p.missing ∨ ∃ x y w, p.usable x y w)
    (hne : ∃ p ∈ pts, ¬ p.missing) :
    lineFit lsq pts = .ok (some (lsq ((dropMissing pts).map (fun p => (p.x.val, p.y.val, p.w.val))))) := by
  have hk : ∀ p ∈ dropMissing pts, ∃ x y w, p.usable x y w := by
    intro p hp
    rw [dropMissing_mem] at hp
    exact (h p hp.1).resolve_left hp.2
  have h1 : ¬ (dropMissing pts).length = 0 := by
    obtain ⟨p, hp, hm⟩ := hne
    have : p ∈ dropMissing pts := dropMissing_mem.2 ⟨hp, hm⟩
    intro h0
    rw [List.length_eq_zero_iff] at h0
    rw [h0] at this; cases this
  have h2 : ¬ (dropMissing pts).any (fun p => p.x.isInf) = true := by
    rw [List.any_eq_true]
    rintro ⟨p, hp, hx⟩
    obtain ⟨x, y, w, rfl⟩ := hk p hp
    simp [FVal.isInf] at hx
  have h3 : ¬ (dropMissing pts).any (fun p => p.y.isInf || p.w.isInf) = true := by
    rw [List.any_eq_true]
    rintro ⟨p, hp, hx⟩
    obtain ⟨x, y, w, rfl⟩ := hk p hp
    simp [FVal.isInf] at hx
  unfold lineFit
  simp only [h1, h2, h3, if_false]
  rfl

/-- Points on an exact line, two of them apart, give that line. -/
theorem lineFit_exact {lsq : List (ℝ × ℝ × ℝ) → ℝ × ℝ} (hl : LeastSquares lsq) (pts : List FitPt)
    (p : ℝ × ℝ)
    (h : ∀ q ∈ pts, q.missing ∨ ∃ x w, 0 < w ∧ q.usable x (p.1 + p.2 * x) w)
    {q r : FitPt} (hq : q ∈ pts) (hr : r ∈ pts) (hqm : ¬ q.missing) (hrm : ¬ r.missing)
    (hne : q.x ≠ r.x) : lineFit lsq pts = .ok (some p) := by
  rw [lineFit_finite lsq pts (fun q hq => (h q hq).imp_right
    (fun ⟨x, w, _, hu⟩ => ⟨x, _, w, hu⟩)) ⟨q, hq, hqm⟩]
  congr 2
  have hk : ∀ t ∈ dropMissing pts, ∃ x w, 0 < w ∧ t.usable x (p.1 + p.2 * x) w := by
    intro t ht
    rw [dropMissing_mem] at ht
    exact (h t ht.1).resolve_left ht.2
  have hmem : ∀ t ∈ pts, ¬ t.missing → (t.x.val, t.y.val, t.w.val) ∈
      (dropMissing pts).map (fun p => (p.x.val, p.y.val, p.w.val)) := by
    intro t ht hm
    exact List.mem_map.2 ⟨t, dropMissing_mem.2 ⟨ht, hm⟩, rfl⟩
  obtain ⟨x, w, hw, hu⟩ := hk q (dropMissing_mem.2 ⟨hq, hqm⟩)
  obtain ⟨x', w', hw', hu'⟩ := hk r (dropMissing_mem.2 ⟨hr, hrm⟩)
  apply lsq_exact hl _ _ (hmem q hq hqm) (hmem r hr hrm)
  · rw [hu]; exact hw
  · rw [hu']; exact hw'
  · rw [hu, hu']
    rw [hu, hu'] at hne
    simpa [FVal.val] using hne
  · intro t ht
    obtain ⟨s, hs, rfl⟩ := List.mem_map.1 ht
    obtain ⟨x, w, hw, rfl⟩ := hk s hs
    exact hw.le
  · intro t ht
    obtain ⟨s, hs, rfl⟩ := List.mem_map.1 ht
    obtain ⟨x, w, hw, rfl⟩ := hk s hs
    rfl

/-- Move a finite entry. -/
def FVal.shift (c : ℝ) : FVal → FVal
  | .fin v => .fin (v + c)
  | .inf => .inf
  | .nan => .nan

/-- Move a point. -/
def FitPt.shift (d c : ℝ) (p : FitPt) : FitPt := ⟨p.x.shift d, p.y.shift c, p.w⟩

theorem FVal.shift_isNan (c : ℝ) (v : FVal) : (v.shift c).isNan = v.isNan := by cases v <;> rfl

theorem FVal.shift_isInf (c : ℝ) (v : FVal) : (v.shift c).isInf = v.isInf := by cases v <;> rfl

theorem dropMissing_shift (d c : ℝ) (pts : List FitPt) :
    dropMissing (pts.map (FitPt.shift d c)) = (dropMissing pts).map (FitPt.shift d c) := by
  unfold dropMissing
  rw [List.filter_map]
  congr 1
  apply List.filter_congr
  intro p _
  simp [FitPt.shift, FVal.shift_isNan]

/-- Moving all points moves the fitted line. -/
theorem lineFit_shift {lsq : List (ℝ × ℝ × ℝ) → ℝ × ℝ} (hl : LeastSquares lsq) (pts : List FitPt)
    (d c : ℝ) (hw : ∀ q ∈ pts, ∀ w, q.w = .fin w → 0 ≤ w)
    {q r : FitPt} (hq : q ∈ pts) (hr : r ∈ pts) {x y w x' y' w' : ℝ} (hqu : q.usable x y w)
    (hru : r.usable x' y' w') (hwq : 0 < w) (hwr : 0 < w') (hne : x ≠ x') :
    lineFit lsq (pts.map (FitPt.shift d c)) =
      (lineFit lsq pts).map (Option.map (fun p => (p.1 + c - p.2 * d, p.2))) := by
  unfold lineFit
  simp only [dropMissing_shift, List.length_map, List.any_map, Function.comp_def]
  have e1 : ((dropMissing pts).any fun p => (FitPt.shift d c p).x.isInf) =
      (dropMissing pts).any fun p => p.x.isInf := by
    congr 1; funext p; exact FVal.shift_isInf _ _
  have e2 : ((dropMissing pts).any fun p => (FitPt.shift d c p).y.isInf || (FitPt.shift d c p).w.isInf) =
      (dropMissing pts).any fun p => p.y.isInf || p.w.isInf := by
    congr 1; funext p; simp [FitPt.shift, FVal.shift_isInf]
  rw [e1, e2]
  by_cases h0 : (dropMissing pts).length = 0
  · simp only [h0, if_true]; rfl
  by_cases h1 : (dropMissing pts).any (fun p => p.x.isInf) = true
  · simp only [h0, h1, if_true, if_false]; rfl
  by_cases h2 : (dropMissing pts).any (fun p => p.y.isInf || p.w.isInf) = true
  · simp only [h0, h1, h2, if_true, if_false]; rfl
  simp only [h0, h1, h2, if_false]
  simp only [Bool.false_eq_true, if_false, Except.map, Option.map]
  have hk : ∀ t ∈ dropMissing pts, ∃ x y w, t.usable x y w := by
    intro t ht
    have hm := (dropMissing_mem.1 ht).2
    have hx : t.x.isInf = false := by
      by_contra hc
      exact h1 (List.any_eq_true.2 ⟨t, ht, eq_true_of_ne_false hc⟩)
    have hyw : (t.y.isInf || t.w.isInf) = false := by
      by_contra hc
      exact h2 (List.any_eq_true.2 ⟨t, ht, eq_true_of_ne_false hc⟩)
    rw [Bool.or_eq_false_iff] at hyw
    obtain ⟨a, b, e⟩ := t
    unfold FitPt.missing at hm
    cases a <;> cases b <;> cases e <;> simp_all [FVal.isInf, FitPt.usable]
  have hmap : ((dropMissing pts).map (FitPt.shift d c)).map (fun p => (p.x.val, p.y.val, p.w.val)) =
      ((dropMissing pts).map (fun p => (p.x.val, p.y.val, p.w.val))).map
        (fun q => (q.1 + d, q.2.1 + c, q.2.2)) := by
    rw [List.map_map, List.map_map]
    apply List.map_congr_left
    intro t ht
    obtain ⟨x, y, w, rfl⟩ := hk t ht
    rfl
  rw [hmap]
  have hmem : ∀ t ∈ pts, ¬ t.missing → (t.x.val, t.y.val, t.w.val) ∈
      (dropMissing pts).map (fun p => (p.x.val, p.y.val, p.w.val)) := by
    intro t ht hm
    exact List.mem_map.2 ⟨t, dropMissing_mem.2 ⟨ht, hm⟩, rfl⟩
  have hqm : ¬ q.missing := by rw [hqu]; simp [FitPt.missing]
  have hrm : ¬ r.missing := by rw [hru]; simp [FitPt.missing]
  congr 2
  apply lsq_shift hl _ (hmem q hq hqm) (hmem r hr hrm)
  · rw [hqu]; exact hwq
  · rw [hru]; exact hwr
  · rw [hqu, hru]; exact hne
  · intro t ht
    obtain ⟨s, hs, rfl⟩ := List.mem_map.1 ht
    obtain ⟨x, y, w, hu⟩ := hk s hs
    have := hw s (dropMissing_mem.1 hs).1 w (by rw [hu])
    rw [hu]; exact this

end TS
