import Verif.Np.Ranges
import Verif.Np.Nan
import Mathlib.Algebra.BigOperators.Group.Finset.Basic
import Mathlib.Tactic.Linarith
import Mathlib.Tactic.FieldSimp

/-! `np.histogram` (external contract) and its facts. -/

namespace TS
open Finset

/-- Bin edges chosen by `np.histogram(data, bins=nb)`: equal widths from the smallest to the largest value
(an empty array uses [0, 1], a single value is widened by 1/2 on both sides). -/
noncomputable def histEdges (nb : ℕ) (data : List ℝ) : Py (Arr1 ℝ) :=
  if nb = 0 then .error .valueError
  else match minO data, maxO data with
  | some lo, some hi =>
    if lo = hi then .ok (linspace (lo - 1 / 2) (hi + 1 / 2) (nb + 1)) else .ok (linspace lo hi (nb + 1))
  | _, _ => .ok (linspace 0 1 (nb + 1))

/-- Counts of `np.histogram(data, bins=edges)`. -/
noncomputable def histCounts (edges : Arr1 ℝ) (data : List ℝ) : Arr1 ℕ :=
  ⟨edges.n - 1, fun k => (data.filter (fun x => decide (binOf edges x = some k))).length⟩

/-- Densities of `np.histogram(data, bins=edges, density=True)` (all NaN when nothing is counted). -/
noncomputable def histDensity (edges : Arr1 ℝ) (data : List ℝ) : Arr1 (Option ℝ) :=
  let c := histCounts edges data
  ⟨c.n, fun k => divO (divO (some (c.get k)) (some (edges.get (k + 1) - edges.get k)))
    (some ((∑ i ∈ range c.n, c.get i : ℕ) : ℝ))⟩

namespace Spec

open Classical in
/-- The share of the values within the edges that lies in bin `k` (half-open bins, the last one closed). -/
noncomputable def share (e : Arr1 ℝ) (data : List ℝ) (k : ℕ) : ℝ :=
  (data.countP (fun x => decide (InBin e k x)) : ℝ) /
    data.countP (fun x => decide (e.get 0 ≤ x ∧ x ≤ e.get (e.n - 1)))

end Spec

/-! ### Facts -/

theorem foldl_min_le (l : List ℝ) (a : ℝ) : l.foldl min a ≤ a ∧ ∀ x ∈ l, l.foldl min a ≤ x := by
  induction l generalizing a with
  | nil => simp
  | cons y ys ih =>
    have h := ih (min a y)
    refine ⟨h.1.trans (min_le_left _ _), ?_⟩
    intro x hx
    rcases List.mem_cons.1 hx with rfl | hx
    · exact h.1.trans (min_le_right _ _)
    · exact h.2 x hx

theorem foldl_max_ge (l : List ℝ) (a : ℝ) : a ≤ l.foldl max a ∧ ∀ x ∈ l, x ≤ l.foldl max a := by
  induction l generalizing a with
  | nil => simp
  | cons y ys ih =>
    have h := ih (max a y)
    refine ⟨(le_max_left _ _).trans h.1, ?_⟩
    intro x hx
    rcases List.mem_cons.1 hx with rfl | hx
    · exact (le_max_right _ _).trans h.1
    · exact h.2 x hx

theorem minO_le {l : List ℝ} {lo : ℝ} (h : minO l = some lo) : ∀ x ∈ l, lo ≤ x := by
  cases l with
  | nil => simp
  | cons a l =>
    simp only [minO, Option.some.injEq] at h
    subst h
    intro x hx
    rcases List.mem_cons.1 hx with rfl | hx
    · exact (foldl_min_le l x).1
    · exact (foldl_min_le l a).2 x hx

theorem le_maxO {l : List ℝ} {hi : ℝ} (h : maxO l = some hi) : ∀ x ∈ l, x ≤ hi := by
  cases l with
  | nil => simp
  | cons a l =>
    simp only [maxO, Option.some.injEq] at h
    subst h
    intro x hx
    rcases List.mem_cons.1 hx with rfl | hx
    · exact (foldl_max_ge l x).1
    · exact (foldl_max_ge l a).2 x hx

/-- The automatic edges are increasing, `nb + 1` in number, and enclose the data. -/
theorem histEdges_spec {nb : ℕ} (hnb : 0 < nb) (data : List ℝ) :
    ∃ e, histEdges nb data = .ok e ∧ e.n = nb + 1 ∧ StrictEdges e ∧
      ∀ x ∈ data, e.get 0 ≤ x ∧ x ≤ e.get (e.n - 1) := by
  unfold histEdges
  rw [if_neg (by omega)]
  have hn : 2 ≤ nb + 1 := by omega
  cases data with
  | nil =>
    refine ⟨_, rfl, rfl, linspace_edges (by norm_num) hn, by simp⟩
  | cons a l =>
    have e1 : minO (a :: l) = some (l.foldl min a) := rfl
    have e2 : maxO (a :: l) = some (l.foldl max a) := rfl
    rw [e1, e2]
    simp only
    have hle : l.foldl min a ≤ l.foldl max a :=
      (foldl_min_le l a).1.trans (foldl_max_ge l a).1
    split_ifs with h
    · refine ⟨_, rfl, rfl, linspace_edges (by linarith) hn, ?_⟩
      intro x hx
      rw [linspace_first]
      have := linspace_last (l.foldl min a - 1 / 2) (l.foldl max a + 1 / 2) hn
      rw [show (linspace (l.foldl min a - 1 / 2) (l.foldl max a + 1 / 2) (nb + 1)).n - 1 = nb + 1 - 1 from rfl, this]
      have h1 := minO_le e1 x hx
      have h2 := le_maxO e2 x hx
      constructor <;> linarith
    · refine ⟨_, rfl, rfl, linspace_edges (lt_of_le_of_ne hle h) hn, ?_⟩
      intro x hx
      rw [linspace_first]
      have := linspace_last (l.foldl min a) (l.foldl max a) hn
      rw [show (linspace (l.foldl min a) (l.foldl max a) (nb + 1)).n - 1 = nb + 1 - 1 from rfl, this]
      exact ⟨minO_le e1 x hx, le_maxO e2 x hx⟩

/-- The counts add up to the number of values inside the edges. -/
theorem histCounts_sum {e : Arr1 ℝ} (he : StrictEdges e) (hn : 2 ≤ e.n) (data : List ℝ) :
    ∑ k ∈ range (histCounts e data).n, (histCounts e data).get k =
      (data.filter (fun x => decide (e.get 0 ≤ x ∧ x ≤ e.get (e.n - 1)))).length := by
  induction data with
  | nil => simp [histCounts]
  | cons x xs ih =>
    have step : ∀ k, (histCounts e (x :: xs)).get k =
        (if binOf e x = some k then 1 else 0) + (histCounts e xs).get k := by
      intro k
      simp only [histCounts, List.filter_cons]
      split_ifs with h1 h2 h2
      · simp [add_comm]
      · simp_all
      · simp_all
      · simp
    have hsz : (histCounts e (x :: xs)).n = (histCounts e xs).n := rfl
    rw [hsz]
    simp only [step]
    rw [sum_add_distrib, ih]
    by_cases hin : e.get 0 ≤ x ∧ x ≤ e.get (e.n - 1)
    · obtain ⟨k, hk⟩ := exists_inBin hn hin.1 hin.2
      have hb := (binOf_eq_some_iff he hn x k).2 hk
      rw [List.filter_cons_of_pos (by simpa using hin), List.length_cons]
      have : ∑ i ∈ range (histCounts e xs).n, (if binOf e x = some i then 1 else 0) = 1 := by
        rw [hb]
        rw [sum_eq_single k]
        · simp
        · intro b _ hne; rw [if_neg]; simpa using Ne.symm hne
        · intro hno; exfalso; apply hno; rw [mem_range]; have := hk.1; show k < e.n - 1; omega
      rw [this]; ring
    · rw [List.filter_cons_of_neg (by simpa using hin)]
      have : ∑ i ∈ range (histCounts e xs).n, (if binOf e x = some i then 1 else 0) = 0 := by
        apply sum_eq_zero
        intro i _
        rw [if_neg]
        intro hb
        apply hin
        have hk := (binOf_eq_some_iff he hn x i).1 hb
        obtain ⟨h1, h2, h3⟩ := hk
        constructor
        · rcases Nat.eq_zero_or_pos i with rfl | h
          · exact h2
          · exact (he 0 i h (by omega)).le.trans h2
        · have hle : e.get (i + 1) ≤ e.get (e.n - 1) := by
            rcases Nat.lt_or_ge (i + 1) (e.n - 1) with h | h
            · exact (he _ _ h (by omega)).le
            · have : i + 1 = e.n - 1 := by omega
              rw [this]
          rcases h3 with h | ⟨_, h⟩
          · exact h.le.trans hle
          · rw [h]; exact hle
      rw [this]; ring

theorem histCounts_total {e : Arr1 ℝ} (he : StrictEdges e) (hn : 2 ≤ e.n) (data : List ℝ)
    (hin : ∀ x ∈ data, e.get 0 ≤ x ∧ x ≤ e.get (e.n - 1)) :
    ∑ k ∈ range (histCounts e data).n, (histCounts e data).get k = data.length := by
  rw [histCounts_sum he hn, List.filter_eq_self.2]
  intro x hx
  simpa using hin x hx

/-- A density histogram with at least one counted value: all densities are non-negative and integrate
to 1. -/
theorem histDensity_spec {e : Arr1 ℝ} (he : StrictEdges e) (hn : 2 ≤ e.n) (data : List ℝ)
    (hne : ∃ x ∈ data, e.get 0 ≤ x ∧ x ≤ e.get (e.n - 1)) :
    ∃ d : ℕ → ℝ, (∀ k < e.n - 1, (histDensity e data).get k = some (d k) ∧ 0 ≤ d k) ∧
      ∑ k ∈ range (e.n - 1), d k * (e.get (k + 1) - e.get k) = 1 := by
  set T : ℝ := ((∑ i ∈ range (histCounts e data).n, (histCounts e data).get i : ℕ) : ℝ) with hT
  have hTpos : 0 < T := by
    rw [hT, histCounts_sum he hn]
    obtain ⟨x, hx, hin⟩ := hne
    have : x ∈ data.filter (fun x => decide (e.get 0 ≤ x ∧ x ≤ e.get (e.n - 1))) :=
      List.mem_filter.2 ⟨hx, by simpa using hin⟩
    exact_mod_cast List.length_pos_of_mem this
  have hw : ∀ k < e.n - 1, 0 < e.get (k + 1) - e.get k := fun k hk =>
    sub_pos.2 (he k (k + 1) (by omega) (by omega))
  refine ⟨fun k => ((histCounts e data).get k : ℝ) / (e.get (k + 1) - e.get k) / T, ?_, ?_⟩
  · intro k hk
    refine ⟨?_, div_nonneg (div_nonneg (by positivity) (hw k hk).le) hTpos.le⟩
    unfold histDensity
    simp only [divO, bind, Option.bind]
    rw [if_neg (hw k hk).ne']
    simp only
    rw [if_neg hTpos.ne']
  · have : ∀ k ∈ range (e.n - 1), ((histCounts e data).get k : ℝ) / (e.get (k + 1) - e.get k) / T *
        (e.get (k + 1) - e.get k) = ((histCounts e data).get k : ℝ) / T := by
      intro k hk
      have := (hw k (mem_range.1 hk)).ne'
      field_simp
    rw [sum_congr rfl this, ← sum_div]
    rw [div_eq_one_iff_eq hTpos.ne', hT]
    push_cast
    rfl

/-- The densities: the share of the values in the bin, divided by the width of the bin. -/
theorem histDensity_value {e : Arr1 ℝ} (he : StrictEdges e) (hn : 2 ≤ e.n) (data : List ℝ)
    (hne : ∃ x ∈ data, e.get 0 ≤ x ∧ x ≤ e.get (e.n - 1)) (k : ℕ) (hk : k < e.n - 1) :
    (histDensity e data).get k = some (Spec.share e data k / (e.get (k + 1) - e.get k)) := by
  have hw : 0 < e.get (k + 1) - e.get k := sub_pos.2 (he k (k + 1) (by omega) (by omega))
  have hT : ∑ i ∈ range (histCounts e data).n, (histCounts e data).get i =
      data.countP (fun x => decide (e.get 0 ≤ x ∧ x ≤ e.get (e.n - 1))) := by
    rw [histCounts_sum he hn, List.countP_eq_length_filter]
  have hc : (histCounts e data).get k = data.countP (fun x => @decide (InBin e k x) (Classical.propDecidable _)) := by
    rw [List.countP_eq_length_filter]
    unfold histCounts
    simp only
    congr 1
    apply List.filter_congr
    intro x _
    rw [decide_eq_decide]
    exact binOf_eq_some_iff he hn x k
  have hpos : (data.countP (fun x => decide (e.get 0 ≤ x ∧ x ≤ e.get (e.n - 1))) : ℝ) ≠ 0 := by
    obtain ⟨x, hx, hin⟩ := hne
    have : 0 < data.countP (fun x => decide (e.get 0 ≤ x ∧ x ≤ e.get (e.n - 1))) :=
      List.countP_pos_iff.2 ⟨x, hx, by simpa using hin⟩
    exact_mod_cast this.ne'
  unfold histDensity Spec.share
  simp only [hT, hc]
  simp only [divO, bind, Option.bind]
  rw [if_neg hw.ne']
  simp only
  rw [if_neg (by convert hpos)]
  congr 1
  rw [div_right_comm]

end TS
