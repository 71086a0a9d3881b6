import Verif.Model.HighMoments

/-! C64 — the histograms of the moment maps are normalised densities. -/

namespace TS
open Finset

/-- With a number of bins and at least one valid value: positions are bin centres of increasing edges
enclosing the data, densities are the shares of the values per bin width, and integrate to 1. -/
theorem C64_count (vals : List (Option ℝ)) (k : ℕ) (hk : 0 < k) (hne : validVals vals ≠ []) :
    ∃ (e : Arr1 ℝ) (d : ℕ → ℝ) (r : Arr1 ℝ × Arr1 (Option ℝ)), momentHist vals (.count k) = .ok r ∧
      e.n = k + 1 ∧ StrictEdges e ∧ (∀ x ∈ validVals vals, e.get 0 ≤ x ∧ x ≤ e.get k) ∧
      r.1.n = k ∧ r.2.n = k ∧ (∀ i < k, r.1.get i = (e.get i + e.get (i + 1)) / 2) ∧
      (∀ i < k, r.2.get i = some (d i) ∧ 0 ≤ d i ∧
        d i = Spec.share e (validVals vals) i / (e.get (i + 1) - e.get i)) ∧
      ∑ i ∈ range k, d i * (e.get (i + 1) - e.get i) = 1 := by
  obtain ⟨e, he, hn, hs, hin⟩ := histEdges_spec hk (validVals vals)
  have hlast : e.n - 1 = k := by omega
  obtain ⟨x, xs, hx⟩ := List.exists_cons_of_ne_nil hne
  obtain ⟨d, hd, hsum⟩ := histDensity_spec hs (by omega) (validVals vals)
    ⟨x, by rw [hx]; simp, hin x (by rw [hx]; simp)⟩
  have hval := histDensity_value hs (by omega) (validVals vals)
    ⟨x, by rw [hx]; simp, hin x (by rw [hx]; simp)⟩
  rw [hlast] at hd hsum hin hval
  refine ⟨e, d, (⟨e.n - 1, fun k => (e.get k + e.get (k + 1)) / 2⟩, histDensity e (validVals vals)), ?_, hn, hs, hin,
    hlast, hlast, fun _ _ => rfl, fun i hi => ⟨(hd i hi).1, (hd i hi).2,
      Option.some.inj ((hd i hi).1.symm.trans (hval i hi))⟩, hsum⟩
  unfold momentHist
  simp only [he, bind, Except.bind, pure, Except.pure]

/-- With given increasing edges (the common bins of a comparison): the same, as long as one valid value
lies within the edges. -/
theorem C64_edges (vals : List (Option ℝ)) (e : Arr1 ℝ) (hs : StrictEdges e) (hn : 2 ≤ e.n)
    (hne : ∃ x ∈ validVals vals, e.get 0 ≤ x ∧ x ≤ e.get (e.n - 1)) :
    ∃ (d : ℕ → ℝ) (r : Arr1 ℝ × Arr1 (Option ℝ)), momentHist vals (.edges e) = .ok r ∧
      r.1.n = e.n - 1 ∧ (∀ i < e.n - 1, r.1.get i = (e.get i + e.get (i + 1)) / 2) ∧
      (∀ i < e.n - 1, r.2.get i = some (d i) ∧ 0 ≤ d i ∧
        d i = Spec.share e (validVals vals) i / (e.get (i + 1) - e.get i)) ∧
      ∑ i ∈ range (e.n - 1), d i * (e.get (i + 1) - e.get i) = 1 := by
  obtain ⟨d, hd, hsum⟩ := histDensity_spec hs hn (validVals vals) hne
  have hval := histDensity_value hs hn (validVals vals) hne
  exact ⟨d, _, rfl, rfl, fun _ _ => rfl, fun i hi => ⟨(hd i hi).1, (hd i hi).2,
    Option.some.inj ((hd i hi).1.symm.trans (hval i hi))⟩, hsum⟩

/-- Non-vacuity: a map with a missing value. -/
example : validVals [some (1 : ℝ), none, some 3] ≠ [] := by simp [validVals]

end TS
