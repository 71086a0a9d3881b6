import Verif.Model.BreakFit
import Verif.Lemmas.Psds
import Mathlib.Analysis.SpecialFunctions.Pow.Deriv

/-! C71: after a power-law fit with an optional break, the reported break, break error and slopes
describe that fit: a break is reported exactly when the segmented fit found one with enough points
below it, the values are those of the fit, and nothing is left over from earlier fits. -/

namespace TS

namespace Spec

/-- The segmented fit `g` was requested, found a break, and at least `minPts` of the fitted
abscissae lie below it. -/
def BreakAccepted (x : List ℝ) (minPts : ℕ) (seg : Option SegOut) (g : SegOut) : Prop :=
  seg = some g ∧ g.found = true ∧ minPts ≤ x.countP (fun v => decide (v < g.brk))

/-- The physical dimension of a break: a spatial frequency for power spectra, a size for the
Delta-variance and the wavelet transform. -/
def breakUnit : FitKind → BrkUnit
  | .pspec => .perPix
  | .deltavar => .pix
  | .wavelet => .pix

/-- No break is accepted. -/
def NoBreak (x : List ℝ) (minPts : ℕ) (seg : Option SegOut) : Prop :=
  ¬ ∃ g, BreakAccepted x minPts seg g

end Spec

open Spec

private theorem few_iff (x : List ℝ) (b : ℝ) (n : ℕ) :
    tooFewBelow x b n = false ↔ n ≤ x.countP (fun v => decide (v < b)) := by
  unfold tooFewBelow
  rw [List.countP_eq_length_filter]
  simp

private theorem breakFit_broken {k : FitKind} {x : List ℝ} {minPts : ℕ} {seg : Option SegOut}
    {g : SegOut} (lin : LinOut) (s : FitAttrs) (h : BreakAccepted x minPts seg g) :
    breakFit k false x minPts seg lin s =
      ⟨some (some ((10 : ℝ) ^ g.brk, brkUnit k)),
       some (some (Real.log 10 * (10 : ℝ) ^ g.brk * g.brkErr, brkUnit k)),
       some g.slopes, some g.slopeErrs⟩ := by
  obtain ⟨rfl, h2, h3⟩ := h
  have := (few_iff x g.brk minPts).2 h3
  simp [breakFit, h2, this, setBroken]

/-- **C71 (break found).** An accepted break is reported as the fitted break converted from log10,
with the slopes of the segmented fit and their errors; its error is propagated through the
conversion, `d(10^b) = ln 10 · 10^b · db`.  Missing compared with the full property: the wavelet
transform, whose break has the wrong unit (see `C71_wavelet_unit_violated`). -/
theorem C71_break_partial (k : FitKind) (hk : k ≠ .wavelet) (x : List ℝ) (minPts : ℕ)
    (seg : Option SegOut) (g : SegOut)
    (lin : LinOut) (s : FitAttrs) (h : BreakAccepted x minPts seg g) :
    breakFit k false x minPts seg lin s =
      ⟨some (some ((10 : ℝ) ^ g.brk, breakUnit k)),
       some (some (Real.log 10 * (10 : ℝ) ^ g.brk * g.brkErr, breakUnit k)),
       some g.slopes, some g.slopeErrs⟩ := by
  rw [breakFit_broken lin s h]
  cases k with
  | pspec => rfl
  | deltavar => rfl
  | wavelet => exact absurd rfl hk

/-- The factor in the error is the derivative of the conversion. -/
theorem C71_conversion_derivative (b : ℝ) :
    HasDerivAt (fun t : ℝ => (10 : ℝ) ^ t) (Real.log 10 * (10 : ℝ) ^ b) b := by
  have := (hasDerivAt_id b).const_rpow (a := 10) (by norm_num)
  simpa [mul_comm] using this

/-- **C71 (wavelet unit, violation).** A wavelet break is a scale in pixels but is reported with
the unit of a frequency. -/
theorem C71_wavelet_unit_violated (x : List ℝ) (minPts : ℕ) (seg : Option SegOut) (g : SegOut)
    (lin : LinOut) (s : FitAttrs) (h : BreakAccepted x minPts seg g) :
    ∃ un, (breakFit .wavelet false x minPts seg lin s).brk = some (some ((10 : ℝ) ^ g.brk, un)) ∧
      un ≠ breakUnit .wavelet := by
  rw [breakFit_broken lin s h]
  exact ⟨.perPix, rfl, by simp [breakUnit]⟩

private theorem breakFit_line {k : FitKind} {bootstrap : Bool} {x : List ℝ} {minPts : ℕ}
    {seg : Option SegOut} (h : NoBreak x minPts seg) (lin : LinOut) (s : FitAttrs) :
    breakFit k bootstrap x minPts seg lin s =
      setLine bootstrap lin (if seg.isNone ∧ k = .pspec then { s with brkErr := some none } else s) := by
  unfold breakFit
  cases seg with
  | none => simp
  | some g =>
    simp only [Option.isNone_some, Bool.false_eq_true, false_and, if_false]
    cases hf : g.found with
    | false => simp
    | true =>
      cases ht : tooFewBelow x g.brk minPts with
      | true => simp
      | false => exact absurd ⟨g, rfl, hf, (few_iff x g.brk minPts).1 ht⟩ h

/-- **C71 (no break).** Without an accepted break, no break is reported and the slope is that of
the straight line. -/
theorem C71_line (k : FitKind) (bootstrap : Bool) (x : List ℝ) (minPts : ℕ) (seg : Option SegOut)
    (lin : LinOut) (s : FitAttrs) (h : NoBreak x minPts seg) :
    (breakFit k bootstrap x minPts seg lin s).brk = some none ∧
    (breakFit k bootstrap x minPts seg lin s).slope = some [lin.slope] ∧
    (breakFit k bootstrap x minPts seg lin s).slopeErr =
      some [if bootstrap then lin.bootErr else lin.slopeErr] := by
  rw [breakFit_line h]
  exact ⟨rfl, rfl, rfl⟩

/-- **C71 (exactly when).** A break is reported exactly when one is accepted. -/
theorem C71_break_iff (k : FitKind) (bootstrap : Bool) (x : List ℝ) (minPts : ℕ)
    (seg : Option SegOut) (lin : LinOut) (s : FitAttrs) :
    (∃ b, (breakFit k bootstrap x minPts seg lin s).brk = some (some b)) ↔
      ∃ g, BreakAccepted x minPts seg g := by
  constructor
  · rintro ⟨b, hb⟩
    by_contra hno
    rw [(C71_line k bootstrap x minPts seg lin s hno).1] at hb
    simp at hb
  · rintro ⟨g, rfl, h2, h3⟩
    have := (few_iff x g.brk minPts).2 h3
    exact ⟨((10 : ℝ) ^ g.brk, brkUnit k), by simp [breakFit, h2, this, setBroken]⟩

/-- **C71 (history).** The reported break, slopes and slope errors do not depend on what was fitted
before.  Missing compared with the full property: the break error, which does (see
`C71_stale_break_error_violated`). -/
theorem C71_history_partial (k : FitKind) (bootstrap : Bool) (x : List ℝ) (minPts : ℕ)
    (seg : Option SegOut) (lin : LinOut) (s s' : FitAttrs) :
    (breakFit k bootstrap x minPts seg lin s).brk = (breakFit k bootstrap x minPts seg lin s').brk ∧
    (breakFit k bootstrap x minPts seg lin s).slope =
      (breakFit k bootstrap x minPts seg lin s').slope ∧
    (breakFit k bootstrap x minPts seg lin s).slopeErr =
      (breakFit k bootstrap x minPts seg lin s').slopeErr := by
  by_cases h : ∃ g, BreakAccepted x minPts seg g
  · obtain ⟨g, rfl, h2, h3⟩ := h
    have := (few_iff x g.brk minPts).2 h3
    simp [breakFit, h2, this]
  · rw [breakFit_line h, breakFit_line h]
    exact ⟨rfl, rfl, rfl⟩

/-- **C71 (history).** The break error too is independent of the past when a break is accepted, and
for power spectra also when no break is requested. Missing: the other cases (`C71_stale_break_error_violated`,
`C71_no_break_error_violated`). -/
theorem C71_break_error_partial (k : FitKind) (bootstrap : Bool) (x : List ℝ) (minPts : ℕ)
    (seg : Option SegOut) (lin : LinOut) (s s' : FitAttrs)
    (h : (∃ g, BreakAccepted x minPts seg g) ∨ (k = .pspec ∧ seg = none)) :
    (breakFit k bootstrap x minPts seg lin s).brkErr =
      (breakFit k bootstrap x minPts seg lin s').brkErr := by
  rcases h with ⟨g, rfl, h2, h3⟩ | ⟨rfl, rfl⟩
  · have := (few_iff x g.brk minPts).2 h3
    simp [breakFit, h2, this]
  · simp [breakFit, setLine]

/-- **C71 (violation).** A first fit finds a break; a second fit is given a break but rejects it.
Afterwards no break is reported, yet the break error of the first fit still is — for all three
statistics. -/
theorem C71_stale_break_error_violated (k : FitKind) (x x' : List ℝ) (minPts : ℕ)
    (g g' : SegOut) (lin lin' : LinOut) (s : FitAttrs)
    (h : BreakAccepted x minPts (some g) g) (h' : NoBreak x' minPts (some g')) :
    let after := breakFit k false x' minPts (some g') lin'
      (breakFit k false x minPts (some g) lin s)
    readAttr after.brk = .ok none ∧
    ∃ un, readAttr after.brkErr = .ok (some (Real.log 10 * (10 : ℝ) ^ g.brk * g.brkErr, un)) := by
  intro after
  have h1 : after = _ := breakFit_line h' lin' _
  rw [h1, breakFit_broken lin s h]
  exact ⟨rfl, brkUnit k, rfl⟩

/-- **C71 (violation).** For the Delta-variance and wavelets the same happens when the second fit
requests no break at all, and on an object that never had one the break error cannot be read. -/
theorem C71_no_break_error_violated (k : FitKind) (hk : k ≠ .pspec) (bootstrap : Bool) (x : List ℝ)
    (minPts : ℕ) (lin : LinOut) (s : FitAttrs) :
    (breakFit k bootstrap x minPts none lin s).brkErr = s.brkErr ∧
    readAttr (breakFit k bootstrap x minPts none lin .fresh).brkErr = .error .attributeError := by
  simp [breakFit, hk, setLine, FitAttrs.fresh, readAttr]

/-- **C71 (bootstrap, violation).** With bootstrap errors the break error is made from the error of
the fourth regression coefficient (the jump at the break), and the error found for the break itself
is not used: two fits with different break errors report the same one. -/
theorem C71_bootstrap_break_error_violated (k : FitKind) (x : List ℝ) (minPts : ℕ) (g : SegOut)
    (e0 e1 e2 e3 err : ℝ) (hb : g.boot = [e0, e1, e2, e3]) (lin : LinOut) (s : FitAttrs)
    (h : BreakAccepted x minPts (some g) g) :
    ∃ un, (breakFit k true x minPts (some { g with brkErr := err }) lin s).brkErr =
      some (some (Real.log 10 * (10 : ℝ) ^ g.brk * e3, un)) := by
  obtain ⟨-, h2, h3⟩ := h
  have := (few_iff x g.brk minPts).2 h3
  refine ⟨brkUnit k, ?_⟩
  simp [breakFit, h2, this, setBroken, hb]

/-- **C71 (bootstrap).** One slope error per slope. -/
theorem C71_bootstrap_slope_errors (k : FitKind) (x : List ℝ) (minPts : ℕ) (g : SegOut)
    (e0 e1 e2 e3 : ℝ) (hb : g.boot = [e0, e1, e2, e3]) (lin : LinOut) (s : FitAttrs)
    (h : BreakAccepted x minPts (some g) g) :
    (breakFit k true x minPts (some g) lin s).slopeErr = some [e1, e2] := by
  obtain ⟨-, h2, h3⟩ := h
  have := (few_iff x g.brk minPts).2 h3
  simp [breakFit, h2, this, setBroken, hb, pySlice1m1]

/-- **C71 (requested break).** The wavelet fit refuses a starting break exactly when it lies outside
the given limits, or 1% outside the scales where a limit is missing. -/
theorem C71_wavelet_break_range (scales : List ℝ) (mn mx brk : ℝ) (xlow xhigh : Option ℝ)
    (hmn : mn ∈ scales) (hmn' : ∀ v ∈ scales, mn ≤ v) (hmx : mx ∈ scales)
    (hmx' : ∀ v ∈ scales, v ≤ mx) :
    (waveletBreakCheck scales brk xlow xhigh = .ok () ↔
      xlow.getD (0.99 * mn) ≤ brk ∧ brk ≤ xhigh.getD (1.01 * mx)) ∧
    (¬ (xlow.getD (0.99 * mn) ≤ brk ∧ brk ≤ xhigh.getD (1.01 * mx)) →
      waveletBreakCheck scales brk xlow xhigh = .error .valueError) := by
  have h1 : npMin scales = .ok mn := npMin_eq hmn hmn'
  have h2 : npMax scales = .ok mx := npMax_eq hmx hmx'
  have key : waveletBreakCheck scales brk xlow xhigh =
      if brk < xlow.getD (0.99 * mn) ∨ xhigh.getD (1.01 * mx) < brk then .error .valueError
      else .ok () := by
    unfold waveletBreakCheck
    cases xlow <;> cases xhigh <;>
      simp [h1, h2, bind, Except.bind, mul_comm]
  rw [key]
  by_cases hc : brk < xlow.getD (0.99 * mn) ∨ xhigh.getD (1.01 * mx) < brk
  · rw [if_pos hc]
    refine ⟨⟨by simp, ?_⟩, fun _ => rfl⟩
    rintro ⟨ha, hb⟩
    rcases hc with hc | hc
    · exact absurd ha (not_le.2 hc)
    · exact absurd hb (not_le.2 hc)
  · rw [if_neg hc]
    simp only [not_or, not_lt] at hc
    exact ⟨⟨fun _ => hc, fun _ => rfl⟩, fun h => absurd hc h⟩

/-- **C71 (requested break, Delta-variance).** The same for lags in pixels.  Missing compared with
the full property: angular lags (see `C71_deltavar_angular_break_violated`). -/
theorem C71_deltavar_break_range_partial (lags : List ℝ) (mn mx brk : ℝ) (xlow xhigh : Option ℝ)
    (hmn : mn ∈ lags) (hmn' : ∀ v ∈ lags, mn ≤ v) (hmx : mx ∈ lags) (hmx' : ∀ v ∈ lags, v ≤ mx) :
    (deltavarBreakCheck lags false brk xlow xhigh = .ok () ↔
      xlow.getD (0.99 * mn) ≤ brk ∧ brk ≤ xhigh.getD (1.01 * mx)) ∧
    (¬ (xlow.getD (0.99 * mn) ≤ brk ∧ brk ≤ xhigh.getD (1.01 * mx)) →
      deltavarBreakCheck lags false brk xlow xhigh = .error .valueError) := by
  have h1 : npMin lags = .ok mn := npMin_eq hmn hmn'
  have h2 : npMax lags = .ok mx := npMax_eq hmx hmx'
  have key : deltavarBreakCheck lags false brk xlow xhigh =
      if brk < xlow.getD (0.99 * mn) then .error .valueError
      else if xhigh.getD (1.01 * mx) < brk then .error .valueError
      else .ok () := by
    unfold deltavarBreakCheck
    cases xlow <;> cases xhigh <;>
      simp [h1, h2, bind, Except.bind, mul_comm]
  rw [key]
  by_cases hc : brk < xlow.getD (0.99 * mn)
  · rw [if_pos hc]
    exact ⟨⟨by simp, fun ⟨ha, _⟩ => absurd ha (not_le.2 hc)⟩, fun _ => rfl⟩
  · rw [if_neg hc]
    by_cases hd : xhigh.getD (1.01 * mx) < brk
    · rw [if_pos hd]
      exact ⟨⟨by simp, fun ⟨_, ha⟩ => absurd ha (not_le.2 hd)⟩, fun _ => rfl⟩
    · rw [if_neg hd]
      exact ⟨⟨fun _ => ⟨not_lt.1 hc, not_lt.1 hd⟩, fun _ => rfl⟩,
        fun h => absurd ⟨not_lt.1 hc, not_lt.1 hd⟩ h⟩

/-- **C71 (violation).** With lags in angular units and no lower limit, requesting any break raises
a unit error, wherever the break is. -/
theorem C71_deltavar_angular_break_violated (lags : List ℝ) (hne : lags ≠ []) (brk : ℝ)
    (xhigh : Option ℝ) :
    deltavarBreakCheck lags true brk none xhigh = .error .unitConversionError := by
  obtain ⟨mn, h1⟩ : ∃ z, npMin lags = .ok z := by
    obtain ⟨v, t, rfl⟩ := List.exists_cons_of_ne_nil hne
    exact ⟨_, rfl⟩
  obtain ⟨mx, h2⟩ : ∃ z, npMax lags = .ok z := by
    obtain ⟨v, t, rfl⟩ := List.exists_cons_of_ne_nil hne
    exact ⟨_, rfl⟩
  unfold deltavarBreakCheck
  cases xhigh <;> simp [h1, h2, bind, Except.bind]

/-- Non-vacuity: a break at 1.5 with three of five points below it is accepted, one with two is
not. -/
example : BreakAccepted [0, 0.5, 1, 2, 3] 3 (some ⟨true, 1.5, [1, 2], [0, 0], 0.1, []⟩)
      ⟨true, 1.5, [1, 2], [0, 0], 0.1, []⟩ ∧
    NoBreak [0, 0.5, 1, 2, 3] 3 (some ⟨true, 0.7, [1, 2], [0, 0], 0.1, []⟩) := by
  constructor
  · refine ⟨rfl, rfl, ?_⟩
    norm_num [List.countP_cons]
  · rintro ⟨g, hg, -, h3⟩
    cases hg
    norm_num [List.countP_cons] at h3

end TS
