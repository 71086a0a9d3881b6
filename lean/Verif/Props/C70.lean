import Verif.Props.C69

/-! C70: limits given to a power-law fit select exactly the points inside them: fitting with
limits is the same as fitting, without limits, the curve cut down to the points inside. -/

namespace TS

namespace Spec

open Classical in
/-- The part of a lag curve inside the limits, the limits being in pixels and the lags in units of
`pix` pixels. -/
noncomputable def cutLags (pix : ℝ) (xlow xhigh : Option ℝ) (pts : List LagPt) : List LagPt :=
  pts.filter (fun p => decide (LagWithin xlow xhigh (p.lag * pix)))

open Classical in
/-- The bins of a power spectrum with frequency in `(lo, hi]`. -/
noncomputable def cutBins (lo hi : ℝ) (bins : List PsBin) : List PsBin :=
  bins.filter (fun b => decide (lo < b.freq ∧ b.freq ≤ hi))

end Spec

open Spec

private theorem lagSelect_cut (pix : ℝ) (xlow xhigh : Option ℝ) (pts : List LagPt)
    (hpos : ∀ p ∈ pts, 0 < p.lag * pix)
    (hlow : ∀ l, xlow = some l → 0 < l) (hhigh : ∀ h, xhigh = some h → 0 < h) :
    lagSelect pix xlow xhigh pts = cutLags pix xlow xhigh pts := by
  unfold lagSelect cutLags
  apply List.filter_congr
  intro p hp
  have := mem_lagSelect (pts := [p]) (hpos p hp) hlow hhigh
  unfold lagSelect at this
  rw [List.mem_filter] at this
  simp only [List.mem_singleton, true_and] at this
  by_cases hw : LagWithin xlow xhigh (p.lag * pix)
  · rw [this.2 hw]; simp [hw]
  · rw [eq_false_of_ne_true (fun h => hw (this.1 h))]; simp [hw]

private theorem lagSelect_none (scale : ℝ) (pts : List LagPt) :
    lagSelect scale none none pts = pts := by
  unfold lagSelect; simp

private theorem lagLine_cut (lsq : List (ℝ × ℝ × ℝ) → ℝ × ℝ) (wt : LagWeights)
    (pix : ℝ) (xlow xhigh : Option ℝ) (pts : List LagPt)
    (hpos : ∀ p ∈ pts, 0 < p.lag * pix)
    (hlow : ∀ l, xlow = some l → 0 < l) (hhigh : ∀ h, xhigh = some h → 0 < h) :
    lagLine lsq wt pix xlow xhigh pts = lagLine lsq wt pix none none (cutLags pix xlow xhigh pts) := by
  unfold lagLine
  rw [lagSelect_cut pix xlow xhigh pts hpos hlow hhigh, lagSelect_none]

/-- **C70 (SCF).** -/
theorem C70_scf (lsq : List (ℝ × ℝ × ℝ) → ℝ × ℝ) (pix : ℝ) (hpix : 0 < pix)
    (xlow xhigh : Option ℝ) (hlow : ∀ l, xlow = some l → 0 < l)
    (hhigh : ∀ h, xhigh = some h → 0 < h) (pts : List LagPt) (hpos : ∀ p ∈ pts, 0 < p.lag) :
    scfFitPlaw lsq pix xlow xhigh pts = scfFitPlaw lsq pix none none (cutLags pix xlow xhigh pts) := by
  have hp : ∀ p ∈ pts, 0 < p.lag * pix := fun p h => mul_pos (hpos p h) hpix
  unfold scfFitPlaw
  rw [lagSelect_none, lagSelect_cut pix xlow xhigh pts hp hlow hhigh,
    lagLine_cut lsq _ pix xlow xhigh pts hp hlow hhigh]

/-- **C70 (SCF).** Limits that leave no lag raise a ValueError. -/
theorem C70_scf_empty (lsq : List (ℝ × ℝ × ℝ) → ℝ × ℝ) (pix : ℝ) (hpix : 0 < pix)
    (xlow xhigh : Option ℝ) (hlow : ∀ l, xlow = some l → 0 < l)
    (hhigh : ∀ h, xhigh = some h → 0 < h) (pts : List LagPt) (hpos : ∀ p ∈ pts, 0 < p.lag)
    (h : ∀ p ∈ pts, ¬ LagWithin xlow xhigh (p.lag * pix)) :
    scfFitPlaw lsq pix xlow xhigh pts = .error .valueError := by
  have hp : ∀ p ∈ pts, 0 < p.lag * pix := fun p h => mul_pos (hpos p h) hpix
  have he : lagSelect pix xlow xhigh pts = [] := by
    rw [lagSelect_cut pix xlow xhigh pts hp hlow hhigh]
    unfold cutLags
    rw [List.filter_eq_nil_iff]
    intro p hp'
    simpa using h p hp'
  unfold scfFitPlaw
  rw [he]; rfl

/-- **C70 (wavelet).** -/
theorem C70_wavelet (lsq : List (ℝ × ℝ × ℝ) → ℝ × ℝ) (weighted : Bool) (pix : ℝ) (hpix : 0 < pix)
    (xlow xhigh : Option ℝ) (hlow : ∀ l, xlow = some l → 0 < l)
    (hhigh : ∀ h, xhigh = some h → 0 < h) (pts : List LagPt) (hpos : ∀ p ∈ pts, 0 < p.lag) :
    waveletFit lsq weighted pix xlow xhigh pts =
      waveletFit lsq weighted pix none none (cutLags pix xlow xhigh pts) :=
  lagLine_cut lsq _ pix xlow xhigh pts (fun p h => mul_pos (hpos p h) hpix) hlow hhigh

/-- **C70 (Delta-variance).** Missing compared with the full property: the lags must be in pixels
(`pix = 1`), see `C70_deltavar_units_violated`. -/
theorem C70_deltavar_partial (lsq : List (ℝ × ℝ × ℝ) → ℝ × ℝ)
    (xlow xhigh : Option ℝ) (hlow : ∀ l, xlow = some l → 0 < l)
    (hhigh : ∀ h, xhigh = some h → 0 < h) (pts : List LagPt) (hpos : ∀ p ∈ pts, 0 < p.lag) :
    deltavarFitPlaw lsq 1 xlow xhigh pts =
      deltavarFitPlaw lsq 1 none none (cutLags 1 xlow xhigh pts) :=
  lagLine_cut lsq _ 1 xlow xhigh pts (fun p h => by simpa using hpos p h) hlow hhigh

/-- **C70 (Delta-variance, violation).** Lags of 1, 2 and 3 arcmin at 10 pixels per arcmin: the
limits 15 to 100 pixels contain two of them, yet the fit raises because the limits in pixels are
compared with the lags in arcmin.  The same limits with the SCF fit the two lags. -/
theorem C70_deltavar_units_violated (lsq : List (ℝ × ℝ × ℝ) → ℝ × ℝ) (a b c : ℝ) (ha : 0 < a)
    (hb : 0 < b) (hc : 0 < c) :
    deltavarFitPlaw lsq 10 (some 15) (some 100)
      [⟨1, some a, some 1⟩, ⟨2, some b, some 1⟩, ⟨3, some c, some 1⟩] = .error .valueError ∧
    cutLags 10 (some 15) (some 100)
      [⟨1, some a, some 1⟩, ⟨2, some b, some 1⟩, ⟨3, some c, some 1⟩]
      = [⟨2, some b, some 1⟩, ⟨3, some c, some 1⟩] ∧
    ∃ r, scfFitPlaw lsq 10 (some 15) (some 100)
      [⟨1, some a, some 1⟩, ⟨2, some b, some 1⟩, ⟨3, some c, some 1⟩] = .ok (some r) := by
  have hcut : cutLags 10 (some 15) (some 100)
      [⟨1, some a, some 1⟩, ⟨2, some b, some 1⟩, ⟨3, some c, some 1⟩]
      = [⟨2, some b, some 1⟩, ⟨3, some c, some 1⟩] := by
    unfold cutLags LagWithin
    norm_num [List.filter]
  refine ⟨?_, hcut, ?_⟩
  · have he : lagSelect 1 (some 15) (some 100)
        [⟨1, some a, some 1⟩, ⟨2, some b, some 1⟩, ⟨3, some c, some 1⟩] = [] := by
      rw [lagSelect_cut 1 (some 15) (some 100) _ (by
        intro p hp
        simp only [List.mem_cons, List.not_mem_nil, or_false] at hp
        rcases hp with rfl | rfl | rfl <;> norm_num) (by simp) (by simp)]
      unfold cutLags LagWithin
      norm_num [List.filter]
    unfold deltavarFitPlaw lagLine
    rw [he]
    simp [lineFit, dropMissing]
  · rw [C70_scf lsq 10 (by norm_num) _ _ (by simp) (by simp) _ (by
        intro p hp
        simp only [List.mem_cons, List.not_mem_nil, or_false] at hp
        rcases hp with rfl | rfl | rfl <;> norm_num), hcut]
    refine ⟨lsq [(log10 20, log10 b, 1), (log10 30, log10 c, 1)], ?_⟩
    norm_num [scfFitPlaw, lagSelect, lagLine, lineFit, dropMissing, log10F, lagWeight, invSqF,
      FVal.isNan, FVal.isInf, FVal.val, hb.le.not_gt, hc.le.not_gt, hb.ne', hc.ne']

/-- **C70 (power spectra).** Fitting the bins of a radial profile with limits is fitting the bins
with frequency in `(lo, hi]` with any wider limits; the lower limit itself is excluded. -/
theorem C70_pspec (lsq : List (ℝ × ℝ × ℝ) → ℝ × ℝ) (weighted : Bool) (n m : ℕ) (lo hi lo' hi' : ℝ)
    (hlo : lo' ≤ lo) (hhi : hi ≤ hi') (bins : List PsBin) :
    fitPspecLine lsq weighted (some lo) (some hi) n m bins =
      fitPspecLine lsq weighted (some lo') (some hi') n m (cutBins lo hi bins) := by
  have : psPoints weighted lo hi bins = psPoints weighted lo' hi' (cutBins lo hi bins) := by
    unfold psPoints cutBins
    rw [List.filter_filter]
    congr 1
    apply List.filter_congr
    intro b _
    unfold clipFunc
    by_cases h : lo < b.freq ∧ b.freq ≤ hi
    · simp [h, lt_of_le_of_lt hlo h.1, h.2.trans hhi]
    · rw [decide_eq_false h, Bool.and_false]
      simp only [Bool.and_eq_false_iff, decide_eq_false_iff_not]
      by_contra hc
      simp only [not_or, not_not] at hc
      exact h hc
  simp only [fitPspecLine, highCutFor, lowCutFor, bind, Except.bind, this]

private theorem lagLine_empty (lsq : List (ℝ × ℝ × ℝ) → ℝ × ℝ) (wt : LagWeights) (pix : ℝ) (xlow xhigh : Option ℝ)
    (pts : List LagPt) (hpos : ∀ p ∈ pts, 0 < p.lag * pix) (hlow : ∀ l, xlow = some l → 0 < l)
    (hhigh : ∀ h, xhigh = some h → 0 < h) (h : ∀ p ∈ pts, ¬ LagWithin xlow xhigh (p.lag * pix)) :
    lagLine lsq wt pix xlow xhigh pts = .error .valueError := by
  have he : lagSelect pix xlow xhigh pts = [] := by
    rw [lagSelect_cut pix xlow xhigh pts hpos hlow hhigh]
    unfold cutLags
    rw [List.filter_eq_nil_iff]
    intro p hp'
    simpa using h p hp'
  unfold lagLine
  rw [he]; rfl

/-- **C70 (wavelet, Delta-variance).** Limits that leave no scale, or no lag in pixels, raise a ValueError. -/
theorem C70_lag_empty (lsq : List (ℝ × ℝ × ℝ) → ℝ × ℝ) (weighted : Bool) (pix : ℝ) (hpix : 0 < pix)
    (xlow xhigh : Option ℝ) (hlow : ∀ l, xlow = some l → 0 < l)
    (hhigh : ∀ h, xhigh = some h → 0 < h) (pts : List LagPt) (hpos : ∀ p ∈ pts, 0 < p.lag) :
    ((∀ p ∈ pts, ¬ LagWithin xlow xhigh (p.lag * pix)) →
      waveletFit lsq weighted pix xlow xhigh pts = .error .valueError) ∧
    ((∀ p ∈ pts, ¬ LagWithin xlow xhigh p.lag) →
      deltavarFitPlaw lsq 1 xlow xhigh pts = .error .valueError) :=
  ⟨fun h => lagLine_empty lsq _ pix xlow xhigh pts (fun p hp => mul_pos (hpos p hp) hpix) hlow hhigh h,
    fun h => lagLine_empty lsq _ 1 xlow xhigh pts (fun p hp => by simpa using hpos p hp) hlow hhigh
      (fun p hp => by simpa using h p hp)⟩

/-- **C70 (power spectra).** Limits that leave no bin raise a ValueError. -/
theorem C70_pspec_empty (lsq : List (ℝ × ℝ × ℝ) → ℝ × ℝ) (weighted : Bool) (n m : ℕ) (lo hi : ℝ)
    (bins : List PsBin) (h : ∀ b ∈ bins, ¬ (lo < b.freq ∧ b.freq ≤ hi)) :
    fitPspecLine lsq weighted (some lo) (some hi) n m bins = .error .valueError := by
  rw [C70_pspec lsq weighted n m lo hi lo hi le_rfl le_rfl]
  have he : cutBins lo hi bins = [] := by
    unfold cutBins
    rw [List.filter_eq_nil_iff]
    intro b hb
    simpa using h b hb
  rw [he]; rfl

/-- **C70 (power spectra).** The default limits: from 2 over the longest side of the
map (excluded) to the largest frequency of the profile (included). -/
theorem C70_pspec_default (lsq : List (ℝ × ℝ × ℝ) → ℝ × ℝ) (weighted : Bool) (n m : ℕ)
    (bins : List PsBin) (top : ℝ) (htop : top ∈ bins.map (·.freq))
    (hmax : ∀ b ∈ bins, b.freq ≤ top) :
    fitPspecLine lsq weighted none none n m bins =
      fitPspecLine lsq weighted (some (2 / max (n : ℝ) m)) (some top) n m bins := by
  have h1 : highCutFor none (bins.map (·.freq)) = .ok top := by
    unfold highCutFor
    refine npMax_eq htop ?_
    intro v hv
    obtain ⟨b, hb, rfl⟩ := List.mem_map.1 hv
    exact hmax b hb
  have h2 : lowCutFor none n m = 2 / max (n : ℝ) m := by
    unfold lowCutFor
    simp only
    push_cast
    rw [show (0.5 : ℝ) = 1 / 2 by norm_num]
    rw [one_div_mul_eq_div, one_div_div]
  unfold fitPspecLine
  rw [h1, h2]
  rfl

/-- Non-vacuity: two of the four bins are inside. -/
example (s : Option ℝ) : cutBins 0.1 0.3
    [⟨0.1, some 5, s⟩, ⟨0.2, some 4, s⟩, ⟨0.3, some 3, s⟩, ⟨0.4, some 2, s⟩]
    = [⟨0.2, some 4, s⟩, ⟨0.3, some 3, s⟩] := by
  unfold cutBins
  norm_num [List.filter]

end TS
