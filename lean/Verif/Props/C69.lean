import Verif.Lemmas.PlawFit
import Verif.Lemmas.PSpec
import Verif.Props.C02

/-! C69 — power-law fits: an exact power law gives exactly its index, and the index does not depend
on the brightness scale, the position of the image or the unit of length. -/

namespace TS
open Spec

namespace Spec

/-- The frequency range fitted: above `lo` (default two cycles across the longer side), up to `hi`
(default the highest frequency present). -/
def FitRange (low high : Option ℝ) (n m : ℕ) (freqs : Set ℝ) (lo hi : ℝ) : Prop :=
  lo = low.getD (2 / ((max n m : ℕ) : ℝ)) ∧
    match high with
    | some h => hi = h
    | none => IsGreatest freqs hi

/-- A lag lies between the limits that were given. -/
def LagWithin (xlow xhigh : Option ℝ) (lag : ℝ) : Prop :=
  (∀ l, xlow = some l → l ≤ lag) ∧ (∀ h, xhigh = some h → lag ≤ h)

end Spec

private theorem lowCut_eq (low : Option ℝ) (n m : ℕ) :
    lowCutFor low n m = low.getD (2 / ((max n m : ℕ) : ℝ)) := by
  cases low with
  | some l => rfl
  | none =>
    simp only [lowCutFor, Option.getD_none]
    rw [show (0.5 : ℝ) = 1 / 2 by norm_num, one_div_mul_eq_div, one_div_div]

private theorem highCut_eq {high : Option ℝ} {freqs : List ℝ} {lo hi : ℝ} {low : Option ℝ} {n m : ℕ}
    (h : FitRange low high n m {f | f ∈ freqs} lo hi) : highCutFor high freqs = .ok hi := by
  cases high with
  | some v => simp only [FitRange] at h; rw [h.2]; rfl
  | none =>
    simp only [FitRange] at h
    exact npMax_eq h.2.1 (fun y hy => h.2.2 hy)

private theorem clip_iff {lo hi f : ℝ} : clipFunc lo hi (some f) = true ↔ lo < f ∧ f ≤ hi := by
  simp [clipFunc]

private theorem psWeight_pos {weighted : Bool} {b : PsBin} {p : ℝ} (hp : b.power = some p)
    (hp0 : 0 < p) (h : psWeight weighted b ≠ .nan) : ∃ w, 0 < w ∧ psWeight weighted b = .fin w := by
  unfold psWeight at h ⊢
  cases weighted with
  | false => exact ⟨1, one_pos, rfl⟩
  | true =>
    simp only [if_true] at h ⊢
    rw [hp] at h ⊢
    cases hs : b.std with
    | none => rw [hs] at h; simp at h
    | some s =>
      rw [hs] at h
      simp only at h ⊢
      by_cases h0 : s = 0
      · simp [h0] at h
      · rw [if_neg h0, if_neg hp0.ne']
        have hne : 0.434 * s / p ≠ 0 := div_ne_zero (mul_ne_zero (by norm_num) h0) hp0.ne'
        refine ⟨1 / (0.434 * s / p) ^ 2, by positivity, ?_⟩
        simp [invSqF, hne]

private theorem psPoints_exact {lsq : List (ℝ × ℝ × ℝ) → ℝ × ℝ} (hl : LeastSquares lsq)
    (weighted : Bool) (lo hi A β : ℝ) (hA : 0 < A) (hlo : 0 ≤ lo) (bins : List PsBin)
    (hlaw : ∀ b ∈ bins, lo < b.freq → b.freq ≤ hi →
      b.power = none ∨ b.power = some (A * b.freq ^ β))
    (b c : PsBin) (hb : b ∈ bins) (hc : c ∈ bins)
    (hb1 : lo < b.freq ∧ b.freq ≤ hi) (hc1 : lo < c.freq ∧ c.freq ≤ hi)
    (hb2 : b.power ≠ none) (hc2 : c.power ≠ none)
    (hb3 : weighted = true → ∃ s, s ≠ 0 ∧ b.std = some s)
    (hc3 : weighted = true → ∃ s, s ≠ 0 ∧ c.std = some s)
    (hne : b.freq ≠ c.freq) :
    lineFit lsq (psPoints weighted lo hi bins) = .ok (some (log10 A, β)) := by
  have hmk : ∀ d ∈ bins, lo < d.freq ∧ d.freq ≤ hi →
      (⟨log10F (some d.freq), log10F d.power, psWeight weighted d⟩ : FitPt) ∈
        psPoints weighted lo hi bins := by
    intro d hd h1
    unfold psPoints
    exact List.mem_map.2 ⟨d, List.mem_filter.2 ⟨hd, clip_iff.2 h1⟩, rfl⟩
  have hgood : ∀ d ∈ bins, (lo < d.freq ∧ d.freq ≤ hi) → d.power ≠ none →
      (weighted = true → ∃ s, s ≠ 0 ∧ d.std = some s) →
      ¬ (⟨log10F (some d.freq), log10F d.power, psWeight weighted d⟩ : FitPt).missing := by
    intro d hd h1 h2 h3
    have hf : 0 < d.freq := lt_of_le_of_lt hlo h1.1
    have hp := (hlaw d hd h1.1 h1.2).resolve_left h2
    have hpos : 0 < A * d.freq ^ β := mul_pos hA (Real.rpow_pos_of_pos hf β)
    unfold FitPt.missing
    rw [log10F_pos hf, hp, log10F_pos hpos]
    simp only [reduceCtorEq, false_or]
    unfold psWeight
    cases weighted with
    | false => simp
    | true =>
      obtain ⟨s, hs, he⟩ := h3 rfl
      simp only [if_true]
      rw [he, hp]
      have hne' : 0.434 * s / (A * d.freq ^ β) ≠ 0 :=
        div_ne_zero (mul_ne_zero (by norm_num) hs) hpos.ne'
      simp only
      rw [if_neg hs, if_neg hpos.ne']
      simp [invSqF, hne']
  refine lineFit_exact hl _ (log10 A, β) ?_ (hmk b hb hb1) (hmk c hc hc1)
    (hgood b hb hb1 hb2 hb3) (hgood c hc hc1 hc2 hc3) ?_
  · intro q hq
    unfold psPoints at hq
    obtain ⟨d, hd, rfl⟩ := List.mem_map.1 hq
    obtain ⟨hd, hclip⟩ := List.mem_filter.1 hd
    rw [clip_iff] at hclip
    have hf : 0 < d.freq := lt_of_le_of_lt hlo hclip.1
    rcases hlaw d hd hclip.1 hclip.2 with hp | hp
    · left; right; left; rw [hp]; rfl
    · by_cases hw : psWeight weighted d = .nan
      · left; right; right; exact hw
      · right
        have hpos : 0 < A * d.freq ^ β := mul_pos hA (Real.rpow_pos_of_pos hf β)
        obtain ⟨w, hw0, hw1⟩ := psWeight_pos hp hpos hw
        refine ⟨log10 d.freq, w, hw0, ?_⟩
        unfold FitPt.usable
        rw [log10F_pos hf, hp, log10F_pos hpos, hw1, log10_rpow hA hf]
  · have hfb : 0 < b.freq := lt_of_le_of_lt hlo hb1.1
    have hfc : 0 < c.freq := lt_of_le_of_lt hlo hc1.1
    simp only
    rw [log10F_pos hfb, log10F_pos hfc]
    intro h
    exact hne (log10_inj hfb hfc (by simpa using h))

/-- **C69 (1D power spectrum).** If every fitted bin of a power spectrum lies on `A f^β` (bins
without a value and, in a weighted fit, without a spread are ignored), the fitted slope is `β` and
the intercept `log10 A`, for weighted and unweighted fits and any limits. -/
theorem C69_pspec (lsq : List (ℝ × ℝ × ℝ) → ℝ × ℝ) (hl : LeastSquares lsq) (weighted : Bool)
    (low high : Option ℝ) (n m : ℕ) (bins : List PsBin) (lo hi : ℝ)
    (hr : FitRange low high n m {f | f ∈ bins.map (·.freq)} lo hi) (hlo : 0 ≤ lo)
    (A β : ℝ) (hA : 0 < A)
    (hlaw : ∀ b ∈ bins, lo < b.freq → b.freq ≤ hi →
      b.power = none ∨ b.power = some (A * b.freq ^ β))
    (b c : PsBin) (hb : b ∈ bins) (hc : c ∈ bins)
    (hb1 : lo < b.freq ∧ b.freq ≤ hi) (hc1 : lo < c.freq ∧ c.freq ≤ hi)
    (hb2 : b.power ≠ none) (hc2 : c.power ≠ none)
    (hb3 : weighted = true → ∃ s, s ≠ 0 ∧ b.std = some s)
    (hc3 : weighted = true → ∃ s, s ≠ 0 ∧ c.std = some s)
    (hne : b.freq ≠ c.freq) :
    fitPspecLine lsq weighted low high n m bins = .ok (some (log10 A, β)) := by
  unfold fitPspecLine
  rw [highCut_eq hr]
  simp only [bind, Except.bind]
  rw [lowCut_eq, ← hr.1]
  exact psPoints_exact hl weighted lo hi A β hA hlo bins hlaw b c hb hc hb1 hc1 hb2 hc2 hb3 hc3 hne

/-- Non-vacuity: three bins on `4 f^(-3)`, the first below the cut and off the law, the regression
being the closed-form one. -/
example : fitPspecLine lsqFormula true (some 0.1) none 10 10
    [⟨0.05, some 7, none⟩, ⟨0.2, some (4 * 0.2 ^ (-3 : ℝ)), some 1⟩,
     ⟨0.3, none, some 2⟩, ⟨0.4, some (4 * 0.4 ^ (-3 : ℝ)), some 3⟩]
    = .ok (some (log10 4, -3)) := by
  refine C69_pspec lsqFormula lsqFormula_leastSquares true (some 0.1) none 10 10 _ 0.1 0.4
    ⟨rfl, ?_⟩ (by norm_num) 4 (-3) (by norm_num) ?_
    ⟨0.2, some (4 * 0.2 ^ (-3 : ℝ)), some 1⟩ ⟨0.4, some (4 * 0.4 ^ (-3 : ℝ)), some 3⟩
    (by simp) (by simp) (by norm_num) (by norm_num) (by simp) (by simp)
    (fun _ => ⟨1, one_ne_zero, rfl⟩) (fun _ => ⟨3, three_ne_zero, rfl⟩) (by norm_num)
  · constructor
    · simp
    · intro f hf
      simp at hf
      rcases hf with rfl | rfl | rfl | rfl <;> norm_num
  · intro b hb h1 h2
    simp only [List.mem_cons, List.not_mem_nil, or_false] at hb
    rcases hb with rfl | rfl | rfl | rfl
    · norm_num at h1
    · right; rfl
    · left; rfl
    · right; rfl

private theorem mem_unbinned {ps : Arr2 (Option ℝ)} {b : PsBin} :
    b ∈ unbinnedBins ps ↔ ∃ i < ps.n, ∃ j < ps.m,
      b = ⟨Real.sqrt (((rowFreq ps.n i : ℝ) / ps.n) ^ 2 + ((colFreq ps.m j : ℝ) / ps.m) ^ 2),
        ps.get i j, none⟩ := by
  unfold unbinnedBins
  simp only [List.mem_flatMap, List.mem_range, List.mem_map]
  constructor
  · rintro ⟨i, hi, j, hj, rfl⟩
    refine ⟨i, hi, j, hj, ?_⟩
    simp only [hypotArr]
    rw [freqArrays_fst hi, freqArrays_snd hj]
  · rintro ⟨i, hi, j, hj, rfl⟩
    refine ⟨i, hi, j, hj, ?_⟩
    simp only [hypotArr]
    rw [freqArrays_fst hi, freqArrays_snd hj]

/-- Radius of an integer Fourier mode in cycles per pixel. -/
noncomputable def Spec.modeFreq (n m : ℕ) (k l : ℤ) : ℝ :=
  Real.sqrt (((k : ℝ) / n) ^ 2 + ((l : ℝ) / m) ^ 2)

/-- The integer modes of an `n × m` image: one period, centred. -/
def Spec.IsMode (n m : ℕ) (k l : ℤ) : Prop :=
  -((n / 2 : ℕ) : ℤ) ≤ k ∧ k < (n : ℤ) - (n / 2 : ℕ) ∧
    -((m / 2 : ℕ) : ℤ) ≤ l ∧ l < (m : ℤ) - (m / 2 : ℕ)

private theorem mode_pixel {n m : ℕ} {k l : ℤ} (h : IsMode n m k l) :
    ∃ i < n, ∃ j < m, rowFreq n i = k ∧ colFreq m j = l := by
  obtain ⟨h1, h2, h3, h4⟩ := h
  refine ⟨((n : ℤ) - 1 - (n / 2 : ℕ) - k).toNat, by omega, (l + (m / 2 : ℕ)).toNat, by omega, ?_, ?_⟩
  · simp only [rowFreq]; omega
  · simp only [colFreq]; omega

private theorem pixel_mode {n m i j : ℕ} (hi : i < n) (hj : j < m) :
    IsMode n m (rowFreq n i) (colFreq m j) := by
  unfold IsMode rowFreq colFreq
  omega

private theorem ps2D_mode {img ps : Arr2 ℝ} (hn : 0 < img.n) (hm : 0 < img.m)
    (h : computePspec img none = .ok ps) :
    ps.n = img.n ∧ ps.m = img.m ∧ ∀ i < img.n, ∀ j < img.m,
      ((ps2DProperty ps).map some).get i j = some (power2 img (rowFreq img.n i) (colFreq img.m j)) := by
  obtain ⟨q, hq, e1, e2, e3⟩ := computePspec_none img hn hm
  rw [h] at hq; cases hq
  refine ⟨e1, e2, ?_⟩
  intro i hi j hj
  simp only [ps2DProperty, Arr2.slice0, Arr2.map, e1, resolve_full_rev, rev_ix hi]
  rw [e3 _ (by omega) j hj]
  congr 2
  simp only [rowFreq]; omega

private theorem ps2D_shape {ps : Arr2 ℝ} : ((ps2DProperty ps).map some).n = ps.n ∧
    ((ps2DProperty ps).map some).m = ps.m := by
  simp [ps2DProperty, Arr2.slice0, Arr2.map, resolve_full_rev]

/-- **C69 (image).** If the Fourier power of an image is exactly `A f^β` at every mode in the fitted
range, the unbinned fit returns slope `β` and intercept `log10 A`. -/
theorem C69_unbinned (lsq : List (ℝ × ℝ × ℝ) → ℝ × ℝ) (hl : LeastSquares lsq)
    (low high : Option ℝ) (img ps : Arr2 ℝ) (hn : 0 < img.n) (hm : 0 < img.m)
    (hps : computePspec img none = .ok ps) (lo hi : ℝ)
    (hr : FitRange low high img.n img.m
      {f | ∃ k l, IsMode img.n img.m k l ∧ f = modeFreq img.n img.m k l} lo hi) (hlo : 0 ≤ lo)
    (A β : ℝ) (hA : 0 < A)
    (hlaw : ∀ k l, IsMode img.n img.m k l → lo < modeFreq img.n img.m k l →
      modeFreq img.n img.m k l ≤ hi → power2 img k l = A * modeFreq img.n img.m k l ^ β)
    (k l k' l' : ℤ) (h1 : IsMode img.n img.m k l) (h2 : IsMode img.n img.m k' l')
    (h3 : lo < modeFreq img.n img.m k l ∧ modeFreq img.n img.m k l ≤ hi)
    (h4 : lo < modeFreq img.n img.m k' l' ∧ modeFreq img.n img.m k' l' ≤ hi)
    (hne : modeFreq img.n img.m k l ≠ modeFreq img.n img.m k' l') :
    fitPspecUnbinned lsq false low high ((ps2DProperty ps).map some) = .ok (some (log10 A, β)) := by
  obtain ⟨en, em, eg⟩ := ps2D_mode hn hm hps
  obtain ⟨sn, sm⟩ := ps2D_shape (ps := ps)
  rw [en] at sn; rw [em] at sm
  set P := (ps2DProperty ps).map some with hP
  have hset : {f | f ∈ (unbinnedBins P).map (·.freq)} =
      {f | ∃ k l, IsMode img.n img.m k l ∧ f = modeFreq img.n img.m k l} := by
    ext f
    simp only [Set.mem_setOf_eq, List.mem_map]
    constructor
    · rintro ⟨b, hb, rfl⟩
      obtain ⟨i, hi', j, hj, rfl⟩ := mem_unbinned.1 hb
      rw [sn] at hi'; rw [sm] at hj
      exact ⟨_, _, pixel_mode hi' hj, by rw [sn, sm]; rfl⟩
    · rintro ⟨k, l, hm', rfl⟩
      obtain ⟨i, hi', j, hj, e1, e2⟩ := mode_pixel hm'
      refine ⟨_, mem_unbinned.2 ⟨i, by rw [sn]; exact hi', j, by rw [sm]; exact hj, rfl⟩, ?_⟩
      simp only
      rw [sn, sm, e1, e2]; rfl
  have hbin : ∀ k l, IsMode img.n img.m k l →
      (⟨modeFreq img.n img.m k l, some (power2 img k l), none⟩ : PsBin) ∈ unbinnedBins P := by
    intro k l hm'
    obtain ⟨i, hi', j, hj, e1, e2⟩ := mode_pixel hm'
    refine mem_unbinned.2 ⟨i, by rw [sn]; exact hi', j, by rw [sm]; exact hj, ?_⟩
    rw [eg i hi' j hj, sn, sm, e1, e2]; rfl
  unfold fitPspecUnbinned
  simp only
  rw [← hset] at hr
  rw [highCut_eq hr]
  simp only [bind, Except.bind, Bool.false_eq_true, if_false]
  rw [lowCut_eq, sn, sm, ← hr.1]
  refine psPoints_exact hl false lo hi A β hA hlo _ ?_ _ _ (hbin k l h1) (hbin k' l' h2) h3 h4
    (by simp) (by simp) (by simp) (by simp) hne
  intro b hb hb1 hb2
  obtain ⟨i, hi', j, hj, rfl⟩ := mem_unbinned.1 hb
  rw [sn] at hi'; rw [sm] at hj
  right
  simp only at hb1 hb2 ⊢
  rw [sn, sm] at hb1 hb2 ⊢
  rw [eg i hi' j hj, hlaw _ _ (pixel_mode hi' hj) hb1 hb2]
  rfl

/-! ### Invariance -/

/-- A bin with its power multiplied. -/
private def PsBin.scale (k : ℝ) (b : PsBin) : PsBin := { b with power := b.power.map (fun x => k * x) }

theorem log10F_scale {k : ℝ} (hk : 0 < k) (v : Option ℝ) :
    log10F (v.map (fun x => k * x)) = (log10F v).shift (log10 k) := by
  cases v with
  | none => rfl
  | some v =>
    simp only [Option.map_some, log10F]
    rcases lt_trichotomy v 0 with h | h | h
    · simp [h, mul_neg_of_pos_of_neg hk h, FVal.shift]
    · subst h; simp [FVal.shift]
    · have := mul_pos hk h
      simp only [not_lt.2 h.le, not_lt.2 this.le, h.ne', this.ne', if_false, FVal.shift]
      rw [log10_mul hk h, add_comm]

private theorem psPoints_scale {k : ℝ} (hk : 0 < k) (lo hi : ℝ) (bins : List PsBin) :
    psPoints false lo hi (bins.map (PsBin.scale k)) =
      (psPoints false lo hi bins).map (FitPt.shift 0 (log10 k)) := by
  unfold psPoints
  rw [List.filter_map, List.map_map, List.map_map]
  have : ((fun b : PsBin => clipFunc lo hi (some b.freq)) ∘ PsBin.scale k) =
      fun b => clipFunc lo hi (some b.freq) := rfl
  rw [this]
  apply List.map_congr_left
  intro b _
  simp only [Function.comp, FitPt.shift, PsBin.scale, psWeight, Bool.false_eq_true, if_false]
  rw [log10F_scale hk]
  congr 1
  cases log10F (some b.freq) <;> simp [FVal.shift]

private theorem psPoints_fit_scale {lsq : List (ℝ × ℝ × ℝ) → ℝ × ℝ} (hl : LeastSquares lsq)
    {k : ℝ} (hk : 0 < k) (lo hi : ℝ) (bins : List PsBin)
    (b c : PsBin) (hb : b ∈ bins) (hc : c ∈ bins)
    (hb1 : lo < b.freq ∧ b.freq ≤ hi) (hc1 : lo < c.freq ∧ c.freq ≤ hi)
    (hb0 : 0 < b.freq) (hc0 : 0 < c.freq)
    (hb2 : ∃ p, 0 < p ∧ b.power = some p) (hc2 : ∃ p, 0 < p ∧ c.power = some p)
    (hne : b.freq ≠ c.freq) :
    lineFit lsq (psPoints false lo hi (bins.map (PsBin.scale k))) =
      (lineFit lsq (psPoints false lo hi bins)).map (Option.map (fun p => (p.1 + log10 k, p.2))) := by
  rw [psPoints_scale hk]
  obtain ⟨p, hp0, hp⟩ := hb2
  obtain ⟨p', hp0', hp'⟩ := hc2
  have hmk : ∀ d ∈ bins, lo < d.freq ∧ d.freq ≤ hi →
      (⟨log10F (some d.freq), log10F d.power, psWeight false d⟩ : FitPt) ∈
        psPoints false lo hi bins := by
    intro d hd h1
    unfold psPoints
    exact List.mem_map.2 ⟨d, List.mem_filter.2 ⟨hd, clip_iff.2 h1⟩, rfl⟩
  have := lineFit_shift hl (psPoints false lo hi bins) 0 (log10 k) ?_ (hmk b hb hb1) (hmk c hc hc1)
    (x := log10 b.freq) (y := log10 p) (w := 1) (x' := log10 c.freq) (y' := log10 p') (w' := 1)
    (by unfold FitPt.usable; rw [log10F_pos hb0, hp, log10F_pos hp0]; rfl)
    (by unfold FitPt.usable; rw [log10F_pos hc0, hp', log10F_pos hp0']; rfl)
    one_pos one_pos (fun h => hne (log10_inj hb0 hc0 h))
  · rw [this]
    simp
  · intro q hq w hw
    unfold psPoints at hq
    obtain ⟨d, _, rfl⟩ := List.mem_map.1 hq
    simp only [psWeight, Bool.false_eq_true, if_false, FVal.fin.injEq] at hw
    rw [← hw]; exact zero_le_one

private theorem samples_scale {ps ps' : Arr2 (Option ℝ)} {k : ℝ} (hn : ps'.n = ps.n)
    (hm : ps'.m = ps.m)
    (h : ∀ i < ps.n, ∀ j < ps.m, ps'.get i j = (ps.get i j).map (fun x => k * x))
    (dist : Arr2 ℝ) (mask : Option (Arr2 Bool)) :
    pspecSamples ps' dist mask = (pspecSamples ps dist mask).map (fun s => (s.1, k * s.2)) := by
  unfold pspecSamples
  rw [hn, hm, List.map_flatMap]
  apply List.flatMap_congr
  intro i hi
  rw [List.map_filterMap]
  apply List.filterMap_congr
  intro j hj
  rw [h i (List.mem_range.1 hi) j (List.mem_range.1 hj)]
  cases ps.get i j with
  | none => rfl
  | some v =>
    cases mask with
    | none => rfl
    | some a =>
      simp only [Option.map_some]
      split_ifs <;> rfl

private theorem npMean_scale (k : ℝ) (l : List ℝ) :
    npMean (l.map (fun x => k * x)) = (npMean l).map (fun x => k * x) := by
  unfold npMean
  rw [List.length_map]
  split_ifs with h
  · rfl
  · rw [Option.map_some, List.sum_map_mul_left]
    simp [mul_div_assoc]

private theorem binned_scale {β : Type*} (samples : List (ℝ × ℝ)) (edges : Arr1 ℝ) (k : ℝ)
    (f : List ℝ → β) (i : ℕ) :
    (binnedStatistic (samples.map (fun s => (s.1, k * s.2))) edges f).get i =
      (binnedStatistic samples edges (fun l => f (l.map (fun x => k * x)))).get i := by
  simp only [binnedStatistic]
  rw [List.filter_map, List.map_map, List.map_map]
  rfl

private theorem radialBins_scale {ps ps' : Arr2 (Option ℝ)} {k : ℝ} (hn : ps'.n = ps.n)
    (hm : ps'.m = ps.m)
    (h : ∀ i < ps.n, ∀ j < ps.m, ps'.get i j = (ps.get i j).map (fun x => k * x)) (a : PspecArgs) :
    radialBins ps' a = (radialBins ps a).map (List.map (PsBin.scale k)) := by
  have key : ∀ d az e, (List.range (pspecOutput ps' d az e true).binCents.n).map
      (fun i => (⟨(pspecOutput ps' d az e true).binCents.get i,
        (pspecOutput ps' d az e true).ps1D.get i, none⟩ : PsBin)) =
      ((List.range (pspecOutput ps d az e true).binCents.n).map
      (fun i => (⟨(pspecOutput ps d az e true).binCents.get i,
        (pspecOutput ps d az e true).ps1D.get i, none⟩ : PsBin))).map (PsBin.scale k) := by
    intro d az e
    unfold pspecOutput
    simp only [if_true]
    rw [samples_scale hn hm h, List.map_map]
    apply List.map_congr_left
    intro i _
    simp only [Function.comp, PsBin.scale]
    rw [binned_scale, binned_scale]
    congr 1
    simp only [binnedStatistic, List.length_map, npMean_scale]
    split_ifs <;> rfl
  unfold radialBins pspecFn
  simp only [hn, hm]
  cases pspecAzim ps.n ps.m a.theta0 a.deltaTheta with
  | error e => rfl
  | ok az =>
    simp only [bind, Except.bind]
    cases pspecNbins a.nbins (pspecDists ps.n ps.m) a.binsize with
    | error e => rfl
    | ok nb =>
      simp only
      cases hrf : a.returnFreqs with
      | true =>
        simp only [if_true]
        cases freqDist ps.n ps.m with
        | error e => rfl
        | ok d =>
          simp only
          cases pspecMaxBin a.maxBin true (pspecDists ps.n ps.m) with
          | error e => rfl
          | ok mb =>
            simp only [pure, Except.pure, Except.map]
            rw [key]
      | false =>
        simp only [Bool.false_eq_true, if_false]
        cases pspecMaxBin a.maxBin false (pspecDists ps.n ps.m) with
        | error e => rfl
        | ok mb =>
          simp only [pure, Except.pure, Except.map]
          rw [key]

private theorem unbinnedBins_scale {ps ps' : Arr2 (Option ℝ)} {k : ℝ} (hn : ps'.n = ps.n)
    (hm : ps'.m = ps.m)
    (h : ∀ i < ps.n, ∀ j < ps.m, ps'.get i j = (ps.get i j).map (fun x => k * x)) :
    unbinnedBins ps' = (unbinnedBins ps).map (PsBin.scale k) := by
  unfold unbinnedBins
  rw [hn, hm]
  simp only
  rw [List.map_flatMap]
  apply List.flatMap_congr
  intro i hi
  rw [List.map_map]
  apply List.map_congr_left
  intro j hj
  simp only [Function.comp, PsBin.scale]
  rw [h i (List.mem_range.1 hi) j (List.mem_range.1 hj)]

/-- Two images of the same size whose powers are proportional at every mode. -/
private theorem run_scale (lsq : List (ℝ × ℝ × ℝ) → ℝ × ℝ) (hl : LeastSquares lsq)
    (a : PspecArgs) (unbinned : Bool) (low high : Option ℝ) (img img' ps : Arr2 ℝ) (k : ℝ) (hk : 0 < k)
    (hn : 0 < img.n) (hm : 0 < img.m) (en : img'.n = img.n) (em : img'.m = img.m)
    (hpow : ∀ u v, power2 img' u v = k * power2 img u v)
    (hps : computePspec img none = .ok ps)
    (bins : List PsBin) (hbins : (if unbinned then .ok (unbinnedBins ((ps2DProperty ps).map some))
      else radialBins ((ps2DProperty ps).map some) a) = .ok bins) (lo hi : ℝ)
    (hr : FitRange low high img.n img.m {f | f ∈ bins.map (·.freq)} lo hi)
    (b c : PsBin) (hb : b ∈ bins) (hc : c ∈ bins)
    (hb1 : lo < b.freq ∧ b.freq ≤ hi) (hc1 : lo < c.freq ∧ c.freq ≤ hi)
    (hb0 : 0 < b.freq) (hc0 : 0 < c.freq)
    (hb2 : ∃ p, 0 < p ∧ b.power = some p) (hc2 : ∃ p, 0 < p ∧ c.power = some p)
    (hne : b.freq ≠ c.freq) :
    powerSpectrumRun lsq none a unbinned low high img' =
      (powerSpectrumRun lsq none a unbinned low high img).map
        (Option.map (fun p => (p.1 + log10 k, p.2))) := by
  obtain ⟨ps', hps', -⟩ := computePspec_none img' (by omega) (by omega)
  obtain ⟨s1, s2, s3⟩ := ps2D_mode hn hm hps
  obtain ⟨t1, t2, t3⟩ := ps2D_mode (by omega) (by omega) hps'
  obtain ⟨u1, u2⟩ := ps2D_shape (ps := ps)
  obtain ⟨v1, v2⟩ := ps2D_shape (ps := ps')
  have hN : ((ps2DProperty ps').map some).n = ((ps2DProperty ps).map some).n := by
    rw [v1, u1, t1, s1, en]
  have hM : ((ps2DProperty ps').map some).m = ((ps2DProperty ps).map some).m := by
    rw [v2, u2, t2, s2, em]
  have hG : ∀ i < ((ps2DProperty ps).map some).n, ∀ j < ((ps2DProperty ps).map some).m,
      ((ps2DProperty ps').map some).get i j =
        (((ps2DProperty ps).map some).get i j).map (fun x => k * x) := by
    intro i hi j hj
    rw [u1, s1] at hi
    rw [u2, s2] at hj
    rw [s3 i hi j hj, t3 i (by omega) j (by omega), hpow, en, em]
    rfl
  have eN : ((ps2DProperty ps).map some).n = img.n := by rw [u1, s1]
  have eM : ((ps2DProperty ps).map some).m = img.m := by rw [u2, s2]
  have hfr : (bins.map (PsBin.scale k)).map (·.freq) = bins.map (·.freq) := by
    rw [List.map_map]; rfl
  unfold powerSpectrumRun
  rw [hps, hps']
  simp only [bind, Except.bind]
  rw [radialBins_scale hN hM hG]
  cases unbinned with
  | false =>
    simp only [Bool.false_eq_true, if_false] at hbins ⊢
    rw [hbins]
    simp only [Except.map]
    unfold fitPspecLine
    rw [hN, hM, hfr, highCut_eq hr]
    simp only [bind, Except.bind]
    rw [eN, eM, lowCut_eq, ← hr.1]
    exact psPoints_fit_scale hl hk lo hi bins b c hb hc hb1 hc1 hb0 hc0 hb2 hc2 hne
  | true =>
    simp only [if_true, Except.ok.injEq] at hbins ⊢
    cases radialBins ((ps2DProperty ps).map some) a with
    | error e => rfl
    | ok rb =>
      simp only [Except.map]
      unfold fitPspecUnbinned
      simp only
      rw [unbinnedBins_scale hN hM hG, hbins, hfr, highCut_eq hr]
      simp only [bind, Except.bind, Bool.false_eq_true, if_false]
      rw [hN, hM, eN, eM, lowCut_eq, ← hr.1]
      exact psPoints_fit_scale hl hk lo hi bins b c hb hc hb1 hc1 hb0 hc0 hb2 hc2 hne

/-- **C69 (brightness).** Multiplying an image by a non-zero constant leaves the fitted slope
unchanged and moves the intercept by `log10 c²` — for the whole computation (transform, radial
profile, fit), binned or not, whatever the bins and limits, as soon as two fitted points with
positive power have different frequencies. -/
theorem C69_brightness (lsq : List (ℝ × ℝ × ℝ) → ℝ × ℝ) (hl : LeastSquares lsq)
    (a : PspecArgs) (unbinned : Bool) (low high : Option ℝ) (img ps : Arr2 ℝ) (k : ℝ) (hk : k ≠ 0)
    (hn : 0 < img.n) (hm : 0 < img.m) (hps : computePspec img none = .ok ps)
    (bins : List PsBin) (hbins : (if unbinned then .ok (unbinnedBins ((ps2DProperty ps).map some))
      else radialBins ((ps2DProperty ps).map some) a) = .ok bins) (lo hi : ℝ)
    (hr : FitRange low high img.n img.m {f | f ∈ bins.map (·.freq)} lo hi)
    (b c : PsBin) (hb : b ∈ bins) (hc : c ∈ bins)
    (hb1 : lo < b.freq ∧ b.freq ≤ hi) (hc1 : lo < c.freq ∧ c.freq ≤ hi)
    (hb0 : 0 < b.freq) (hc0 : 0 < c.freq)
    (hb2 : ∃ p, 0 < p ∧ b.power = some p) (hc2 : ∃ p, 0 < p ∧ c.power = some p)
    (hne : b.freq ≠ c.freq) :
    powerSpectrumRun lsq none a unbinned low high (scale2 k img) =
      (powerSpectrumRun lsq none a unbinned low high img).map
        (Option.map (fun p => (p.1 + log10 (k ^ 2), p.2))) :=
  run_scale lsq hl a unbinned low high img (scale2 k img) ps (k ^ 2) (by positivity) hn hm rfl rfl
    (fun u v => power2_scale k img u v) hps bins hbins lo hi hr b c hb hc hb1 hc1 hb0 hc0 hb2 hc2 hne

/-- **C69 (position).** Moving an image circularly changes neither slope nor intercept. -/
theorem C69_position (lsq : List (ℝ × ℝ × ℝ) → ℝ × ℝ) (hl : LeastSquares lsq)
    (a : PspecArgs) (unbinned : Bool) (low high : Option ℝ) (img ps : Arr2 ℝ) (s t : ℤ)
    (hn : 0 < img.n) (hm : 0 < img.m) (hps : computePspec img none = .ok ps)
    (bins : List PsBin) (hbins : (if unbinned then .ok (unbinnedBins ((ps2DProperty ps).map some))
      else radialBins ((ps2DProperty ps).map some) a) = .ok bins) (lo hi : ℝ)
    (hr : FitRange low high img.n img.m {f | f ∈ bins.map (·.freq)} lo hi)
    (b c : PsBin) (hb : b ∈ bins) (hc : c ∈ bins)
    (hb1 : lo < b.freq ∧ b.freq ≤ hi) (hc1 : lo < c.freq ∧ c.freq ≤ hi)
    (hb0 : 0 < b.freq) (hc0 : 0 < c.freq)
    (hb2 : ∃ p, 0 < p ∧ b.power = some p) (hc2 : ∃ p, 0 < p ∧ c.power = some p)
    (hne : b.freq ≠ c.freq) :
    powerSpectrumRun lsq none a unbinned low high (shift2 s t img) =
      powerSpectrumRun lsq none a unbinned low high img := by
  have h := run_scale lsq hl a unbinned low high img (shift2 s t img) ps 1 one_pos hn hm rfl rfl
    (fun u v => by rw [power2_shift s t img hn hm, one_mul]) hps bins hbins lo hi hr b c hb hc hb1 hc1
    hb0 hc0 hb2 hc2 hne
  rw [h]
  have : (fun p : ℝ × ℝ => (p.1 + log10 1, p.2)) = id := by
    funext p; simp [log10]
  rw [this, Option.map_id]
  cases powerSpectrumRun lsq none a unbinned low high img <;> rfl

/-- A 3×3 image with a single bright pixel: white noise, `A = 1`, `β = 0`. -/
private noncomputable def spike : Arr2 ℝ := ⟨3, 3, fun i j => if i = 0 ∧ j = 0 then 1 else 0⟩

private theorem spike_power (k l : ℤ) : power2 spike k l = 1 := by
  have : dft2 3 3 (fun i j => ((if i = 0 ∧ j = 0 then 1 else 0 : ℝ) : ℂ)) k l = 1 := by
    simp [dft2, Finset.sum_range_succ, om_zero]
  unfold power2 spike
  simp only
  rw [this]; simp

private theorem spike_freqs : modeFreq 3 3 1 0 = 1 / 3 ∧ modeFreq 3 3 1 1 = Real.sqrt 2 / 3 := by
  constructor
  · unfold modeFreq
    rw [show (((1 : ℤ) : ℝ) / (3 : ℕ)) ^ 2 + (((0 : ℤ) : ℝ) / (3 : ℕ)) ^ 2 = (1 / 3) ^ 2 by push_cast; ring]
    exact Real.sqrt_sq (by norm_num)
  · unfold modeFreq
    rw [show (((1 : ℤ) : ℝ) / (3 : ℕ)) ^ 2 + (((1 : ℤ) : ℝ) / (3 : ℕ)) ^ 2 = 2 / 3 ^ 2 by push_cast; ring]
    rw [Real.sqrt_div (by norm_num), Real.sqrt_sq (by norm_num)]

private theorem spike_freq_bounds : (0.1 : ℝ) < modeFreq 3 3 1 0 ∧ modeFreq 3 3 1 0 ≤ 1 ∧
    0.1 < modeFreq 3 3 1 1 ∧ modeFreq 3 3 1 1 ≤ 1 ∧ modeFreq 3 3 1 0 ≠ modeFreq 3 3 1 1 := by
  obtain ⟨h1, h2⟩ := spike_freqs
  have h3 : (1 : ℝ) < Real.sqrt 2 := by
    rw [show (1 : ℝ) = Real.sqrt 1 by simp]
    exact Real.sqrt_lt_sqrt (by norm_num) (by norm_num)
  have h4 : Real.sqrt 2 < 2 := by
    rw [show (2 : ℝ) = Real.sqrt 4 by rw [show (4 : ℝ) = 2 ^ 2 by norm_num]; simp]
    exact Real.sqrt_lt_sqrt (by norm_num) (by norm_num)
  rw [h1, h2]
  refine ⟨by norm_num, by norm_num, by linarith, by linarith, by linarith⟩

/-- Non-vacuity of `C69_unbinned`. -/
example : ∃ ps, computePspec spike none = .ok ps ∧
    fitPspecUnbinned lsqFormula false (some 0.1) (some 1) ((ps2DProperty ps).map some)
      = .ok (some (log10 1, 0)) := by
  obtain ⟨ps, hps, -⟩ := computePspec_none spike (by decide) (by decide)
  obtain ⟨b1, b2, b3, b4, b5⟩ := spike_freq_bounds
  refine ⟨ps, hps, C69_unbinned lsqFormula lsqFormula_leastSquares (some 0.1) (some 1) spike ps
    (by decide) (by decide) hps 0.1 1 ⟨rfl, rfl⟩ (by norm_num) 1 0 one_pos ?_ 1 0 1 1
    (by simp [IsMode, spike]) (by simp [IsMode, spike]) ⟨b1, b2⟩ ⟨b3, b4⟩ b5⟩
  intro k l _ _ _
  rw [spike_power]; simp

/-- Non-vacuity of `C69_brightness` and `C69_position`: their hypotheses hold for the same image. -/
example : ∃ (ps : Arr2 ℝ) (b c : PsBin), computePspec spike none = .ok ps ∧
    b ∈ unbinnedBins ((ps2DProperty ps).map some) ∧ c ∈ unbinnedBins ((ps2DProperty ps).map some) ∧
    (0.1 < b.freq ∧ b.freq ≤ 1) ∧ (0.1 < c.freq ∧ c.freq ≤ 1) ∧
    (∃ p, 0 < p ∧ b.power = some p) ∧ (∃ p, 0 < p ∧ c.power = some p) ∧ b.freq ≠ c.freq := by
  obtain ⟨ps, hps, -⟩ := computePspec_none spike (by decide) (by decide)
  obtain ⟨b1, b2, b3, b4, b5⟩ := spike_freq_bounds
  obtain ⟨en, em, eg⟩ := ps2D_mode (img := spike) (by decide) (by decide) hps
  obtain ⟨sn, sm⟩ := ps2D_shape (ps := ps)
  rw [en] at sn; rw [em] at sm
  have hbin : ∀ k l, IsMode 3 3 k l →
      (⟨modeFreq 3 3 k l, some 1, none⟩ : PsBin) ∈ unbinnedBins ((ps2DProperty ps).map some) := by
    intro k l hm'
    obtain ⟨i, hi', j, hj, e1, e2⟩ := mode_pixel hm'
    refine mem_unbinned.2 ⟨i, by rw [sn]; exact hi', j, by rw [sm]; exact hj, ?_⟩
    rw [eg i hi' j hj, sn, sm, spike_power]
    have e1' : rowFreq spike.n i = k := e1
    have e2' : colFreq spike.m j = l := e2
    rw [e1', e2']; rfl
  exact ⟨ps, _, _, hps, hbin 1 0 (by simp [IsMode]), hbin 1 1 (by simp [IsMode]), ⟨b1, b2⟩, ⟨b3, b4⟩,
    ⟨1, one_pos, rfl⟩, ⟨1, one_pos, rfl⟩, b5⟩

/-! ### Lag curves -/

private theorem atLeast_iff {lag l : ℝ} (h : 0 < lag) (hl : 0 < l) :
    atLeastLog lag l = true ↔ l ≤ lag := by
  unfold atLeastLog
  rw [log10F_pos h, log10F_pos hl]
  simp [log10_le_iff hl h]

private theorem atMost_iff {lag l : ℝ} (h : 0 < lag) (hl : 0 < l) :
    atMostLog lag l = true ↔ lag ≤ l := by
  unfold atMostLog
  rw [log10F_pos h, log10F_pos hl]
  simp [log10_le_iff h hl]

/-- The points selected by positive limits are those whose (scaled) lag lies within them. -/
theorem mem_lagSelect {scale : ℝ} {xlow xhigh : Option ℝ} {pts : List LagPt} {p : LagPt}
    (hp : 0 < p.lag * scale) (hlow : ∀ l, xlow = some l → 0 < l) (hhigh : ∀ h, xhigh = some h → 0 < h) :
    p ∈ lagSelect scale xlow xhigh pts ↔ p ∈ pts ∧ LagWithin xlow xhigh (p.lag * scale) := by
  unfold lagSelect LagWithin
  rw [List.mem_filter, Bool.and_eq_true]
  apply and_congr Iff.rfl
  apply and_congr
  · cases xlow with
    | none => simp
    | some l => simp [atLeast_iff hp (hlow l rfl)]
  · cases xhigh with
    | none => simp
    | some h => simp [atMost_iff hp (hhigh h rfl)]

private theorem lagLine_exact {lsq : List (ℝ × ℝ × ℝ) → ℝ × ℝ} (hl : LeastSquares lsq)
    (wt : LagWeights) (scale : ℝ) (xlow xhigh : Option ℝ)
    (hlow : ∀ l, xlow = some l → 0 < l) (hhigh : ∀ h, xhigh = some h → 0 < h)
    (pts : List LagPt) (hpos : ∀ p ∈ pts, 0 < p.lag * scale) (A γ : ℝ) (hA : 0 < A)
    (hlaw : ∀ p ∈ pts, LagWithin xlow xhigh (p.lag * scale) →
      p.value = none ∨ p.value = some (A * (p.lag * scale) ^ γ))
    (herr : ∀ p ∈ pts, LagWithin xlow xhigh (p.lag * scale) → p.value ≠ none →
      lagWeight wt p = .nan ∨ ∃ w, 0 < w ∧ lagWeight wt p = .fin w)
    (p q : LagPt) (hp : p ∈ pts) (hq : q ∈ pts)
    (hp1 : LagWithin xlow xhigh (p.lag * scale)) (hq1 : LagWithin xlow xhigh (q.lag * scale))
    (hp2 : p.value ≠ none) (hq2 : q.value ≠ none)
    (hp3 : lagWeight wt p ≠ .nan) (hq3 : lagWeight wt q ≠ .nan)
    (hne : p.lag * scale ≠ q.lag * scale) :
    lagLine lsq wt scale xlow xhigh pts = .ok (some (log10 A, γ)) := by
  have hmk : ∀ d ∈ pts, LagWithin xlow xhigh (d.lag * scale) →
      (⟨log10F (some (d.lag * scale)), log10F d.value, lagWeight wt d⟩ : FitPt) ∈
        (lagSelect scale xlow xhigh pts).map
          (fun p => ⟨log10F (some (p.lag * scale)), log10F p.value, lagWeight wt p⟩) := by
    intro d hd h1
    exact List.mem_map.2 ⟨d, (mem_lagSelect (hpos d hd) hlow hhigh).2 ⟨hd, h1⟩, rfl⟩
  have hgood : ∀ d ∈ pts, LagWithin xlow xhigh (d.lag * scale) → d.value ≠ none →
      lagWeight wt d ≠ .nan →
      ¬ (⟨log10F (some (d.lag * scale)), log10F d.value, lagWeight wt d⟩ : FitPt).missing := by
    intro d hd h1 h2 h3
    have hv := (hlaw d hd h1).resolve_left h2
    have := mul_pos hA (Real.rpow_pos_of_pos (hpos d hd) γ)
    unfold FitPt.missing
    rw [log10F_pos (hpos d hd), hv, log10F_pos this]
    simpa using h3
  unfold lagLine
  refine lineFit_exact hl _ (log10 A, γ) ?_ (hmk p hp hp1) (hmk q hq hq1)
    (hgood p hp hp1 hp2 hp3) (hgood q hq hq1 hq2 hq3) ?_
  · intro t ht
    obtain ⟨d, hd, rfl⟩ := List.mem_map.1 ht
    have hd' : d ∈ pts := List.mem_of_mem_filter hd
    obtain ⟨-, hw⟩ := (mem_lagSelect (hpos d hd') hlow hhigh).1 hd
    rcases hlaw d hd' hw with hv | hv
    · left; right; left; rw [hv]; rfl
    · rcases herr d hd' hw (by rw [hv]; simp) with hn | ⟨w, hw0, hw1⟩
      · left; right; right; exact hn
      · right
        have := mul_pos hA (Real.rpow_pos_of_pos (hpos d hd') γ)
        refine ⟨log10 (d.lag * scale), w, hw0, ?_⟩
        unfold FitPt.usable
        rw [log10F_pos (hpos d hd'), hv, log10F_pos this, hw1, log10_rpow hA (hpos d hd')]
  · simp only
    rw [log10F_pos (hpos p hp), log10F_pos (hpos q hq)]
    intro h
    exact hne (log10_inj (hpos p hp) (hpos q hq) (by simpa using h))

private theorem invSq_good {p : LagPt} {s : ℝ} (h : p.err = some s) (hs : s ≠ 0) :
    ∃ w, 0 < w ∧ lagWeight .invSqErr p = .fin w := by
  refine ⟨1 / s ^ 2, by positivity, ?_⟩
  simp [lagWeight, invSqF, h, hs]

private theorem invSq_cases {p : LagPt} (h : p.err ≠ some 0) :
    lagWeight .invSqErr p = .nan ∨ ∃ w, 0 < w ∧ lagWeight .invSqErr p = .fin w := by
  cases he : p.err with
  | none => left; simp [lagWeight, invSqF, he]
  | some s => exact Or.inr (invSq_good he (by rintro rfl; exact h he))

/-- **C69 (SCF).** A correlation spectrum that is exactly `A lag^γ` at the selected lags gives
slope `γ`, whatever the unit of the lags (`pix` pixels per unit).  Missing compared with the full
property: no selected lag may have a spread of exactly 0 (see `C69_scf_zero_error_violated`). -/
theorem C69_scf_partial (lsq : List (ℝ × ℝ × ℝ) → ℝ × ℝ) (hl : LeastSquares lsq) (pix : ℝ)
    (hpix : 0 < pix) (xlow xhigh : Option ℝ)
    (hlow : ∀ l, xlow = some l → 0 < l) (hhigh : ∀ h, xhigh = some h → 0 < h)
    (pts : List LagPt) (hpos : ∀ p ∈ pts, 0 < p.lag) (A γ : ℝ) (hA : 0 < A)
    (hlaw : ∀ p ∈ pts, LagWithin xlow xhigh (p.lag * pix) →
      p.value = none ∨ p.value = some (A * (p.lag * pix) ^ γ))
    (herr : ∀ p ∈ pts, LagWithin xlow xhigh (p.lag * pix) → p.err ≠ some 0)
    (p q : LagPt) (hp : p ∈ pts) (hq : q ∈ pts)
    (hp1 : LagWithin xlow xhigh (p.lag * pix)) (hq1 : LagWithin xlow xhigh (q.lag * pix))
    (hp2 : p.value ≠ none) (hq2 : q.value ≠ none) (hp3 : p.err ≠ none) (hq3 : q.err ≠ none)
    (hne : p.lag ≠ q.lag) :
    scfFitPlaw lsq pix xlow xhigh pts = .ok (some (log10 A, γ)) := by
  have hpos' : ∀ d ∈ pts, 0 < d.lag * pix := fun d hd => mul_pos (hpos d hd) hpix
  have hnn : ∀ d ∈ pts, LagWithin xlow xhigh (d.lag * pix) → d.err ≠ none →
      lagWeight .invSqErr d ≠ .nan := by
    intro d hd h1 h2
    obtain ⟨s, hs⟩ := Option.ne_none_iff_exists'.1 h2
    obtain ⟨w, -, hw⟩ := invSq_good hs (by rintro rfl; exact herr d hd h1 hs)
    rw [hw]; simp
  unfold scfFitPlaw
  have hin : p ∈ lagSelect pix xlow xhigh pts :=
    (mem_lagSelect (hpos' p hp) hlow hhigh).2 ⟨hp, hp1⟩
  rw [if_neg (by intro h0; rw [List.length_eq_zero_iff] at h0; rw [h0] at hin; cases hin)]
  exact lagLine_exact hl .invSqErr pix xlow xhigh hlow hhigh pts hpos' A γ hA hlaw
    (fun d hd h1 _ => invSq_cases (herr d hd h1)) p q hp hq hp1 hq1 hp2 hq2
    (hnn p hp hp1 hp3) (hnn q hq hq1 hq3) (fun h => hne (mul_right_cancel₀ hpix.ne' h))

/-- **C69 (SCF, violation).** One selected lag whose values all agree (spread 0) has an infinite
weight and turns the slope into NaN even though the curve is an exact power law: three lags with
value `1 / lag`, the first with zero spread. -/
theorem C69_scf_zero_error_violated (lsq : List (ℝ × ℝ × ℝ) → ℝ × ℝ) :
    scfFitPlaw lsq 1 none none
      [⟨1, some 1, some 0⟩, ⟨2, some (1 / 2), some 1⟩, ⟨4, some (1 / 4), some 1⟩] = .ok none := by
  norm_num [scfFitPlaw, lagSelect, lagLine, lineFit, dropMissing, log10F, lagWeight, invSqF,
    FVal.isNan, FVal.isInf]

/-- **C69 (Delta-variance).** A curve that is exactly `A lag^γ` in the unit in which the lags are
stored gives slope `γ` when no limits are given.  (Errors of exactly 0 never occur: they are stored
as missing.) -/
theorem C69_deltavar (lsq : List (ℝ × ℝ × ℝ) → ℝ × ℝ) (hl : LeastSquares lsq) (pix : ℝ)
    (pts : List LagPt) (hpos : ∀ p ∈ pts, 0 < p.lag) (A γ : ℝ) (hA : 0 < A)
    (hlaw : ∀ p ∈ pts, p.value = none ∨ p.value = some (A * p.lag ^ γ))
    (herr : ∀ p ∈ pts, p.err ≠ some 0)
    (p q : LagPt) (hp : p ∈ pts) (hq : q ∈ pts) (hp2 : p.value ≠ none) (hq2 : q.value ≠ none)
    (hp3 : p.err ≠ none) (hq3 : q.err ≠ none) (hne : p.lag ≠ q.lag) :
    deltavarFitPlaw lsq pix none none pts = .ok (some (log10 A, γ)) := by
  have hnn : ∀ d ∈ pts, d.err ≠ none → lagWeight .invSqErr d ≠ .nan := by
    intro d hd h2
    obtain ⟨s, hs⟩ := Option.ne_none_iff_exists'.1 h2
    obtain ⟨w, -, hw⟩ := invSq_good hs (by rintro rfl; exact herr d hd hs)
    rw [hw]; simp
  have hwithin : ∀ t, LagWithin none none t := fun t => ⟨by simp, by simp⟩
  unfold deltavarFitPlaw
  refine lagLine_exact hl .invSqErr 1 none none (by simp) (by simp) pts ?_ A γ hA ?_
    (fun d hd _ _ => invSq_cases (herr d hd)) p q hp hq (hwithin _) (hwithin _) hp2 hq2
    (hnn p hp hp3) (hnn q hq hq3) (by simpa using hne)
  · intro d hd; simpa using hpos d hd
  · intro d hd _; simpa using hlaw d hd

/-- **C69 (wavelet).** A transform that is exactly `A scale^γ` at the selected scales gives slope
`γ`, weighted or not, whatever the unit of the scales; scales whose spread is 0 are left out of a
weighted fit. -/
theorem C69_wavelet (lsq : List (ℝ × ℝ × ℝ) → ℝ × ℝ) (hl : LeastSquares lsq) (weighted : Bool)
    (pix : ℝ) (hpix : 0 < pix) (xlow xhigh : Option ℝ)
    (hlow : ∀ l, xlow = some l → 0 < l) (hhigh : ∀ h, xhigh = some h → 0 < h)
    (pts : List LagPt) (hpos : ∀ p ∈ pts, 0 < p.lag) (A γ : ℝ) (hA : 0 < A)
    (hlaw : ∀ p ∈ pts, LagWithin xlow xhigh (p.lag * pix) →
      p.value = none ∨ p.value = some (A * (p.lag * pix) ^ γ))
    (p q : LagPt) (hp : p ∈ pts) (hq : q ∈ pts)
    (hp1 : LagWithin xlow xhigh (p.lag * pix)) (hq1 : LagWithin xlow xhigh (q.lag * pix))
    (hp2 : p.value ≠ none) (hq2 : q.value ≠ none)
    (hp3 : weighted = true → ∃ s, s ≠ 0 ∧ p.err = some s)
    (hq3 : weighted = true → ∃ s, s ≠ 0 ∧ q.err = some s) (hne : p.lag ≠ q.lag) :
    waveletFit lsq weighted pix xlow xhigh pts = .ok (some (log10 A, γ)) := by
  have hpos' : ∀ d ∈ pts, 0 < d.lag * pix := fun d hd => mul_pos (hpos d hd) hpix
  have hfin : ∀ d v s, d.value = some v → v ≠ 0 → d.err = some s → s ≠ 0 →
      ∃ w, 0 < w ∧ lagWeight .logErr d = .fin w := by
    intro d v s hv hv0 hs hs0
    have hne' : 0.434 * s / v ≠ 0 := div_ne_zero (mul_ne_zero (by norm_num) hs0) hv0
    refine ⟨1 / (0.434 * s / v) ^ 2, by positivity, ?_⟩
    norm_num [lagWeight, hv, hs, hv0, hs0, invSqF]
  have hval : ∀ d ∈ pts, LagWithin xlow xhigh (d.lag * pix) → d.value ≠ none →
      ∃ v, v ≠ 0 ∧ d.value = some v := by
    intro d hd h1 h2
    exact ⟨_, (mul_pos hA (Real.rpow_pos_of_pos (hpos' d hd) γ)).ne', (hlaw d hd h1).resolve_left h2⟩
  unfold waveletFit
  cases weighted with
  | false =>
    exact lagLine_exact hl .none pix xlow xhigh hlow hhigh pts hpos' A γ hA hlaw
      (fun d _ _ _ => Or.inr ⟨1, one_pos, rfl⟩) p q hp hq hp1 hq1 hp2 hq2
      (by simp [lagWeight]) (by simp [lagWeight]) (fun h => hne (mul_right_cancel₀ hpix.ne' h))
  | true =>
    have hnn : ∀ d ∈ pts, LagWithin xlow xhigh (d.lag * pix) → d.value ≠ none →
        (∃ s, s ≠ 0 ∧ d.err = some s) → lagWeight .logErr d ≠ .nan := by
      rintro d hd h1 h2 ⟨s, hs0, hs⟩
      obtain ⟨v, hv0, hv⟩ := hval d hd h1 h2
      obtain ⟨w, -, hw⟩ := hfin d v s hv hv0 hs hs0
      rw [hw]; simp
    refine lagLine_exact hl .logErr pix xlow xhigh hlow hhigh pts hpos' A γ hA hlaw ?_
      p q hp hq hp1 hq1 hp2 hq2 (hnn p hp hp1 hp2 (hp3 rfl)) (hnn q hq hq1 hq2 (hq3 rfl))
      (fun h => hne (mul_right_cancel₀ hpix.ne' h))
    intro d hd h1 h2
    obtain ⟨v, hv0, hv⟩ := hval d hd h1 h2
    cases he : d.err with
    | none => left; simp [lagWeight, he]
    | some s =>
      by_cases hs : s = 0
      · left; simp [lagWeight, he, hv, hs, hv0]
      · right; exact hfin d v s hv hv0 he hs

/-- Non-vacuity: three scales on `3 scale²` given in units of 10 pixels, the largest one cut off
by the limit. -/
example : waveletFit lsqFormula false 10 (some 5) (some 25)
    [⟨1, some (3 * (1 * 10) ^ (2 : ℝ)), none⟩, ⟨2, some (3 * (2 * 10) ^ (2 : ℝ)), none⟩,
     ⟨3, some 77, none⟩] = .ok (some (log10 3, 2)) := by
  refine C69_wavelet lsqFormula lsqFormula_leastSquares false 10 (by norm_num) (some 5) (some 25)
    (by simp) (by simp) _ ?_ 3 2 (by norm_num) ?_ ⟨1, some (3 * (1 * 10) ^ (2 : ℝ)), none⟩
    ⟨2, some (3 * (2 * 10) ^ (2 : ℝ)), none⟩ (by simp) (by simp) ?_ ?_ (by simp) (by simp)
    (by simp) (by simp) (by norm_num)
  · intro p hp
    simp only [List.mem_cons, List.not_mem_nil, or_false] at hp
    rcases hp with rfl | rfl | rfl <;> norm_num
  · intro p hp h
    simp only [List.mem_cons, List.not_mem_nil, or_false] at hp
    rcases hp with rfl | rfl | rfl
    · right; rfl
    · right; rfl
    · have := h.2 25 rfl
      norm_num at this
  · constructor <;> intro l hl <;> cases hl <;> norm_num
  · constructor <;> intro l hl <;> cases hl <;> norm_num

/-- Non-vacuity for the SCF and Delta-variance fits. -/
example : scfFitPlaw lsqFormula 1 none none
      [⟨1, some (2 * (1 * 1) ^ (-1 : ℝ)), some 1⟩, ⟨2, some (2 * (2 * 1) ^ (-1 : ℝ)), some 3⟩]
      = .ok (some (log10 2, -1)) ∧
    deltavarFitPlaw lsqFormula 7 none none
      [⟨1, some (2 * 1 ^ (-1 : ℝ)), some 1⟩, ⟨2, some (2 * 2 ^ (-1 : ℝ)), some 3⟩, ⟨3, none, none⟩]
      = .ok (some (log10 2, -1)) := by
  constructor
  · refine C69_scf_partial lsqFormula lsqFormula_leastSquares 1 one_pos none none (by simp) (by simp) _
      ?_ 2 (-1) (by norm_num) ?_ ?_ ⟨1, some (2 * (1 * 1) ^ (-1 : ℝ)), some 1⟩
      ⟨2, some (2 * (2 * 1) ^ (-1 : ℝ)), some 3⟩ (by simp) (by simp) ⟨by simp, by simp⟩
      ⟨by simp, by simp⟩ (by simp) (by simp) (by simp) (by simp) (by norm_num)
    all_goals
      intro p hp
      simp only [List.mem_cons, List.not_mem_nil, or_false] at hp
      rcases hp with rfl | rfl <;> simp
  · refine C69_deltavar lsqFormula lsqFormula_leastSquares 7 _
      ?_ 2 (-1) (by norm_num) ?_ ?_ ⟨1, some (2 * 1 ^ (-1 : ℝ)), some 1⟩
      ⟨2, some (2 * 2 ^ (-1 : ℝ)), some 3⟩ (by simp) (by simp)
      (by simp) (by simp) (by simp) (by simp) (by norm_num)
    all_goals
      intro p hp
      simp only [List.mem_cons, List.not_mem_nil, or_false] at hp
      rcases hp with rfl | rfl | rfl <;> simp

end TS
