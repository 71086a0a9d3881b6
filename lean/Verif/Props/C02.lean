import Verif.Lemmas.PSpec
import Verif.Props.C08

/-! C02: laws of the 2D power spectrum computed by `PowerSpectrum.compute_pspec`. -/

namespace TS
open Finset Spec

/-- **C02.** Without apodization, `compute_pspec` succeeds for every non-empty image and stores
the centred power spectrum `|fft2|²` of the weighted image. -/
theorem C02_compute_pspec (a : Arr2 ℝ) (hn : 0 < a.n) (hm : 0 < a.m) :
    ∃ ps, computePspec a none = .ok ps ∧ IsCentredPower ps a :=
  computePspec_none a hn hm

/-- **C02.** With an apodizing window the spectrum is that of the image times the window, and the
window is a taper of the image's shape. -/
theorem C02_compute_pspec_apodized (a : Arr2 ℝ) (hn : 0 < a.n) (hm : 0 < a.m) (name : String)
    (alpha beta : ℝ) (hname : name ∈ ["splitcosinebell", "hanning", "tukey", "cosinebell"]) :
    ∃ w ps, IsTaper w a.n a.m ∧
      computePspec a (some ⟨name, alpha, beta⟩) = .ok ps ∧
      IsCentredPower ps ⟨a.n, a.m, fun i j => a.get i j * w.get i j⟩ := by
  obtain ⟨w, hw, hT⟩ := ((C08_apodizing_kernel name alpha beta 0 a.n a.m).1 hname).1
  obtain ⟨ps, hps, hc⟩ := computePspec_none ⟨a.n, a.m, fun i j => a.get i j * w.get i j⟩ hn hm
  refine ⟨w, ps, hT, ?_, hc⟩
  rw [← hps]
  have hs := hT.shape
  simp [computePspec, hw, bind, Except.bind, mul2, hs.1, hs.2]

/-- **C02 (non-negative).** -/
theorem C02_nonneg (a ps : Arr2 ℝ) (hn : 0 < a.n) (hm : 0 < a.m)
    (h : computePspec a none = .ok ps) : ∀ i < a.n, ∀ j < a.m, 0 ≤ ps.get i j := by
  obtain ⟨ps', h', hc⟩ := computePspec_none a hn hm
  rw [h] at h'; cases h'
  intro i hi j hj
  rw [hc.2.2 i hi j hj]
  exact sq_nonneg _

/-- **C02 (scaling).** Multiplying the image by `c` multiplies the spectrum by `c²`. -/
theorem C02_scale (c : ℝ) (a ps ps' : Arr2 ℝ) (hn : 0 < a.n) (hm : 0 < a.m)
    (h : computePspec a none = .ok ps) (h' : computePspec (scale2 c a) none = .ok ps') :
    ps'.Same (scale2 (c ^ 2) ps) := by
  obtain ⟨q, hq, hc⟩ := computePspec_none a hn hm
  rw [h] at hq; cases hq
  obtain ⟨q', hq', hc'⟩ := computePspec_none (scale2 c a) hn hm
  rw [h'] at hq'; cases hq'
  refine ⟨by rw [hc'.1]; exact hc.1.symm, by rw [hc'.2.1]; exact hc.2.1.symm, ?_⟩
  intro i hi j hj
  have hi' : i < a.n := by rw [hc'.1] at hi; exact hi
  have hj' : j < a.m := by rw [hc'.2.1] at hj; exact hj
  rw [hc'.2.2 i hi' j hj', power2_scale]
  simp only [scale2]
  rw [hc.2.2 i hi' j hj']

/-- **C02 (translation invariance).** Circularly shifting the image does not change the spectrum. -/
theorem C02_shift_invariant (s t : ℤ) (a ps ps' : Arr2 ℝ) (hn : 0 < a.n) (hm : 0 < a.m)
    (h : computePspec a none = .ok ps) (h' : computePspec (shift2 s t a) none = .ok ps') :
    ps'.Same ps := by
  obtain ⟨q, hq, hc⟩ := computePspec_none a hn hm
  rw [h] at hq; cases hq
  obtain ⟨q', hq', hc'⟩ := computePspec_none (shift2 s t a) hn hm
  rw [h'] at hq'; cases hq'
  refine ⟨by rw [hc'.1]; exact hc.1.symm, by rw [hc'.2.1]; exact hc.2.1.symm, ?_⟩
  intro i hi j hj
  have hi' : i < a.n := by rw [hc'.1] at hi; exact hi
  have hj' : j < a.m := by rw [hc'.2.1] at hj; exact hj
  rw [hc'.2.2 i hi' j hj', power2_shift s t a hn hm, hc.2.2 i hi' j hj']
  rfl

/-- **C02 (point symmetry).** Entries at opposite frequencies (opposite about the zero-frequency
pixel `(n//2, m//2)`, when both exist) are equal. -/
theorem C02_point_symmetric (a ps : Arr2 ℝ) (hn : 0 < a.n) (hm : 0 < a.m)
    (h : computePspec a none = .ok ps) (i j i' j' : ℕ) (hi : i < a.n) (hj : j < a.m)
    (hi' : i' < a.n) (hj' : j' < a.m) (hii : i + i' = 2 * (a.n / 2)) (hjj : j + j' = 2 * (a.m / 2)) :
    ps.get i j = ps.get i' j' := by
  obtain ⟨q, hq, hc⟩ := computePspec_none a hn hm
  rw [h] at hq; cases hq
  rw [hc.2.2 i hi j hj, hc.2.2 i' hi' j' hj', ← power2_neg]
  congr 1 <;> omega

/-- **C02 (Parseval).** The total power is `n·m` times the sum of squared pixels. -/
theorem C02_parseval (a ps : Arr2 ℝ) (hn : 0 < a.n) (hm : 0 < a.m)
    (h : computePspec a none = .ok ps) :
    ∑ i ∈ range a.n, ∑ j ∈ range a.m, ps.get i j
      = a.n * a.m * ∑ i ∈ range a.n, ∑ j ∈ range a.m, a.get i j ^ 2 := by
  obtain ⟨q, hq, hc⟩ := computePspec_none a hn hm
  rw [h] at hq; cases hq
  rw [← sum_power2 a hn hm ((a.n / 2 : ℕ) : ℤ) ((a.m / 2 : ℕ) : ℤ)]
  apply sum_congr rfl; intro i hi
  apply sum_congr rfl; intro j hj
  exact hc.2.2 i (mem_range.1 hi) j (mem_range.1 hj)

/-- **C02 (input preparation).** The weighted image is the image times the weights, where a
missing pixel and a missing weight both count as 0 (no weights = weight 1). -/
theorem C02_weighted_image (img : Arr2 (Option ℝ)) (w : Arr2 (Option ℝ)) (hs : w.n = img.n ∧ w.m = img.m) :
    (∃ s, powerSpectrumInit img none = .ok s ∧ s.weighted.n = img.n ∧ s.weighted.m = img.m ∧
      ∀ i < img.n, ∀ j < img.m, s.weighted.get i j = (img.get i j).getD 0) ∧
    (∃ s, powerSpectrumInit img (some w) = .ok s ∧ s.weighted.n = img.n ∧ s.weighted.m = img.m ∧
      ∀ i < img.n, ∀ j < img.m,
        s.weighted.get i j = (img.get i j).getD 0 * (w.get i j).getD 0) := by
  constructor
  · refine ⟨_, by simp [powerSpectrumInit, mul2, bind, Except.bind, pure, Except.pure]; rfl, rfl, rfl, ?_⟩
    intro i _ j _
    simp [fillNan, Arr2.map]
  · refine ⟨⟨⟨img.n, img.m, fun i j => (img.get i j).getD 0 * (w.get i j).getD 0⟩,
      some ((fillNan 0 w).map some)⟩, ?_, rfl, rfl, ?_⟩
    · simp [powerSpectrumInit, mul2, bind, Except.bind, fillNan, Arr2.map, hs.1, hs.2, pure, Except.pure]
    · intro i _ j _; rfl

/-- **C02 (beam correction).** Dividing by the beam power and multiplying back restores the
spectrum wherever the beam power is not zero; where it is zero the result is missing. -/
theorem C02_beam_correct (ps beam : Arr2 ℝ) (hn : 0 < beam.n) (hm : 0 < beam.m) :
    ∃ bp, beamPspec beam = .ok bp ∧ ∀ i < beam.n, ∀ j < beam.m,
      let b := power2 beam ((i : ℤ) - (beam.n / 2 : ℕ)) ((j : ℤ) - (beam.m / 2 : ℕ))
      (b = 0 → (beamCorrect ps bp).get i j = none) ∧
      (b ≠ 0 → ∃ v, (beamCorrect ps bp).get i j = some v ∧ v * b = ps.get i j) := by
  obtain ⟨f, hf, hfn, hfm, hget⟩ := C01_rfft_to_fft_2d beam hn hm
  obtain ⟨q, hq, hc⟩ := computePspec_none beam hn hm
  have hq2 : q = f.fftshift.map (fun x => x ^ 2) := by
    simp [computePspec, hf, bind, Except.bind, pure, Except.pure] at hq
    exact hq.symm
  refine ⟨f.fftshift.map (fun x => if |x ^ 2| = 0 then none else some |x ^ 2|), ?_, ?_⟩
  · simp [beamPspec, hf, bind, Except.bind, pure, Except.pure]
  · intro i hi j hj
    have hb := hc.2.2 i hi j hj
    rw [hq2] at hb
    simp only [Arr2.map] at hb
    intro b
    have hb' : f.fftshift.get i j ^ 2 = b := hb
    have hbn : 0 ≤ b := by rw [← hb']; positivity
    constructor
    · intro h0
      simp only [beamCorrect, Arr2.map]
      rw [hb', h0]; simp
    · intro h0
      simp only [beamCorrect, Arr2.map]
      rw [hb', abs_of_nonneg hbn, if_neg h0]
      exact ⟨_, rfl, div_mul_cancel₀ _ h0⟩

/-- **C02.** The public `ps2D` is the stored spectrum with its rows reversed. -/
theorem C02_ps2D_property {α : Type*} (ps : Arr2 α) (i j : ℕ) (hi : i < ps.n) :
    (ps2DProperty ps).n = ps.n ∧ (ps2DProperty ps).m = ps.m ∧
      (ps2DProperty ps).get i j = ps.get (ps.n - 1 - i) j := by
  have hr : (⟨none, none, -1⟩ : PySlice).resolve ps.n = ⟨(ps.n : ℤ) - 1, -1, ps.n⟩ := by
    unfold PySlice.resolve
    simp only [SliceIx.mk.injEq]
    simp
    intro h; omega
  simp only [ps2DProperty, Arr2.slice0, hr, SliceIx.ix]
  refine ⟨trivial, trivial, ?_⟩
  congr 1; omega

/-- Non-vacuity: a concrete 3×4 image is accepted and its total power is positive. -/
example : ∃ ps, computePspec ⟨3, 4, fun i j => if i = 1 ∧ j = 2 then 5 else 0⟩ none = .ok ps ∧
    ∑ i ∈ range 3, ∑ j ∈ range 4, ps.get i j = 300 := by
  obtain ⟨ps, h, _⟩ := computePspec_none ⟨3, 4, fun i j => if i = 1 ∧ j = 2 then 5 else 0⟩
    (by norm_num) (by norm_num)
  refine ⟨ps, h, ?_⟩
  have := C02_parseval _ ps (by norm_num) (by norm_num) h
  simp only at this
  rw [this]
  simp [Finset.sum_range_succ]; norm_num

end TS
