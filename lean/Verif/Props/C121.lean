import Verif.Props.C115
import Verif.Props.C04
import Verif.Props.C46
import Verif.Props.C104
import Verif.Model.BreakFit

/-!
C121.  The zero level of the data: a background added to an image, levels added to the channels of a cube, a continuum
added to its spectra, and another velocity frame.
-/

namespace TS
open Finset Spec

namespace Spec

/-- The image with the level `c` added everywhere. -/
def raised (c : ℝ) (a : Arr2 ℝ) : Arr2 ℝ := ⟨a.n, a.m, fun i j => a.get i j + c⟩

/-- The cube with the level `b k` added to channel `k`. -/
def channelLevels (b : ℕ → ℝ) (a : Arr3 ℝ) : Arr3 ℝ := ⟨a.n, a.m, a.p, fun k i j => a.get k i j + b k⟩

/-- The cube with the map `I` added to every channel: each spectrum gets a flat continuum of its own. -/
def withContinuum (I : ℕ → ℕ → ℝ) (a : Arr3 ℝ) : Arr3 ℝ := ⟨a.n, a.m, a.p, fun k i j => a.get k i j + I i j⟩

/-- The bin limits given, if any, are above the radius `1 / (2 max(n, m))` that stands for the zero frequency. -/
def BinsAboveZero (o : PspecArgs) (n m : ℕ) : Prop :=
  (∀ b, o.minBin = some b → 1 / (2 * ((max n m : ℕ) : ℝ)) < b) ∧ ∀ b, o.maxBin = some b → 1 / (2 * ((max n m : ℕ) : ℝ)) < b

end Spec

/-! ### Fourier transform of a constant -/

private theorem dft2_level {n m : ℕ} (hn : 0 < n) (hm : 0 < m) (f : ℕ → ℕ → ℂ) (c : ℂ) (k l : ℤ) :
    dft2 n m (fun i j => f i j + c) k l = dft2 n m f k l + c * ((if (n : ℤ) ∣ k then (n : ℂ) else 0) * if (m : ℤ) ∣ l then (m : ℂ) else 0) := by
  rw [← sum_om hn, ← sum_om hm]
  unfold dft2
  rw [sum_mul_sum, mul_sum, ← sum_add_distrib]
  refine sum_congr rfl fun i _ => ?_
  rw [mul_sum, ← sum_add_distrib]
  exact sum_congr rfl fun j _ => by ring

private theorem power2_raised (c : ℝ) (a : Arr2 ℝ) (hn : 0 < a.n) (hm : 0 < a.m) (k l : ℤ) (h : ¬ ((a.n : ℤ) ∣ k ∧ (a.m : ℤ) ∣ l)) :
    power2 (raised c a) k l = power2 a k l := by
  have e : (fun i j => (((raised c a).get i j : ℝ) : ℂ)) = fun i j => (a.get i j : ℂ) + (c : ℂ) := by
    funext i j
    show ((a.get i j + c : ℝ) : ℂ) = _
    push_cast
    rfl
  unfold power2
  rw [e]
  show ‖dft2 a.n a.m _ k l‖ ^ 2 = _
  rw [dft2_level hn hm]
  by_cases h1 : (a.n : ℤ) ∣ k
  · rw [if_neg fun h2 => h ⟨h1, h2⟩]; simp
  · rw [if_neg h1]; simp

private theorem specPower_continuum (I : ℕ → ℕ → ℝ) (a : Arr3 ℝ) (hn : 0 < a.n) (i j : ℕ) (k : ℤ) (h : ¬ (a.n : ℤ) ∣ k) :
    specPower (withContinuum I a) i j k = specPower a i j k := by
  have e : dft1 a.n (fun c => ((losSpectrum (withContinuum I a) i j c : ℝ) : ℂ)) k =
      dft1 a.n (fun c => (losSpectrum a i j c : ℂ)) k + (I i j : ℂ) * ∑ c ∈ range a.n, om a.n (c * k) := by
    unfold dft1
    rw [mul_sum, ← sum_add_distrib]
    refine sum_congr rfl fun c _ => ?_
    show ((a.get c i j + I i j : ℝ) : ℂ) * _ = (a.get c i j : ℂ) * _ + _
    push_cast
    ring
  unfold specPower
  show ‖dft1 a.n _ k‖ ^ 2 = _
  rw [e, sum_om hn, if_neg h, mul_zero, add_zero]

private theorem mode_zero {n i : ℕ} (hi : i < n) : ((n : ℤ) ∣ (i : ℤ) - (n / 2 : ℕ)) ↔ i = n / 2 :=
  dvd_sub_iff_eq hi (by omega)

/-! ### Power spectrum of an image -/

/-- **Image.** A background changes the two-dimensional power spectrum at the zero frequency only, where the power is the square of the
summed image. -/
theorem C121_image (c : ℝ) (a : Arr2 ℝ) (hn : 0 < a.n) (hm : 0 < a.m) :
    ∃ ps ps', computePspec a none = .ok ps ∧ computePspec (raised c a) none = .ok ps' ∧ ps'.n = ps.n ∧ ps'.m = ps.m ∧
      (∀ i < a.n, ∀ j < a.m, ¬ (i = a.n / 2 ∧ j = a.m / 2) → ps'.get i j = ps.get i j) ∧
      ps'.get (a.n / 2) (a.m / 2) = ((∑ i ∈ range a.n, ∑ j ∈ range a.m, a.get i j) + a.n * a.m * c) ^ 2 := by
  obtain ⟨ps, e, n1, m1, g⟩ := computePspec_none a hn hm
  obtain ⟨ps', e', n2, m2, g'⟩ := computePspec_none (raised c a) hn hm
  refine ⟨ps, ps', e, e', n2.trans n1.symm, m2.trans m1.symm, fun i hi j hj h => ?_, ?_⟩
  · rw [g i hi j hj, g' i hi j hj]
    exact power2_raised c a hn hm _ _ fun d => h ⟨(mode_zero hi).1 d.1, (mode_zero hj).1 d.2⟩
  · rw [g' _ (show a.n / 2 < a.n by omega) _ (show a.m / 2 < a.m by omega)]
    show ‖dft2 a.n a.m (fun i j => ((a.get i j + c : ℝ) : ℂ)) _ _‖ ^ 2 = _
    have e0 : ((a.n / 2 : ℕ) : ℤ) - (((raised c a).n / 2 : ℕ) : ℤ) = 0 := sub_self _
    have e1 : ((a.m / 2 : ℕ) : ℤ) - (((raised c a).m / 2 : ℕ) : ℤ) = 0 := sub_self _
    rw [e0, e1]
    have e2 : dft2 a.n a.m (fun i j => ((a.get i j + c : ℝ) : ℂ)) 0 0 =
        (((∑ i ∈ range a.n, ∑ j ∈ range a.m, a.get i j) + a.n * a.m * c : ℝ) : ℂ) := by
      unfold dft2
      simp only [mul_zero, om_zero, mul_one]
      rw [show (a.n : ℝ) * a.m * c = ∑ i ∈ range a.n, ∑ j ∈ range a.m, c by simp; ring]
      rw [← sum_add_distrib]
      push_cast
      refine sum_congr rfl fun i _ => ?_
      rw [← sum_add_distrib]
    rw [e2, Complex.norm_real, Real.norm_eq_abs, sq_abs]

/-! ### Profiles -/

/-- Two spectra that agree everywhere but at the zero frequency. -/
private structure OffZero (p' p : Arr2 (Option ℝ)) : Prop where
  n : p'.n = p.n
  m : p'.m = p.m
  get : ∀ i < p.n, ∀ j < p.m, ¬ (rowFreq p.n i = 0 ∧ colFreq p.m j = 0) → p'.get i j = p.get i j
  some : ∀ i < p.n, ∀ j < p.m, (p'.get i j).isSome = (p.get i j).isSome

private theorem linspace_above {z lo hi : ℝ} (h1 : z < lo) (h2 : z < hi) (nb : ℕ) {k : ℕ} (hk : k < nb + 1) :
    z < (linspace lo hi (nb + 1)).get k := by
  show z < lo + k * ((hi - lo) / (((nb + 1 : ℕ) : ℝ) - 1))
  rcases Nat.eq_zero_or_pos nb with h0 | h0
  · have : k = 0 := by omega
    subst this
    simpa using h1
  · have hb : (0 : ℝ) < nb := by exact_mod_cast h0
    have hk' : (k : ℝ) ≤ nb := by exact_mod_cast Nat.lt_succ_iff.1 hk
    have hk0 : (0 : ℝ) ≤ k := Nat.cast_nonneg k
    have e : lo + k * ((hi - lo) / (((nb + 1 : ℕ) : ℝ) - 1)) = ((nb - k) * lo + k * hi) / nb := by
      push_cast
      rw [add_sub_cancel_right]
      field_simp
      ring
    rw [e, lt_div_iff₀ hb]
    rcases hk'.lt_or_eq with h | h
    · nlinarith [mul_lt_mul_of_pos_left h1 (sub_pos.2 h), mul_le_mul_of_nonneg_left h2.le hk0]
    · rw [h]; nlinarith [mul_lt_mul_of_pos_left h2 hb]

private theorem edges_above {z lo hi : ℝ} (h0 : 0 < z) (h1 : z < lo) (h2 : z < hi) (ls : Bool) (nb : ℕ) {k : ℕ} (hk : k < (pspecEdges ls lo hi nb).n) :
    z < (pspecEdges ls lo hi nb).get k := by
  cases ls with
  | false => exact linspace_above h1 h2 nb hk
  | true =>
    show z < (10 : ℝ) ^ (linspace (log10 lo) (log10 hi) (nb + 1)).get k
    rw [← Real.logb_lt_iff_lt_rpow (by norm_num) h0]
    exact linspace_above (Real.logb_lt_logb (by norm_num) h0 h1) (Real.logb_lt_logb (by norm_num) h0 h2) nb hk

private theorem binOf_below {e : Arr1 ℝ} {x : ℝ} (h : ∀ k < e.n, x < e.get k) : binOf e x = none := by
  have d : digitize e x = 0 := by
    unfold digitize
    rw [card_eq_zero, filter_eq_empty_iff]
    intro k hk
    exact not_le.2 (h k (mem_range.1 hk))
  unfold binOf
  simp only [d]
  split_ifs <;> simp_all

private theorem sel_eq {p' p : Arr2 (Option ℝ)} (h : OffZero p' p) (az : Option (Arr2 Bool)) {q : ℕ × ℕ} (hq : q ∈ pixels p.n p.m) :
    selected p' az q = selected p az q := by
  rw [mem_pixels] at hq
  unfold selected
  rw [h.some _ hq.1 _ hq.2]

private theorem list_eq {p' p : Arr2 (Option ℝ)} (h : OffZero p' p) (d : Arr2 ℝ) (az : Option (Arr2 Bool)) (edges : Arr1 ℝ)
    (hz : ∀ i < p.n, ∀ j < p.m, rowFreq p.n i = 0 ∧ colFreq p.m j = 0 → binOf edges (d.get i j) = none) (k : ℕ) :
    ((pspecSamples p' d az).filter (fun s => decide (binOf edges s.1 = some k))).map (·.2) =
      ((pspecSamples p d az).filter (fun s => decide (binOf edges s.1 = some k))).map (·.2) := by
  rw [binned_list, binned_list, h.n, h.m, List.filter_congr fun q hq => by rw [sel_eq h az hq]]
  refine List.map_congr_left fun q hq => ?_
  rw [List.mem_filter, mem_pixels, Bool.and_eq_true, decide_eq_true_eq] at hq
  obtain ⟨⟨h1, h2⟩, -, h3⟩ := hq
  rw [h.get _ h1 _ h2]
  intro z
  rw [hz _ h1 _ h2 z] at h3
  cases h3

private theorem empty_eq {p' p : Arr2 (Option ℝ)} (h : OffZero p' p) (d : Arr2 ℝ) (az : Option (Arr2 Bool)) :
    (pspecSamples p' d az).isEmpty = (pspecSamples p d az).isEmpty := by
  rw [pspecSamples_eq, pspecSamples_eq, h.n, h.m, List.filter_congr fun q hq => sel_eq h az hq]
  simp only [List.isEmpty_map]

private theorem output_eq {p' p : Arr2 (Option ℝ)} (h : OffZero p' p) (d : Arr2 ℝ) (az : Option (Arr2 Bool)) (edges : Arr1 ℝ) (sd : Bool)
    (hz : ∀ i < p.n, ∀ j < p.m, rowFreq p.n i = 0 ∧ colFreq p.m j = 0 → binOf edges (d.get i j) = none) :
    pspecOutput p' d az edges sd = pspecOutput p d az edges sd := by
  have e : ∀ {β : Type} (f : List ℝ → β), binnedStatistic (pspecSamples p' d az) edges f = binnedStatistic (pspecSamples p d az) edges f := by
    intro β f
    unfold binnedStatistic
    congr 1
    funext k
    exact congrArg f (list_eq h d az edges hz k)
  unfold pspecOutput
  simp only [e]

private theorem std_eq (tppf : ℝ → ℕ → ℝ) (boot : Option (ℕ × (ℕ → ℕ → ℕ → ℕ))) {p' p : Arr2 (Option ℝ)} (h : OffZero p' p) (d : Arr2 ℝ)
    (az : Option (Arr2 Bool)) (edges : Arr1 ℝ)
    (hz : ∀ i < p.n, ∀ j < p.m, rowFreq p.n i = 0 ∧ colFreq p.m j = 0 → binOf edges (d.get i j) = none) :
    pspecStd tppf boot (pspecSamples p' d az) edges = pspecStd tppf boot (pspecSamples p d az) edges := by
  simp only [pspecStd, binnedStatistic, list_eq h d az edges hz]

private theorem zero_below {n m : ℕ} (hn : 0 < n) (hm : 0 < m) (h2 : 2 ≤ max n m) {d : Arr2 ℝ} (hd : ∀ i < n, ∀ j < m, d.get i j = freqRadius n m i j)
    {o : PspecArgs} (hf : o.returnFreqs = true) (hb : BinsAboveZero o n m) {mx : ℝ} {ds : Arr2 ℝ} (hmx : pspecMaxBin o.maxBin true ds = .ok mx) (nb : ℕ) :
    ∀ i < n, ∀ j < m, rowFreq n i = 0 ∧ colFreq m j = 0 →
      binOf (pspecEdges o.logspacing (pspecMinBin o.minBin o.returnFreqs n m) mx nb) (d.get i j) = none := by
  intro i hi j hj z
  have hM : (2 : ℝ) ≤ ((max n m : ℕ) : ℝ) := by exact_mod_cast h2
  rw [hd i hi j hj]
  unfold freqRadius
  rw [if_pos z]
  refine binOf_below fun k hk => edges_above (by positivity) ?_ ?_ _ _ hk
  · rw [hf]
    cases h : o.minBin with
    | some b => exact hb.1 _ h
    | none =>
      show _ < 1 / ((min n m : ℕ) : ℝ)
      have h1 : (0 : ℝ) < ((min n m : ℕ) : ℝ) := by
        have : 0 < min n m := by omega
        exact_mod_cast this
      have h3 : ((min n m : ℕ) : ℝ) ≤ ((max n m : ℕ) : ℝ) := by
        have : min n m ≤ max n m := min_le_max
        exact_mod_cast this
      exact one_div_lt_one_div_of_lt h1 (by linarith)
  · cases h : o.maxBin with
    | some b =>
      rw [h] at hmx
      cases hmx
      exact hb.2 _ h
    | none =>
      rw [h] at hmx
      have : (0.5 : ℝ) = mx := Except.ok.inj hmx
      rw [← this, div_lt_iff₀ (by positivity)]
      linarith

private theorem std_profile (tppf : ℝ → ℕ → ℝ) (boot : Option (ℕ × (ℕ → ℕ → ℕ → ℕ))) {p' p : Arr2 (Option ℝ)} (h : OffZero p' p) (hn : 0 < p.n)
    (hm : 0 < p.m) (h2 : 2 ≤ max p.n p.m) (o : PspecArgs) (hf : o.returnFreqs = true) (hb : BinsAboveZero o p.n p.m) :
    pspecWithStd tppf boot p' o = pspecWithStd tppf boot p o := by
  obtain ⟨d, hd, -, -, hg⟩ := freqDist_spec hn hm h2
  unfold pspecWithStd
  rw [h.n, h.m]
  simp only [bind, Except.bind, hf, if_true, hd]
  cases pspecAzim p.n p.m o.theta0 o.deltaTheta with
  | error e => rfl
  | ok az =>
    cases pspecNbins o.nbins (pspecDists p.n p.m) o.binsize with
    | error e => rfl
    | ok nb =>
      cases hmx : pspecMaxBin o.maxBin true (pspecDists p.n p.m) with
      | error e => rfl
      | ok mx =>
        have z := zero_below hn hm h2 hg hf hb hmx nb
        rw [hf] at z
        simp only [empty_eq h, output_eq h d az _ true z, std_eq tppf boot h d az _ z]

private theorem fn_profile {p' p : Arr2 (Option ℝ)} (h : OffZero p' p) (hn : 0 < p.n) (hm : 0 < p.m) (h2 : 2 ≤ max p.n p.m) (o : PspecArgs)
    (hf : o.returnFreqs = true) (hb : BinsAboveZero o p.n p.m) : pspecFn p' o = pspecFn p o := by
  obtain ⟨d, hd, -, -, hg⟩ := freqDist_spec hn hm h2
  unfold pspecFn
  rw [h.n, h.m]
  simp only [bind, Except.bind, hf, if_true, hd]
  cases pspecAzim p.n p.m o.theta0 o.deltaTheta with
  | error e => rfl
  | ok az =>
    cases pspecNbins o.nbins (pspecDists p.n p.m) o.binsize with
    | error e => rfl
    | ok nb =>
      cases hmx : pspecMaxBin o.maxBin true (pspecDists p.n p.m) with
      | error e => rfl
      | ok mx =>
        have z := zero_below hn hm h2 hg hf hb hmx nb
        rw [hf] at z
        simp only [output_eq h d az _ _ z]

private theorem off_public {ps' ps : Arr2 ℝ} (hn : ps'.n = ps.n) (hm : ps'.m = ps.m)
    (hg : ∀ i < ps.n, ∀ j < ps.m, ¬ (i = ps.n / 2 ∧ j = ps.m / 2) → ps'.get i j = ps.get i j) :
    OffZero ((ps2DProperty ps').map some) ((ps2DProperty ps).map some) := by
  have g : ∀ (q : Arr2 ℝ) (i j : ℕ), i < q.n → ((ps2DProperty q).map some).get i j = some (q.get (q.n - 1 - i) j) := fun q i j hi =>
    congrArg some (C02_ps2D_property q i j hi).2.2
  have s : ∀ q : Arr2 ℝ, 0 < q.n → ((ps2DProperty q).map some).n = q.n ∧ ((ps2DProperty q).map some).m = q.m := fun q hq =>
    ⟨(C02_ps2D_property q 0 0 hq).1, (C02_ps2D_property q 0 0 hq).2.1⟩
  have sn : ∀ q : Arr2 ℝ, ((ps2DProperty q).map some).n = q.n := by
    intro q
    show ((PySlice.mk none none (-1)).resolve q.n).len = q.n
    rw [resolve_full_rev]
  have sm : ∀ q : Arr2 ℝ, ((ps2DProperty q).map some).m = q.m := fun q => rfl
  refine ⟨by rw [sn, sn, hn], by rw [sm, sm, hm], ?_, ?_⟩
  · intro i hi j hj hz
    rw [sn] at hi
    rw [sm] at hj
    rw [sn, sm] at hz
    rw [g ps' i j (by omega), g ps i j hi, hn, hg _ (by omega) j hj]
    rintro ⟨h1, h2⟩
    apply hz
    unfold rowFreq colFreq
    omega
  · intro i hi j hj
    rw [sn] at hi
    rw [g ps' i j (by omega), g ps i j hi]
    rfl

private theorem public_shape (ps : Arr2 ℝ) : ((ps2DProperty ps).map some).n = ps.n ∧ ((ps2DProperty ps).map some).m = ps.m := by
  refine ⟨?_, rfl⟩
  show ((PySlice.mk none none (-1)).resolve ps.n).len = ps.n
  rw [resolve_full_rev]

private theorem off_image (c : ℝ) (a : Arr2 ℝ) (hn : 0 < a.n) (hm : 0 < a.m) :
    ∃ ps ps', computePspec a none = .ok ps ∧ computePspec (raised c a) none = .ok ps' ∧ ps.n = a.n ∧ ps.m = a.m ∧
      OffZero ((ps2DProperty ps').map some) ((ps2DProperty ps).map some) := by
  obtain ⟨ps, ps', e, e', h1, h2, h3, -⟩ := C121_image c a hn hm
  obtain ⟨q, eq, n1, m1, -⟩ := computePspec_none a hn hm
  rw [e] at eq
  cases eq
  exact ⟨ps, ps', e, e', n1, m1, off_public h1 h2 (by rw [n1, m1]; exact h3)⟩

/-- **Profile.** The one-dimensional spectrum, its bins, counts and standard deviations (resampled or not, with or without azimuthal limits)
do not change. -/
theorem C121_profile (tppf : ℝ → ℕ → ℝ) (boot : Option (ℕ × (ℕ → ℕ → ℕ → ℕ))) (c : ℝ) (a : Arr2 ℝ) (hn : 0 < a.n) (hm : 0 < a.m)
    (h2 : 2 ≤ max a.n a.m) (o : PspecArgs) (hf : o.returnFreqs = true) (hb : BinsAboveZero o a.n a.m) :
    ∃ ps ps', computePspec a none = .ok ps ∧ computePspec (raised c a) none = .ok ps' ∧
      pspecWithStd tppf boot ((ps2DProperty ps').map some) o = pspecWithStd tppf boot ((ps2DProperty ps).map some) o := by
  obtain ⟨ps, ps', e, e', n1, m1, h⟩ := off_image c a hn hm
  obtain ⟨s1, s2⟩ := public_shape ps
  exact ⟨ps, ps', e, e', std_profile tppf boot h (by omega) (by omega) (by rw [s1, s2, n1, m1]; exact h2) o hf (by rw [s1, s2, n1, m1]; exact hb)⟩

/-- **Fit of the bins.** Nor do the intercept and slope of the weighted or unweighted fit, whatever the limits. -/
theorem C121_slope (lsq : List (ℝ × ℝ × ℝ) → ℝ × ℝ) (tppf : ℝ → ℕ → ℝ) (boot : Option (ℕ × (ℕ → ℕ → ℕ → ℕ))) (c : ℝ) (a : Arr2 ℝ) (hn : 0 < a.n)
    (hm : 0 < a.m) (h2 : 2 ≤ max a.n a.m) (o : PspecArgs) (hf : o.returnFreqs = true) (hb : BinsAboveZero o a.n a.m) (wt : Bool) (low high : Option ℝ) :
    weightedRun lsq tppf boot none o wt low high (raised c a) = weightedRun lsq tppf boot none o wt low high a := by
  obtain ⟨ps, ps', e, e', n1, m1, h⟩ := off_image c a hn hm
  obtain ⟨s1, s2⟩ := public_shape ps
  have hp := std_profile tppf boot h (by omega) (by omega) (by rw [s1, s2, n1, m1]; exact h2) o hf (by rw [s1, s2, n1, m1]; exact hb)
  unfold weightedRun
  simp only [bind, Except.bind, e, e', radialBinsStd, hp, h.n, h.m]

private theorem unbinned_pixels (p : Arr2 (Option ℝ)) : unbinnedBins p = (pixels p.n p.m).map fun q =>
    ⟨(hypotArr (makeRadialFreqArrays p.n p.m).1 (makeRadialFreqArrays p.n p.m).2).get q.1 q.2, p.get q.1 q.2, none⟩ := by
  unfold unbinnedBins pixels
  change _ = List.map _ (List.flatMap _ _)
  rw [List.map_flatMap]
  simp only [List.map_map]
  rfl

private theorem unbinned_eq (lsq : List (ℝ × ℝ × ℝ) → ℝ × ℝ) (wt : Bool) {p' p : Arr2 (Option ℝ)} (h : OffZero p' p) (low high : Option ℝ)
    (hl : ∀ l, low = some l → 0 ≤ l) : fitPspecUnbinned lsq wt low high p' = fitPspecUnbinned lsq wt low high p := by
  have hfr : (unbinnedBins p').map (·.freq) = (unbinnedBins p).map (·.freq) := by
    rw [unbinned_pixels, unbinned_pixels, h.n, h.m, List.map_map, List.map_map]
    rfl
  have hlo : 0 ≤ lowCutFor low p.n p.m := by
    cases low with
    | none => unfold lowCutFor; positivity
    | some l => exact hl l rfl
  have hpt : ∀ hi, psPoints false (lowCutFor low p.n p.m) hi (unbinnedBins p') = psPoints false (lowCutFor low p.n p.m) hi (unbinnedBins p) := by
    intro hi
    unfold psPoints
    rw [unbinned_pixels, unbinned_pixels, h.n, h.m, List.filter_map, List.filter_map, List.map_map, List.map_map]
    refine List.map_congr_left fun q hq => ?_
    rw [List.mem_filter, mem_pixels] at hq
    obtain ⟨⟨h1, h2⟩, h3⟩ := hq
    simp only [Function.comp]
    rw [h.get _ h1 _ h2]
    rintro ⟨z1, z2⟩
    simp only [Function.comp, hypotArr] at h3
    rw [freqArrays_fst h1, freqArrays_snd h2, z1, z2] at h3
    simp only [clipFunc, Bool.and_eq_true, decide_eq_true_eq] at h3
    have : Real.sqrt ((((0 : ℤ) : ℝ) / p.n) ^ 2 + (((0 : ℤ) : ℝ) / p.m) ^ 2) = 0 := by simp
    rw [this] at h3
    linarith [h3.1]
  unfold fitPspecUnbinned
  simp only [bind, Except.bind, hfr, h.n, h.m]
  cases highCutFor high ((unbinnedBins p).map (·.freq)) with
  | error e => rfl
  | ok hi => simp only [hpt]

/-- **Fit of all modes.** Nor those of the fit of the two-dimensional spectrum, for the default lower limit or any that is not negative. -/
theorem C121_unbinned (lsq : List (ℝ × ℝ × ℝ) → ℝ × ℝ) (c : ℝ) (a : Arr2 ℝ) (hn : 0 < a.n) (hm : 0 < a.m) (h2 : 2 ≤ max a.n a.m) (o : PspecArgs)
    (hf : o.returnFreqs = true) (hb : BinsAboveZero o a.n a.m) (low high : Option ℝ) (hl : ∀ l, low = some l → 0 ≤ l) :
    powerSpectrumRun lsq none o true low high (raised c a) = powerSpectrumRun lsq none o true low high a := by
  obtain ⟨ps, ps', e, e', n1, m1, h⟩ := off_image c a hn hm
  obtain ⟨s1, s2⟩ := public_shape ps
  have hp := fn_profile h (by omega) (by omega) (by rw [s1, s2, n1, m1]; exact h2) { o with returnStddev := true } hf (by rw [s1, s2, n1, m1]; exact hb)
  unfold powerSpectrumRun
  simp only [bind, Except.bind, e, e', radialBins, hp, if_true, unbinned_eq lsq false h low high hl]

/-! ### Cubes -/

/-- **VCA.** Levels added to the channels, another one for each, change neither the profile of the VCA spectrum nor its standard deviations. -/
theorem C121_vca (tppf : ℝ → ℕ → ℝ) (boot : Option (ℕ × (ℕ → ℕ → ℕ → ℕ))) (b : ℕ → ℝ) (a : Arr3 ℝ) (hn : 0 < a.n) (hm : 0 < a.m) (hp : 0 < a.p)
    (h2 : 2 ≤ max a.m a.p) (o : PspecArgs) (hf : o.returnFreqs = true) (hb : BinsAboveZero o a.m a.p) :
    ∃ ps ps', vcaComputePspec a none = .ok ps ∧ vcaComputePspec (channelLevels b a) none = .ok ps' ∧
      (∀ i < a.m, ∀ j < a.p, ¬ (i = a.m / 2 ∧ j = a.p / 2) → ps'.get i j = ps.get i j) ∧
      pspecWithStd tppf boot ((ps2DProperty ps').map some) o = pspecWithStd tppf boot ((ps2DProperty ps).map some) o := by
  obtain ⟨ps, e, n1, m1, g⟩ := C03_vca_channel_sum a hn hm hp
  obtain ⟨ps', e', n2, m2, g'⟩ := C03_vca_channel_sum (channelLevels b a) hn hm hp
  have n2 : ps'.n = a.m := n2
  have m2 : ps'.m = a.p := m2
  have hg : ∀ i < a.m, ∀ j < a.p, ¬ (i = a.m / 2 ∧ j = a.p / 2) → ps'.get i j = ps.get i j := by
    intro i hi j hj hz
    rw [g i hi j hj, g' i hi j hj]
    refine congrArg₂ (· * ·) rfl (sum_congr rfl fun c _ => ?_)
    exact power2_raised (b c) (channel a c) hm hp _ _ fun d => hz ⟨(mode_zero hi).1 d.1, (mode_zero hj).1 d.2⟩
  obtain ⟨s1, s2⟩ := public_shape ps
  exact ⟨ps, ps', e, e', hg, std_profile tppf boot (off_public (by omega) (by omega) (by rw [n1, m1]; exact hg)) (by omega) (by omega)
    (by rw [s1, s2, n1, m1]; exact h2) o hf (by rw [s1, s2, n1, m1]; exact hb)⟩

/-- **VCS.** A continuum, another one for each pixel, changes the spectrum at the zero frequency only. -/
theorem C121_vcs (I : ℕ → ℕ → ℝ) (a : Arr3 ℝ) (hn : 0 < a.n) (hm : 0 < a.m) (hp : 0 < a.p) :
    ∃ ps ps', vcsComputePspec (a.map some) = .ok ps ∧ vcsComputePspec ((withContinuum I a).map some) = .ok ps' ∧ ps.n = a.n ∧ ps'.n = a.n ∧
      ∀ k, 0 < k → k < a.n → ps'.get k = ps.get k := by
  obtain ⟨ps, e, n1, g⟩ := C04_vcs_spectrum a hn hm hp
  obtain ⟨ps', e', n2, g'⟩ := C04_vcs_spectrum (withContinuum I a) hn hm hp
  refine ⟨ps, ps', e, e', n1, n2, fun k h0 hk => ?_⟩
  rw [g k hk, g' k hk]
  refine congrArg some (sum_congr rfl fun i _ => sum_congr rfl fun j _ => specPower_continuum I a hn i j k fun d => ?_)
  have := Int.le_of_dvd (by exact_mod_cast h0) d
  omega

/-- **VCS fit.** So the points fitted are the same, whatever the limits. -/
theorem C121_vcs_points (I : ℕ → ℕ → ℝ) (a : Arr3 ℝ) (hn : 0 < a.n) (hm : 0 < a.m) (hp : 0 < a.p) (low high : Option ℝ) (mf : ℝ) :
    ∃ ps ps', vcsComputePspec (a.map some) = .ok ps ∧ vcsComputePspec ((withContinuum I a).map some) = .ok ps' ∧
      (vcsFitted ps'.n low high mf).map (fun k => (k, ps'.get k)) = (vcsFitted ps.n low high mf).map (fun k => (k, ps.get k)) := by
  obtain ⟨ps, ps', e, e', n1, n2, g⟩ := C121_vcs I a hn hm hp
  refine ⟨ps, ps', e, e', ?_⟩
  rw [n1, n2]
  refine List.map_congr_left fun k hk => ?_
  have hk := (List.mem_filter.1 hk).1
  unfold vcsFitIndices at hk
  rw [List.mem_drop_iff_getElem] at hk
  obtain ⟨i, hi, e⟩ := hk
  rw [List.getElem_range] at e
  rw [List.length_range] at hi
  rw [g k (by omega) (by omega)]

/-! ### Bispectrum -/

/-- **Bispectrum.** With `mean_subtract` a background changes nothing, whatever angles are drawn. -/
theorem C121_bispectrum (c : ℝ) (a : Arr2 ℝ) (hn : 0 < a.n) (hm : 0 < a.m) (draws : ℕ → ℕ → List (ℝ × ℝ)) :
    computeBispectrum (raised c a) true draws = computeBispectrum a true draws := by
  have e : bispecFft (raised c a) true = bispecFft a true := by
    unfold bispecFft
    show Arr2.mk a.n a.m _ = Arr2.mk a.n a.m _
    congr 1
    funext k l
    apply dft2_congr
    intro i hi j hj
    have hn' : (a.n : ℝ) ≠ 0 := by positivity
    have hm' : (a.m : ℝ) ≠ 0 := by positivity
    have es : (∑ i ∈ range (raised c a).n, ∑ j ∈ range (raised c a).m, (raised c a).get i j) =
        (∑ i ∈ range a.n, ∑ j ∈ range a.m, a.get i j) + a.n * a.m * c := by
      show (∑ i ∈ range a.n, ∑ j ∈ range a.m, (a.get i j + c)) = _
      simp only [sum_add_distrib, sum_const, card_range, nsmul_eq_mul]
      ring
    simp only [if_true, es]
    congr 1
    show a.get i j + c - _ / ((a.n * a.m : ℕ) : ℝ) = _
    push_cast
    field_simp
    ring
  unfold computeBispectrum
  rw [e]
  rfl

/-! ### Velocity frame -/

private theorem amp_frame (n m : ℕ) (V I : ℕ → ℕ → ℝ) (v : ℝ) (k l : ℤ) (h : amp n m I k l = 0) :
    amp n m (fun i j => (V i j + v) * I i j) k l = amp n m (fun i j => V i j * I i j) k l := by
  have e : dft2 n m (fun i j => (((V i j + v) * I i j : ℝ) : ℂ)) k l =
      dft2 n m (fun i j => ((V i j * I i j : ℝ) : ℂ)) k l + v * dft2 n m (fun i j => (I i j : ℂ)) k l := by
    unfold dft2
    rw [mul_sum, ← sum_add_distrib]
    refine sum_congr rfl fun i _ => ?_
    rw [mul_sum, ← sum_add_distrib]
    refine sum_congr rfl fun j _ => ?_
    push_cast
    ring
  unfold amp at h ⊢
  rw [e, norm_eq_zero.1 h, mul_zero, add_zero]

/-- **MVC.** At the frequencies where the intensity has no power, the spectrum is the same in every velocity frame.  Missing for the full property:
the other frequencies (`C121_frame_violated`). -/
theorem C121_frame_partial (n m : ℕ) (hn : 0 < n) (hm : 0 < m) (V I L : ℕ → ℕ → ℝ) (v : ℝ) :
    ∃ ps ps', mvcPspec (givenMaps n m V I L) none = .ok ps ∧ mvcPspec (givenMaps n m (fun i j => V i j + v) I L) none = .ok ps' ∧
      ∀ i < n, ∀ j < m, amp n m I ((i : ℤ) - (n / 2 : ℕ)) ((j : ℤ) - (m / 2 : ℕ)) = 0 → ps'.get i j = ps.get i j := by
  obtain ⟨ps, e, -, -, g⟩ := C45_spectrum_partial n m hn hm V I L
  obtain ⟨ps', e', -, -, g'⟩ := C45_spectrum_partial n m hn hm (fun i j => V i j + v) I L
  refine ⟨ps, ps', e, e', fun i hi j hj h => ?_⟩
  rw [g i hi j hj, g' i hi j hj]
  simp only [h, mul_zero, amp_frame n m V I v _ _ h]

/-- VIOLATION: the spectrum of MVC depends on the velocity frame.  Gas at rest in front of the observer has no power; the same gas seen from a frame
that moves at speed 2 has power at every frequency. -/
theorem C121_frame_violated : ∃ I : ℕ → ℕ → ℝ, ∃ ps ps' : Arr2 (Option ℝ),
    mvcPspec (givenMaps 1 2 (fun _ _ => 0) I (fun _ _ => 0)) none = .ok ps ∧
    mvcPspec (givenMaps 1 2 (fun _ _ => 0 + 2) I (fun _ _ => 0)) none = .ok ps' ∧
    ∀ j < 2, ps.get 0 j = some 0 ∧ ps'.get 0 j = some 4 := by
  let I : ℕ → ℕ → ℝ := fun _ j => if j = 0 then 1 else 0
  obtain ⟨ps, e, -, -, g⟩ := C45_spectrum_partial 1 2 (by norm_num) (by norm_num) (fun _ _ => 0) I (fun _ _ => 0)
  obtain ⟨ps', e', -, -, g'⟩ := C45_spectrum_partial 1 2 (by norm_num) (by norm_num) (fun _ _ => 0 + 2) I (fun _ _ => 0)
  have hA : ∀ (c : ℝ) (k l : ℤ), amp 1 2 (fun i j => c * I i j) k l = |c| := by
    intro c k l
    unfold amp dft2
    simp [I, sum_range_succ, om_zero]
  have hI : ∀ k l : ℤ, amp 1 2 I k l = 1 := by
    intro k l
    have := hA 1 k l
    simpa using this
  refine ⟨I, ps, ps', e, e', fun j hj => ⟨?_, ?_⟩⟩
  · rw [g 0 (by norm_num) j hj]
    beta_reduce
    rw [hA, hI]
    unfold mapMean
    simp
  · rw [g' 0 (by norm_num) j hj]
    beta_reduce
    rw [hA, hI]
    unfold mapMean
    norm_num [sum_range_succ]

/-! ### Where the level matters -/

/-- VIOLATION: missing pixels are filled with zeros, so a background changes the spectrum of a map with missing pixels at every frequency.  Two
pixels, one of them missing: no power, and power 1 everywhere once a background of 1 is added. -/
theorem C121_missing_violated : ∃ img : Arr2 (Option ℝ), ∃ s s' ps ps',
    powerSpectrumInit img none = .ok s ∧ powerSpectrumInit (img.map (Option.map (· + 1))) none = .ok s' ∧
    computePspec s.weighted none = .ok ps ∧ computePspec s'.weighted none = .ok ps' ∧
    ∀ j < 2, ps.get 0 j = 0 ∧ ps'.get 0 j = 1 := by
  let img : Arr2 (Option ℝ) := ⟨1, 2, fun _ j => if j = 0 then none else some 0⟩
  obtain ⟨s, e, n1, m1, g⟩ := (C02_weighted_image img img ⟨rfl, rfl⟩).1
  obtain ⟨s', e', n2, m2, g'⟩ := (C02_weighted_image (img.map (Option.map (· + 1))) img ⟨rfl, rfl⟩).1
  have n1 : s.weighted.n = 1 := n1
  have m1 : s.weighted.m = 2 := m1
  have n2 : s'.weighted.n = 1 := n2
  have m2 : s'.weighted.m = 2 := m2
  obtain ⟨ps, f, -, -, q⟩ := computePspec_none s.weighted (by omega) (by omega)
  obtain ⟨ps', f', -, -, q'⟩ := computePspec_none s'.weighted (by omega) (by omega)
  refine ⟨img, s, s', ps, ps', e, e', f, f', fun j hj => ⟨?_, ?_⟩⟩
  · rw [q 0 (by omega) j (by omega)]
    unfold power2 dft2
    rw [n1, m1]
    have a0 := g 0 (by norm_num [img]) 0 (by norm_num [img])
    have a1 := g 0 (by norm_num [img]) 1 (by norm_num [img])
    simp [img] at a0 a1
    simp [sum_range_succ, a0, a1]
  · rw [q' 0 (by omega) j (by omega)]
    unfold power2 dft2
    rw [n2, m2]
    have a0 := g' 0 (by norm_num [img, Arr2.map]) 0 (by norm_num [img, Arr2.map])
    have a1 := g' 0 (by norm_num [img, Arr2.map]) 1 (by norm_num [img, Arr2.map])
    simp [img, Arr2.map] at a0 a1
    simp [sum_range_succ, a0, a1, norm_om]

/-- VIOLATION: an apodizing window spreads the background over the spectrum.  An empty 3×3 map has no power; with a Hanning window a background `c`
has the power `c²` at every frequency. -/
theorem C121_apodized_violated (c : ℝ) : ∃ ps ps' : Arr2 ℝ,
    computePspec ⟨3, 3, fun _ _ => 0⟩ (some ⟨"hanning", 0, 0⟩) = .ok ps ∧
    computePspec (raised c ⟨3, 3, fun _ _ => 0⟩) (some ⟨"hanning", 0, 0⟩) = .ok ps' ∧
    ∀ i < 3, ∀ j < 3, ps.get i j = 0 ∧ ps'.get i j = c ^ 2 := by
  obtain ⟨w, hw, hT⟩ : ∃ w : Arr2 ℝ, apodizingKernel "hanning" 0 0 [3, 3] = .ok w ∧ (w.n = 3 ∧ w.m = 3) ∧
      ∀ i < 3, ∀ j < 3, w.get i j = if i = 1 ∧ j = 1 then 1 else 0 := by
    refine ⟨_, rfl, ⟨rfl, rfl⟩, ?_⟩
    have hh : halfExtent 3 3 = 1 := by unfold halfExtent; norm_num
    have hrt : rTaper 1 3 3 = 1 := by unfold rTaper; rw [hh]; norm_num
    have hri : rInner 0 3 3 = 0 := by unfold rInner; ring
    intro i hi j hj
    simp only [hrt, hri]
    have d0 : radialDistance 3 3 1 1 = 0 := by unfold radialDistance; norm_num
    have dr : ∀ i < 3, ∀ j < 3, ¬ (i = 1 ∧ j = 1) → 1 ≤ radialDistance 3 3 i j := by
      intro i hi j hj h
      unfold radialDistance
      rw [Real.one_le_sqrt]
      interval_cases i <;> interval_cases j <;> first | (exfalso; exact h ⟨rfl, rfl⟩) | norm_num
    by_cases h : i = 1 ∧ j = 1
    · obtain ⟨rfl, rfl⟩ := h
      norm_num [d0]
    · rw [if_neg h]
      have h1 := dr i hi j hj h
      rcases h1.lt_or_eq with h2 | h2
      · rw [if_pos (by push_cast; linarith)]
      · rw [← h2]
        norm_num
  have key : ∀ a : Arr2 ℝ, a.n = 3 → a.m = 3 → computePspec a (some ⟨"hanning", 0, 0⟩) = computePspec ⟨3, 3, fun i j => a.get i j * w.get i j⟩ none := by
    intro a h1 h2
    have hm : mul2 a w = .ok ⟨3, 3, fun i j => a.get i j * w.get i j⟩ := by
      unfold mul2
      rw [if_pos ⟨h1.trans hT.1.1.symm, h2.trans hT.1.2.symm⟩, h1, h2]
    unfold computePspec
    simp only [h1, h2, hw, bind, Except.bind, hm]
  have val : ∀ x : ℝ, ∃ ps : Arr2 ℝ, computePspec ⟨3, 3, fun _ _ => x⟩ (some ⟨"hanning", 0, 0⟩) = .ok ps ∧
      ∀ i < 3, ∀ j < 3, ps.get i j = x ^ 2 := by
    intro x
    obtain ⟨ps, e, -, -, g⟩ := computePspec_none ⟨3, 3, fun i j => x * w.get i j⟩ (by norm_num) (by norm_num)
    refine ⟨ps, (key ⟨3, 3, fun _ _ => x⟩ rfl rfl).trans e, fun i hi j hj => ?_⟩
    rw [g i hi j hj]
    unfold power2 dft2
    have e1 : ∀ i ∈ range 3, ∀ j ∈ range 3, w.get i j = if i = 1 ∧ j = 1 then 1 else 0 := fun i hi j hj =>
      hT.2 i (mem_range.1 hi) j (mem_range.1 hj)
    simp only [sum_range_succ, sum_range_zero, hT.2 0 (by norm_num) 0 (by norm_num), hT.2 0 (by norm_num) 1 (by norm_num),
      hT.2 0 (by norm_num) 2 (by norm_num), hT.2 1 (by norm_num) 0 (by norm_num), hT.2 1 (by norm_num) 1 (by norm_num),
      hT.2 1 (by norm_num) 2 (by norm_num), hT.2 2 (by norm_num) 0 (by norm_num), hT.2 2 (by norm_num) 1 (by norm_num),
      hT.2 2 (by norm_num) 2 (by norm_num)]
    norm_num [norm_om]
  obtain ⟨ps, e, g⟩ := val 0
  obtain ⟨ps', e', g'⟩ := val c
  refine ⟨ps, ps', e, ?_, fun i hi j hj => ⟨by rw [g i hi j hj]; norm_num, g' i hi j hj⟩⟩
  rw [← e']
  show computePspec ⟨3, 3, fun _ _ => 0 + c⟩ _ = _
  simp only [zero_add]

/-- VIOLATION: with bins in pixels (`return_freqs=False`) the zero frequency is in a bin.  The flip of the public spectrum moves it one row off the
centre the pixel radii are measured from when the number of rows is even.  An empty 2×2 map has a bin from 1/2 to 2 pixels of mean power 0; a
background `c` makes it `16 c² / 3`. -/
theorem C121_pixel_bins_violated (c : ℝ) : ∃ o : PspecArgs, o.returnFreqs = false ∧ ∃ ps ps' out out',
    computePspec ⟨2, 2, fun _ _ => 0⟩ none = .ok ps ∧ computePspec (raised c ⟨2, 2, fun _ _ => 0⟩) none = .ok ps' ∧
    pspecFn ((ps2DProperty ps).map some) o = .ok out ∧ pspecFn ((ps2DProperty ps').map some) o = .ok out' ∧
    out.ps1D.get 0 = some 0 ∧ out'.ps1D.get 0 = some (16 * c ^ 2 / 3) := by
  let o : PspecArgs := { nbins := some 1, returnStddev := true, logspacing := false, maxBin := some 2, returnFreqs := false }
  have val : ∀ x : ℝ, ∃ ps out, computePspec ⟨2, 2, fun _ _ => x⟩ none = .ok ps ∧ pspecFn ((ps2DProperty ps).map some) o = .ok out ∧
      out.ps1D.get 0 = some (16 * x ^ 2 / 3) := by
    intro x
    obtain ⟨ps0, ps, e0, e, -, -, g, gz⟩ := C121_image x ⟨2, 2, fun _ _ => 0⟩ (by norm_num) (by norm_num)
    obtain ⟨q, eq, n0, m0, gq⟩ := computePspec_none ⟨2, 2, fun _ _ => (0 : ℝ)⟩ (by norm_num) (by norm_num)
    rw [e0] at eq
    cases eq
    have ex : raised x ⟨2, 2, fun _ _ => 0⟩ = ⟨2, 2, fun _ _ => x⟩ := by
      show Arr2.mk 2 2 (fun _ _ => 0 + x) = _
      simp only [zero_add]
    obtain ⟨q', eq', n1, m1, -⟩ := computePspec_none (raised x ⟨2, 2, fun _ _ => 0⟩) (by norm_num [raised]) (by norm_num [raised])
    rw [e] at eq'
    cases eq'
    have n1 : ps.n = 2 := n1
    have m1 : ps.m = 2 := m1
    have hz : ∀ i < 2, ∀ j < 2, ¬ (i = 1 ∧ j = 1) → ps.get i j = 0 := by
      intro i hi j hj h
      rw [g i hi j hj h, gq i hi j hj]
      unfold power2 dft2
      simp
    have h11 : ps.get 1 1 = 16 * x ^ 2 := by
      have gz : ps.get 1 1 = _ := gz
      rw [gz]
      norm_num
      ring
    obtain ⟨s1, s2⟩ := public_shape ps
    set p := (ps2DProperty ps).map some with hp
    have pg : ∀ i < 2, ∀ j, p.get i j = some (ps.get (1 - i) j) := by
      intro i hi j
      have := (C02_ps2D_property ps i j (by omega)).2.2
      rw [n1] at this
      exact congrArg some this
    obtain ⟨out, ho, hedge, haz⟩ : ∃ out, pspecFn p o = .ok out ∧ out.edges = linspace 0.5 2 2 ∧ out.azim = none := ⟨_, rfl, rfl, rfl⟩
    have en : out.edges.n = 2 := by rw [hedge]; rfl
    have ed0 : out.edges.get 0 = 1 / 2 := by rw [hedge]; simp only [linspace]; norm_num
    have ed1 : out.edges.get 1 = 2 := by rw [hedge]; simp only [linspace]; norm_num
    have hstrict : StrictEdges out.edges := by
      intro a b hab hb
      rw [en] at hb
      have : a = 0 := by omega
      have : b = 1 := by omega
      subst a b
      rw [ed0, ed1]
      norm_num
    have key := C05_bin_means p o out (by omega) (by omega) (by omega) ho hstrict (by omega) 0
    have hS : binPixels p out.azim out.edges o.returnFreqs 0 = {(0, 0), (0, 1), (1, 0)} := by
      have hr : ∀ i < 2, ∀ j < 2, (1 / 2 ≤ pixRadius 2 2 i j ∧ pixRadius 2 2 i j < 2) ↔ ¬ (i = 1 ∧ j = 1) := by
        intro i hi j hj
        unfold pixRadius
        rw [Real.sqrt_lt' (by norm_num), Real.le_sqrt' (by norm_num)]
        interval_cases i <;> interval_cases j <;> norm_num
      ext ⟨i, j⟩
      have hb : binRadius o.returnFreqs p.n p.m i j = pixRadius 2 2 i j := by
        rw [s1, s2, n1, m1]
        rfl
      have hmem : (i, j) ∈ binPixels p out.azim out.edges o.returnFreqs 0 ↔ (i, j) ∈ range p.n ×ˢ range p.m ∧ p.get i j ≠ none ∧
          (∀ a, out.azim = some a → a.get i j = true) ∧ InBin out.edges 0 (binRadius o.returnFreqs p.n p.m i j) := by
        classical
        unfold binPixels
        exact mem_filter
      rw [hmem, hb, mem_product, mem_range, mem_range, s1, s2, n1, m1, haz]
      unfold InBin
      rw [en, ed0, zero_add, ed1]
      simp only [mem_insert, mem_singleton, Prod.mk.injEq]
      constructor
      · rintro ⟨⟨hi, hj⟩, -, -, -, h1, h2⟩
        have h3 : ¬ (i = 1 ∧ j = 1) := by
          rintro ⟨rfl, rfl⟩
          unfold pixRadius at h1
          norm_num at h1
        omega
      · intro h
        have hi : i < 2 := by omega
        have hj : j < 2 := by omega
        have h3 := (hr i hi j hj).2 (by omega)
        exact ⟨⟨hi, hj⟩, by rw [pg i hi j]; exact Option.some_ne_none _, fun a h => (nomatch h), by norm_num, h3.1, Or.inl h3.2⟩
    rw [hS] at key
    refine ⟨ps, out, by rw [← ex]; exact e, ho, key.2.trans ?_⟩
    have c3 : ({(0, 0), (0, 1), (1, 0)} : Finset (ℕ × ℕ)).card = 3 := rfl
    rw [c3, if_neg (by norm_num)]
    unfold pixMean
    rw [c3, sum_insert (by decide), sum_insert (by decide), sum_singleton, pg 0 (by norm_num), pg 0 (by norm_num), pg 1 (by norm_num)]
    simp only [Option.getD_some, Nat.sub_zero, Nat.sub_self, h11, hz 1 (by norm_num) 0 (by norm_num) (by norm_num),
      hz 0 (by norm_num) 0 (by norm_num) (by norm_num)]
    norm_num
  obtain ⟨ps, out, e, f, v⟩ := val 0
  obtain ⟨ps', out', e', f', v'⟩ := val c
  refine ⟨o, rfl, ps, ps', out, out', e, ?_, f, f', by rw [v]; norm_num, v'⟩
  rw [← e']
  show computePspec ⟨2, 2, fun _ _ => 0 + c⟩ _ = _
  simp only [zero_add]

/-! ### Missing spectra -/

private theorem specPower_congr {a b : Arr3 ℝ} (h : a.n = b.n) (i j : ℕ) (k : ℤ) (g : ∀ c < a.n, a.get c i j = b.get c i j) :
    specPower a i j k = specPower b i j k := by
  unfold specPower dft1 losSpectrum
  rw [← h]
  congr 2
  refine sum_congr rfl fun c hc => ?_
  beta_reduce
  rw [g c (mem_range.1 hc)]

/-- **VCS with missing spectra.** The same for cubes where whole spectra are missing, as long as all values are positive with and without the continuum.
Missing for the full property: values that are not positive (`C121_counted_violated`), and spectra of which only a part is missing
(`C121_part_missing_violated`). -/
theorem C121_vcs_missing_partial (I : ℕ → ℕ → ℝ) (cube : Arr3 (Option ℝ)) (hn : 0 < cube.n) (hm : 0 < cube.m) (hp : 0 < cube.p)
    (hmiss : ∃ a < cube.n, ∃ i < cube.m, ∃ j < cube.p, cube.get a i j = none)
    (hval : ∃ a < cube.n, ∃ i < cube.m, ∃ j < cube.p, cube.get a i j ≠ none)
    (hwhole : ∀ i j, (∃ a < cube.n, cube.get a i j = none) → ∀ a < cube.n, cube.get a i j = none)
    (hpos : ∀ a i j x, cube.get a i j = some x → 0 < x ∧ 0 < x + I i j) :
    ∃ ps ps', vcsComputePspec cube = .ok ps ∧
      vcsComputePspec ⟨cube.n, cube.m, cube.p, fun a i j => (cube.get a i j).map (· + I i j)⟩ = .ok ps' ∧
      ∀ k, 0 < k → k < cube.n → ps'.get k = ps.get k := by
  let cube' : Arr3 (Option ℝ) := ⟨cube.n, cube.m, cube.p, fun a i j => (cube.get a i j).map (· + I i j)⟩
  have hnone : ∀ a i j, cube'.get a i j = none ↔ cube.get a i j = none := fun a i j => Option.map_eq_none_iff
  obtain ⟨ps, e, -, g⟩ := C04_vcs_missing_data_partial cube hn hm hp hmiss hval fun a i j x h => (hpos a i j x h).1
  obtain ⟨ps', e', -, g'⟩ := C04_vcs_missing_data_partial cube' hn hm hp
    (by obtain ⟨a, ha, i, hi, j, hj, h⟩ := hmiss; exact ⟨a, ha, i, hi, j, hj, (hnone a i j).2 h⟩)
    (by obtain ⟨a, ha, i, hi, j, hj, h⟩ := hval; exact ⟨a, ha, i, hi, j, hj, fun h' => h ((hnone a i j).1 h')⟩)
    (by
      intro a i j x h
      obtain ⟨y, hy, rfl⟩ := Option.map_eq_some_iff.1 h
      exact (hpos a i j y hy).2)
  refine ⟨ps, ps', e, e', fun k h0 hk => ?_⟩
  rw [g k hk, g' k hk]
  have hs : ∀ i j, specPower (fillNan3 0 cube') i j k = specPower (fillNan3 0 cube) i j k := by
    intro i j
    have d : ¬ ((fillNan3 0 cube).n : ℤ) ∣ (k : ℤ) := fun d => by
      have h1 := Int.le_of_dvd (by exact_mod_cast h0) d
      have h2 : ((fillNan3 0 cube).n : ℤ) = cube.n := rfl
      omega
    by_cases hw : ∃ a < cube.n, cube.get a i j = none
    · refine specPower_congr (a := fillNan3 0 cube') (b := fillNan3 0 cube) rfl i j k fun c hc => ?_
      show ((cube.get c i j).map (· + I i j)).getD 0 = (cube.get c i j).getD 0
      rw [hwhole i j hw c hc]
      rfl
    · rw [← specPower_continuum I (fillNan3 0 cube) hn i j k d]
      refine specPower_congr (a := fillNan3 0 cube') (b := withContinuum I (fillNan3 0 cube)) rfl i j k fun c hc => ?_
      show ((cube.get c i j).map (· + I i j)).getD 0 = (cube.get c i j).getD 0 + I i j
      cases h : cube.get c i j with
      | none => exact absurd ⟨c, hc, h⟩ hw
      | some x => rfl
  simp only [hs, ne_eq, hnone]
  rfl

/-- VIOLATION: with missing spectra the continuum decides which pixels count.  Two channels, one spectrum missing and one with the values -1 and -3: the
spectrum is finite; with a continuum of 1 the largest value is 0, no pixel counts, and nothing is finite. -/
theorem C121_counted_violated : ∃ cube : Arr3 (Option ℝ), ∃ ps ps', vcsComputePspec cube = .ok ps ∧
    vcsComputePspec (cube.map (Option.map (· + 1))) = .ok ps' ∧ ∀ k < 2, ps.get k ≠ none ∧ ps'.get k = none := by
  classical
  let cube : Arr3 (Option ℝ) := ⟨2, 1, 2, fun a _ j => if j = 0 then none else some (if a = 0 then -1 else -3)⟩
  obtain ⟨ps, N, e, -, hN, -, g⟩ := C04_missing_general cube (by norm_num [cube]) (by norm_num [cube]) (by norm_num [cube])
    ⟨0, by norm_num [cube], 0, by norm_num [cube], 0, by norm_num [cube], rfl⟩
  obtain ⟨ps', N', e', -, hN', g', -⟩ := C04_missing_general (cube.map (Option.map (· + 1))) (by norm_num [cube, Arr3.map])
    (by norm_num [cube, Arr3.map]) (by norm_num [cube, Arr3.map])
    ⟨0, by norm_num [cube, Arr3.map], 0, by norm_num [cube, Arr3.map], 0, by norm_num [cube, Arr3.map], rfl⟩
  refine ⟨cube, ps, ps', e, e', fun k hk => ⟨?_, ?_⟩⟩
  · rw [g ?_ k hk]
    · exact Option.some_ne_none _
    · rw [hN, card_pos]
      refine ⟨(0, 1), mem_filter.2 ⟨by simp [cube], ?_⟩⟩
      rintro ⟨⟨c, hc, h⟩, -⟩
      have hc : c < 2 := hc
      interval_cases c <;> norm_num [cube] at h
  · refine g' ?_ k hk
    rw [hN', card_eq_zero, filter_eq_empty_iff]
    rintro ⟨i, j⟩ hij
    rw [not_not]
    rw [mem_product, mem_range, mem_range] at hij
    have hij : i < 1 ∧ j < 2 := hij
    refine ⟨⟨0, by norm_num [cube, Arr3.map], ?_⟩, fun c hc => ?_⟩
    · obtain ⟨-, hj⟩ := hij
      interval_cases j <;> norm_num [cube, Arr3.map]
    · obtain ⟨-, hj⟩ := hij
      have hc : c < 2 := hc
      interval_cases j <;> interval_cases c <;> norm_num [cube, Arr3.map]

/-- VIOLATION: where a part of a spectrum is missing a continuum changes all frequencies.  One pixel and two channels, the first missing and the second 1: the
power at frequency 1 is 1, and 4 with a continuum of 1. -/
theorem C121_part_missing_violated : ∃ cube : Arr3 (Option ℝ), ∃ ps ps', (∀ a i j x, cube.get a i j = some x → 0 < x) ∧ vcsComputePspec cube = .ok ps ∧
    vcsComputePspec (cube.map (Option.map (· + 1))) = .ok ps' ∧ ps.get 1 = some 1 ∧ ps'.get 1 = some 4 := by
  classical
  have val : ∀ x : ℝ, 0 < x → ∃ ps, vcsComputePspec ⟨2, 1, 1, fun a _ _ => if a = 0 then none else some x⟩ = .ok ps ∧ ps.get 1 = some (x ^ 2) := by
    intro x hx
    obtain ⟨ps, e, -, g⟩ := C04_vcs_missing_data_partial ⟨2, 1, 1, fun a _ _ => if a = 0 then none else some x⟩ (by norm_num) (by norm_num) (by norm_num)
      ⟨0, by norm_num, 0, by norm_num, 0, by norm_num, rfl⟩ ⟨1, by norm_num, 0, by norm_num, 0, by norm_num, by simp⟩ (by
        intro a i j y h
        by_cases ha : a = 0
        · simp [ha] at h
        · simp only [ha, if_false, Option.some.injEq] at h
          rw [← h]
          exact hx)
    refine ⟨ps, e, ?_⟩
    rw [g 1 (by norm_num)]
    have hc : ((range 1 ×ˢ range 1).filter (fun ij : ℕ × ℕ => ∃ a < 2, (if a = 0 then none else some x : Option ℝ) ≠ none)).card = 1 := by
      rw [filter_true_of_mem]
      · rfl
      · intro ij _
        exact ⟨1, by norm_num, by simp⟩
    have hp : specPower (fillNan3 0 ⟨2, 1, 1, fun a _ _ => if a = 0 then none else some x⟩) 0 0 (1 : ℕ) = x ^ 2 := by
      unfold specPower dft1 losSpectrum fillNan3 Arr3.map
      simp [sum_range_succ, norm_om]
    show some ((1 : ℕ) * (1 : ℕ) * (∑ i ∈ range 1, ∑ j ∈ range 1, specPower _ i j (1 : ℕ)) / _) = _
    rw [hc, sum_range_one, sum_range_one, hp]
    simp
  obtain ⟨ps, e, g⟩ := val 1 (by norm_num)
  obtain ⟨ps', e', g'⟩ := val 2 (by norm_num)
  refine ⟨_, ps, ps', ?_, e, ?_, by rw [g]; norm_num, by rw [g']; norm_num⟩
  · intro a i j x h
    by_cases ha : a = 0
    · simp [ha] at h
    · simp only [ha, if_false, Option.some.injEq] at h
      rw [← h]
      norm_num
  · rw [← e']
    congr 1
    unfold Arr3.map
    congr 1
    funext a i j
    by_cases ha : a = 0
    · simp [ha]
    · simp only [ha, if_false, Option.map_some]
      norm_num

/-! ### Cases that meet the hypotheses -/

/-- The default arguments meet the condition on the bins. -/
example : BinsAboveZero {} 8 6 ∧ ({} : PspecArgs).returnFreqs = true := ⟨⟨fun _ h => (nomatch h), fun _ h => (nomatch h)⟩, rfl⟩

/-- So do bins from 1/6 to 1/3 for a 5×6 image, with azimuthal limits. -/
example : BinsAboveZero { minBin := some (1 / 6), maxBin := some (1 / 3), theta0 := some 0, deltaTheta := some 1 } 5 6 := by
  constructor <;> (intro b h; cases h; norm_num)

/-- A background that does change the image, and the power at the zero frequency: 0 before, 100 after. -/
example : ∃ ps ps', computePspec ⟨2, 1, fun i _ => if i = 0 then 1 else -1⟩ none = .ok ps ∧
    computePspec (raised 5 ⟨2, 1, fun i _ => if i = 0 then 1 else -1⟩) none = .ok ps' ∧ ps'.get 0 0 = ps.get 0 0 ∧ ps'.get 1 0 = 100 := by
  obtain ⟨ps, ps', e, e', -, -, g, h⟩ := C121_image 5 ⟨2, 1, fun i _ => if i = 0 then 1 else -1⟩ (by norm_num) (by norm_num)
  refine ⟨ps, ps', e, e', g 0 (by norm_num) 0 (by norm_num) (by norm_num), ?_⟩
  have h : ps'.get 1 0 = _ := h
  rw [h]
  norm_num [sum_range_succ]

/-- A cube of three channels and two pixels, one of them missing, positive with and without a continuum of 2. -/
example : ∃ cube : Arr3 (Option ℝ), (∃ a < cube.n, ∃ i < cube.m, ∃ j < cube.p, cube.get a i j = none) ∧
    (∃ a < cube.n, ∃ i < cube.m, ∃ j < cube.p, cube.get a i j ≠ none) ∧
    (∀ i j, (∃ a < cube.n, cube.get a i j = none) → ∀ a < cube.n, cube.get a i j = none) ∧
    ∀ a i j x, cube.get a i j = some x → 0 < x ∧ 0 < x + (2 : ℝ) := by
  refine ⟨⟨3, 1, 2, fun a _ j => if j = 0 then none else some (a + 1)⟩, ⟨0, by norm_num, 0, by norm_num, 0, by norm_num, rfl⟩,
    ⟨0, by norm_num, 0, by norm_num, 1, by norm_num, by simp⟩, ?_, ?_⟩
  · rintro i j ⟨a, -, h⟩ b -
    by_cases hj : j = 0
    · simp [hj]
    · simp [hj] at h
  · intro a i j x h
    by_cases hj : j = 0
    · simp [hj] at h
    · simp only [hj, if_false, Option.some.injEq] at h
      subst h
      constructor <;> positivity

end TS
