import Verif.Model.CubeAxes
import Verif.Lemmas.PSpec
import Verif.Props.C03
import Mathlib.Algebra.Order.Chebyshev
import Mathlib.Tactic.Linarith
import Mathlib.Tactic.NormNum
import Mathlib.Tactic.Positivity
import Mathlib.Tactic.FieldSimp

/-!
C105.  VCA at a given channel width is the VCA of the averaged channels, down to a single channel; a cube with an axis of length one
is still a cube.
-/

namespace TS
open Finset Spec

namespace Spec

/-- Every axis has at least two pixels. -/
def ProperCube {α : Type} (a : Arr3 α) : Prop := 2 ≤ a.n ∧ 2 ≤ a.m ∧ 2 ≤ a.p

/-- The valid values of a pixel in the channels `k f, …, k f + f - 1` that exist. -/
def blockVals (a : Arr3 (Option ℝ)) (f k i j : ℕ) : List ℝ :=
  (List.range f).filterMap fun t : ℕ => if k * f + t < a.n then a.get (k * f + t) i j else none

/-- The cube with runs of `f` channels averaged over the valid values; a pixel without any is zero. -/
noncomputable def thickCube (a : Arr3 (Option ℝ)) (f : ℕ) : Arr3 ℝ :=
  ⟨(a.n + f - 1) / f, a.m, a.p, fun k i j => (blockVals a f k i j).sum / (blockVals a f k i j).length⟩

/-- A cube without missing values. -/
def fullCube (a : Arr3 ℝ) : Arr3 (Option ℝ) := ⟨a.n, a.m, a.p, fun c i j => some (a.get c i j)⟩

/-- `n` times the summed power of the channels at every frequency: what VCA is. -/
def IsChannelPower (ps : Arr2 ℝ) (a : Arr3 ℝ) : Prop :=
  ps.n = a.m ∧ ps.m = a.p ∧ ∀ i < a.m, ∀ j < a.p,
    ps.get i j = a.n * ∑ c ∈ range a.n, power2 (channel a c) ((i : ℤ) - (a.m / 2 : ℕ)) ((j : ℤ) - (a.p / 2 : ℕ))

end Spec

private theorem squeeze_proper {α : Type} {a : Arr3 α} (h : 2 ≤ a.n ∧ 2 ≤ a.m ∧ 2 ≤ a.p) : squeeze3 a = .d3 a := by
  unfold squeeze3
  rw [if_neg (by omega), if_neg (by omega), if_neg (by omega)]

/-- No channel width: the cube with missing values set to zero, and its VCA. -/
theorem C105_no_width (smooth : Arr1 ℝ → Arr3 (Option ℝ) → Arr3 (Option ℝ)) (ax : SpecAxis) (kw : RegridKw)
    (cube : Arr3 (Option ℝ)) (h : ProperCube cube) :
    ∃ d ps, vcaNew smooth ax kw cube none = .ok (.d3 d) ∧ (d.n = cube.n ∧ d.m = cube.m ∧ d.p = cube.p) ∧
      (∀ c i j, (∀ v, cube.get c i j = some v → d.get c i j = v) ∧ (cube.get c i j = none → d.get c i j = 0)) ∧
      vcaPspecNd (.d3 d) = .ok (.two ps) ∧ IsChannelPower ps d := by
  obtain ⟨h1, h2, h3⟩ := h
  obtain ⟨ps, hps, hn, hm, hg⟩ := C03_vca_channel_sum (fillNan3 0 cube) (by show 0 < cube.n; omega)
    (by show 0 < cube.m; omega) (by show 0 < cube.p; omega)
  refine ⟨fillNan3 0 cube, ps, ?_, ⟨rfl, rfl, rfl⟩, ?_, ?_, hn, hm, hg⟩
  · simp only [vcaNew, squeeze_proper ⟨h1, h2, h3⟩, bind, Except.bind, pure, Except.pure, fillNd]
  · intro c i j
    refine ⟨fun v hv => ?_, fun hv => ?_⟩ <;> simp [fillNan3, Arr3.map, hv]
  · simp only [vcaPspecNd, hps, Except.map]

private theorem block_eq (est : List (Option ℝ) → Option ℝ) (a : Arr3 (Option ℝ)) (f k i j : ℕ) :
    (downsampleSpectrum est a.n (fun c => a.get c i j) f k).getD 0 =
      (blockVals a f k i j).sum / (blockVals a f k i j).length := by
  have hv : validVals (((List.range f).filter (fun t => decide (k * f + t < a.n))).map
      (fun t => a.get (k * f + t) i j)) = blockVals a f k i j := by
    unfold validVals blockVals
    generalize List.range f = l
    induction l with
    | nil => rfl
    | cons t l ih =>
      by_cases ht : k * f + t < a.n
      · rw [List.filter_cons_of_pos (by simpa using ht), List.map_cons, List.filterMap_cons, List.filterMap_cons, ih]
        simp [ht]
      · rw [List.filter_cons_of_neg (by simpa using ht), ih, List.filterMap_cons]
        simp [ht]
  unfold downsampleSpectrum nanmean meanO
  rw [hv]
  by_cases h0 : blockVals a f k i j = []
  · simp [h0]
  · rw [if_neg h0]; rfl

/-- The whole pipeline for an integer width. -/
private theorem vca_factor (smooth : Arr1 ℝ → Arr3 (Option ℝ) → Arr3 (Option ℝ)) (ax : SpecAxis)
    (est : List (Option ℝ) → Option ℝ) (cube : Arr3 (Option ℝ)) (h : ProperCube cube) (w : WidthArg) (f : ℕ) (hf : 1 ≤ f)
    (hw : downsampleFactor ax w = .ok f) (hlt : f < cube.n) :
    ∃ d, vcaNew smooth ax ⟨.downsample, est⟩ cube (some w) = .ok (.d3 d) ∧ d.n = (thickCube cube f).n ∧ d.m = cube.m ∧
      d.p = cube.p ∧ ∀ c i j, d.get c i j = (thickCube cube f).get c i j := by
  obtain ⟨h1, h2, h3⟩ := h
  have hk : ¬ ((f : ℤ) < 1) := by omega
  have hn2 : 2 ≤ (cube.n + f - 1) / f := by
    rw [Nat.le_div_iff_mul_le (by omega)]; omega
  refine ⟨⟨(cube.n + f - 1) / f, cube.m, cube.p, fun k i j =>
    (downsampleSpectrum est cube.n (fun c => cube.get c i j) f k).getD 0⟩, ?_, rfl, rfl, rfl, ?_⟩
  · have hs : ∀ g, squeeze3 (⟨(cube.n + f - 1) / f, cube.m, cube.p, g⟩ : Arr3 (Option ℝ)) =
        .d3 ⟨(cube.n + f - 1) / f, cube.m, cube.p, g⟩ := fun g => squeeze_proper ⟨hn2, h2, h3⟩
    simp only [vcaNew, squeeze_proper ⟨h1, h2, h3⟩, vcaRegrid, spectralRegrid, hw, downsampleCube, if_neg hk, bind, Except.bind,
      pure, Except.pure, Int.toNat_natCast, hs, fillNd, fillNan3, Arr3.map, Bool.true_eq_false, if_false]
  · intro c i j
    exact block_eq est cube f c i j

/-- A width of `f` channels, fewer than the cube has: the VCA is that of the cube in which runs of `f` channels are averaged over
their valid values, the last run being shorter when `f` does not divide the number of channels. Missing: a width of the whole cube or
more (`C105_thickest_violated`). -/
theorem C105_width_partial (smooth : Arr1 ℝ → Arr3 (Option ℝ) → Arr3 (Option ℝ)) (ax : SpecAxis)
    (est : List (Option ℝ) → Option ℝ) (cube : Arr3 (Option ℝ)) (h : ProperCube cube) (f : ℕ) (hf : 1 ≤ f) (hlt : f < cube.n) :
    ∃ d ps, vcaNew smooth ax ⟨.downsample, est⟩ cube (some (.int f)) = .ok d ∧ vcaPspecNd d = .ok (.two ps) ∧
      IsChannelPower ps (thickCube cube f) := by
  obtain ⟨d, hd, hn, hm, hp, hg⟩ := vca_factor smooth ax est cube h (.int f) f hf rfl hlt
  obtain ⟨h1, h2, h3⟩ := h
  have hnn : 0 < d.n := by
    rw [hn]; exact Nat.div_pos (by omega) (by omega)
  obtain ⟨ps, hps, hpn, hpm, hpg⟩ := C03_vca_channel_sum d hnn (by omega) (by omega)
  refine ⟨_, ps, hd, by simp only [vcaPspecNd, hps, Except.map], hpn.trans hm, hpm.trans hp, ?_⟩
  intro i hi j hj
  have hi' : i < cube.m := hi
  have hj' : j < cube.p := hj
  rw [hpg i (by omega) j (by omega), hn, hm, hp]
  have : ∀ c, channel d c = channel (thickCube cube f) c := by
    intro c; unfold channel; rw [hm, hp]; congr 1; funext i j; exact hg c i j
  simp only [this]
  rfl

/-- A width in pixels, or in the unit of the spectral axis, is rounded up to whole channels: it does what that number does. -/
theorem C105_quantity (smooth : Arr1 ℝ → Arr3 (Option ℝ) → Arr3 (Option ℝ)) (ax : SpecAxis)
    (h2 : 2 ≤ ax.n) (est : List (Option ℝ) → Option ℝ) (cube : Arr3 (Option ℝ)) (x : ℝ) :
    vcaNew smooth ax ⟨.downsample, est⟩ cube (some (.pix x)) =
      vcaNew smooth ax ⟨.downsample, est⟩ cube (some (.int ⌈x⌉)) ∧
    (0 < |ax.d| → vcaNew smooth ax ⟨.downsample, est⟩ cube (some (.spec x ax.unit)) =
      vcaNew smooth ax ⟨.downsample, est⟩ cube (some (.int ⌈x / |ax.d|⌉))) := by
  have hs : chanStep ax = .ok ax.d := by
    unfold chanStep SpecAxis.get; rw [if_neg (by omega)]; push_cast; congr 1; ring
  refine ⟨?_, fun _ => ?_⟩ <;>
  simp only [vcaNew, vcaRegrid, spectralRegrid, downsampleFactor, hs, bind, Except.bind, pure, Except.pure]

/-- A width of one channel changes nothing. -/
theorem C105_one (smooth : Arr1 ℝ → Arr3 (Option ℝ) → Arr3 (Option ℝ)) (ax : SpecAxis)
    (est : List (Option ℝ) → Option ℝ) (cube : Arr3 (Option ℝ)) (h : ProperCube cube) :
    ∃ d d', vcaNew smooth ax ⟨.downsample, est⟩ cube (some (.int 1)) = .ok (.d3 d) ∧
      vcaNew smooth ax ⟨.downsample, est⟩ cube none = .ok (.d3 d') ∧ d.n = d'.n ∧ d.m = d'.m ∧ d.p = d'.p ∧
      ∀ c < cube.n, ∀ i j, d.get c i j = d'.get c i j := by
  obtain ⟨d, hd, hn, hm, hp, hg⟩ := vca_factor smooth ax est cube h (.int 1) 1 le_rfl rfl (by have := h.1; omega)
  refine ⟨d, fillNan3 0 cube, hd, ?_, ?_, hm, hp, ?_⟩
  · simp only [vcaNew, squeeze_proper h, bind, Except.bind, pure, Except.pure, fillNd]
  · rw [hn]
    show (cube.n + 1 - 1) / 1 = cube.n
    simp
  · intro c hc i j
    rw [hg]
    show (blockVals cube 1 c i j).sum / (blockVals cube 1 c i j).length = (cube.get c i j).getD 0
    have : blockVals cube 1 c i j = (cube.get c i j).toList := by
      unfold blockVals
      simp only [List.range_one, List.filterMap_cons, List.filterMap_nil, mul_one, add_zero, if_pos hc]
      cases cube.get c i j <;> rfl
    rw [this]
    cases cube.get c i j <;> simp

private theorem block_full (a : Arr3 ℝ) (f k i j : ℕ) (hk : k * f + f ≤ a.n) :
    blockVals (fullCube a) f k i j = (List.range f).map fun t : ℕ => a.get (k * f + t) i j := by
  unfold blockVals
  rw [← List.filterMap_eq_map]
  apply List.filterMap_congr
  intro t ht
  have := List.mem_range.1 ht
  rw [if_pos (by show k * f + t < a.n; omega)]
  rfl

private theorem sum_blocks (g : ℕ → ℝ) (b f : ℕ) :
    ∑ k ∈ range b, ∑ t ∈ range f, g (k * f + t) = ∑ c ∈ range (b * f), g c := by
  induction b with
  | zero => simp
  | succ b ih => rw [sum_range_succ, ih, Nat.add_mul, one_mul, sum_range_add]

private theorem list_sum (g : ℕ → ℝ) (f : ℕ) : ((List.range f).map g).sum = ∑ t ∈ range f, g t := by
  induction f with
  | zero => simp
  | succ f ih => rw [List.range_succ, List.map_append, List.sum_append, ih, sum_range_succ]; simp

private theorem one_axis (a : Arr2 ℝ) (hn : 0 < a.n) (hm : 0 < a.m) :
    ∃ ps, vcaPspecNd (.d2 a) = .ok (.one ps) ∧ ps.n = a.m := by
  obtain ⟨b, hb, hbn, hbm, _⟩ := C01_rfft_to_fft_2d a hn hm
  exact ⟨⟨(b.fftshift.map (fun x => x ^ 2)).m, fun j => ∑ i ∈ range (b.fftshift.map (fun x => x ^ 2)).n,
    (b.fftshift.map (fun x => x ^ 2)).get i j⟩, by simp only [vcaPspecNd, hb, bind, Except.bind, pure, Except.pure], hbm⟩

/-- Averaging channels never adds power: for a complete cube and a width that divides the number of channels, `f²` times the VCA at
width `f` is at most the VCA of the cube, at every frequency. -/
theorem C105_thicker_less_power (a : Arr3 ℝ) (b f : ℕ) (hf : 1 ≤ f) (hn : a.n = b * f) (i j : ℕ)
    (ps ps' : Arr2 ℝ) (h : IsChannelPower ps a) (h' : IsChannelPower ps' (thickCube (fullCube a) f)) (hi : i < a.m) (hj : j < a.p) :
    (f : ℝ) ^ 2 * ps'.get i j ≤ ps.get i j := by
  have hf0 : (0 : ℝ) < f := by exact_mod_cast hf
  have hb : (thickCube (fullCube a) f).n = b := by
    show (a.n + f - 1) / f = b
    rw [hn, Nat.add_sub_assoc hf, mul_comm, Nat.mul_add_div (by omega), Nat.div_eq_of_lt (by omega), add_zero]
  rw [h.2.2 i hi j hj, h'.2.2 i hi j hj, hb, hn]
  have e1 : (thickCube (fullCube a) f).m = a.m := rfl
  have e2 : (thickCube (fullCube a) f).p = a.p := rfl
  rw [e1, e2]
  generalize (i : ℤ) - (a.m / 2 : ℕ) = k
  generalize (j : ℤ) - (a.p / 2 : ℕ) = l
  have hblock : ∀ q ∈ range b, (f : ℝ) ^ 2 * power2 (channel (thickCube (fullCube a) f) q) k l ≤
      f * ∑ t ∈ range f, power2 (channel a (q * f + t)) k l := by
    intro q hq
    have hq' : q * f + f ≤ a.n := by
      rw [hn]
      have : q + 1 ≤ b := mem_range.1 hq
      calc q * f + f = (q + 1) * f := by ring
        _ ≤ b * f := Nat.mul_le_mul_right f this
    have hd : (f : ℂ) * dft2 a.m a.p (fun i j => (((thickCube (fullCube a) f).get q i j : ℝ) : ℂ)) k l =
        ∑ t ∈ range f, dft2 a.m a.p (fun i j => ((a.get (q * f + t) i j : ℝ) : ℂ)) k l := by
      rw [← dft2_const_mul]
      unfold dft2
      symm
      rw [sum_comm]
      apply sum_congr rfl; intro x _
      rw [sum_comm]
      apply sum_congr rfl; intro y _
      rw [← sum_mul]
      congr 1
      show _ = (f : ℂ) * (((blockVals (fullCube a) f q x y).sum / (blockVals (fullCube a) f q x y).length : ℝ) : ℂ)
      rw [block_full a f q x y hq', List.length_map, List.length_range, list_sum]
      have hfc : (f : ℂ) ≠ 0 := by exact_mod_cast (by omega : f ≠ 0)
      push_cast
      field_simp
    have hnorm : (f : ℝ) ^ 2 * power2 (channel (thickCube (fullCube a) f) q) k l =
        ‖∑ t ∈ range f, dft2 a.m a.p (fun i j => ((a.get (q * f + t) i j : ℝ) : ℂ)) k l‖ ^ 2 := by
      rw [← hd, norm_mul, mul_pow, Complex.norm_natCast]
      rfl
    rw [hnorm]
    calc ‖∑ t ∈ range f, dft2 a.m a.p (fun i j => ((a.get (q * f + t) i j : ℝ) : ℂ)) k l‖ ^ 2
        ≤ (∑ t ∈ range f, ‖dft2 a.m a.p (fun i j => ((a.get (q * f + t) i j : ℝ) : ℂ)) k l‖) ^ 2 :=
          pow_le_pow_left₀ (norm_nonneg _) (norm_sum_le _ _) 2
      _ ≤ (range f).card * ∑ t ∈ range f, ‖dft2 a.m a.p (fun i j => ((a.get (q * f + t) i j : ℝ) : ℂ)) k l‖ ^ 2 :=
          sq_sum_le_card_mul_sum_sq
      _ = f * ∑ t ∈ range f, power2 (channel a (q * f + t)) k l := by rw [card_range]; rfl
  have hsum := sum_le_sum hblock
  rw [← mul_sum, ← mul_sum, sum_blocks (fun c => power2 (channel a c) k l) b f] at hsum
  have hb0 : (0 : ℝ) ≤ b := Nat.cast_nonneg b
  have := mul_le_mul_of_nonneg_left hsum hb0
  push_cast
  nlinarith [this]

private theorem block_some (a : Arr3 ℝ) (f k i j : ℕ) (hk : k * f < a.n) :
    blockVals (fullCube a) f k i j = (List.range (min f (a.n - k * f))).map fun t : ℕ => a.get (k * f + t) i j := by
  unfold blockVals
  have key : ∀ g : ℕ, ((List.range g).filterMap fun t : ℕ => if k * f + t < (fullCube a).n then (fullCube a).get (k * f + t) i j else none) =
      (List.range (min g (a.n - k * f))).map fun t : ℕ => a.get (k * f + t) i j := by
    intro g
    induction g with
    | zero => simp
    | succ g ih =>
      rw [List.range_succ, List.filterMap_append, ih]
      simp only [List.filterMap_cons, List.filterMap_nil]
      by_cases hg : k * f + g < a.n
      · have h1 : min g (a.n - k * f) = g := by omega
        have h2 : min (g + 1) (a.n - k * f) = g + 1 := by omega
        rw [if_pos (show k * f + g < (fullCube a).n from hg), h1, h2, List.range_succ, List.map_append]
        rfl
      · have h1 : min g (a.n - k * f) = a.n - k * f := by omega
        have h2 : min (g + 1) (a.n - k * f) = a.n - k * f := by omega
        rw [if_neg (show ¬ k * f + g < (fullCube a).n from hg), h1, h2]
        simp
  exact key f

private theorem sum_parts (g : ℕ → ℝ) (n f b : ℕ) (hb : b * f ≤ n + f) :
    ∑ q ∈ range b, ∑ t ∈ range (min f (n - q * f)), g (q * f + t) = ∑ c ∈ range (min n (b * f)), g c := by
  induction b with
  | zero => simp
  | succ b ih =>
    have hb' : b * f ≤ n := by rw [Nat.add_mul] at hb; omega
    rw [sum_range_succ, ih (by omega), Nat.min_eq_right hb', Nat.add_mul, one_mul]
    have : min n (b * f + f) = b * f + min f (n - b * f) := by omega
    rw [this, sum_range_add]

/-- Averaging channels never adds power: for a complete cube and any width below the number of channels, the VCA at that width is at
most the VCA of the cube, at every frequency. -/
theorem C105_thicker_any (smooth : Arr1 ℝ → Arr3 (Option ℝ) → Arr3 (Option ℝ)) (ax : SpecAxis) (kw : RegridKw)
    (est : List (Option ℝ) → Option ℝ) (a : Arr3 ℝ) (h : ProperCube (fullCube a)) (f : ℕ) (hf : 1 ≤ f) (hlt : f < a.n) :
    ∃ d d' ps ps', vcaNew smooth ax kw (fullCube a) none = .ok d ∧ vcaPspecNd d = .ok (.two ps) ∧
      vcaNew smooth ax ⟨.downsample, est⟩ (fullCube a) (some (.int f)) = .ok d' ∧ vcaPspecNd d' = .ok (.two ps') ∧
      ps'.n = ps.n ∧ ps'.m = ps.m ∧ ∀ i < ps.n, ∀ j < ps.m, ps'.get i j ≤ ps.get i j := by
  obtain ⟨d, ps, h1, ⟨hn, hm, hp⟩, hg, h2, h3⟩ := C105_no_width smooth ax kw (fullCube a) h
  obtain ⟨d', ps', h1', h2', h3'⟩ := C105_width_partial smooth ax est (fullCube a) h f hf hlt
  have hm' : d.m = a.m := hm
  have hp' : d.p = a.p := hp
  have hn' : d.n = a.n := hn
  have e1 : (thickCube (fullCube a) f).m = a.m := rfl
  have e2 : (thickCube (fullCube a) f).p = a.p := rfl
  refine ⟨_, d', ps, ps', h1, h2, h1', h2', by rw [h3'.1, h3.1, hm', e1], by rw [h3'.2.1, h3.2.1, hp', e2], ?_⟩
  intro i hi j hj
  have hi' : i < a.m := by rw [h3.1, hm'] at hi; exact hi
  have hj' : j < a.p := by rw [h3.2.1, hp'] at hj; exact hj
  rw [h3.2.2 i (by omega) j (by omega), h3'.2.2 i hi' j hj', hm', hp', hn', e1, e2]
  generalize (i : ℤ) - (a.m / 2 : ℕ) = k
  generalize (j : ℤ) - (a.p / 2 : ℕ) = l
  have hch : ∀ c, power2 (channel d c) k l = power2 (channel a c) k l := by
    intro c
    have : channel d c = channel a c := by
      unfold channel
      rw [hm', hp']
      congr 1
      funext x y
      exact (hg c x y).1 _ rfl
    rw [this]
  simp only [hch]
  have hb : (thickCube (fullCube a) f).n = (a.n + f - 1) / f := rfl
  rw [hb]
  have hbn : (a.n + f - 1) / f * f ≤ a.n + f - 1 := Nat.div_mul_le_self _ _
  have hble : (a.n + f - 1) / f ≤ a.n := by
    obtain ⟨g, rfl⟩ : ∃ g, f = g + 1 := ⟨f - 1, by omega⟩
    obtain ⟨m, hm1⟩ : ∃ m, a.n = m + 1 := ⟨a.n - 1, by omega⟩
    refine Nat.div_le_of_le_mul ?_
    rw [hm1]
    have : (g + 1) * (m + 1) = g * m + g + m + 1 := by ring
    omega
  have hcov : a.n ≤ (a.n + f - 1) / f * f := by
    have := Nat.lt_div_mul_add (a := a.n + f - 1) (b := f) (by omega)
    omega
  have hblock : ∀ q ∈ range ((a.n + f - 1) / f), power2 (channel (thickCube (fullCube a) f) q) k l ≤
      ∑ t ∈ range (min f (a.n - q * f)), power2 (channel a (q * f + t)) k l := by
    intro q hq
    have hq1 : q + 1 ≤ (a.n + f - 1) / f := mem_range.1 hq
    have hqf : q * f < a.n := by
      have := Nat.mul_le_mul_right f hq1
      rw [Nat.add_mul] at this
      omega
    obtain ⟨r, hr⟩ : ∃ r, min f (a.n - q * f) = r := ⟨_, rfl⟩
    have hr1 : 1 ≤ r := by omega
    have hr0 : (1 : ℝ) ≤ r := by exact_mod_cast hr1
    rw [hr]
    have hd : (r : ℂ) * dft2 a.m a.p (fun i j => (((thickCube (fullCube a) f).get q i j : ℝ) : ℂ)) k l =
        ∑ t ∈ range r, dft2 a.m a.p (fun i j => ((a.get (q * f + t) i j : ℝ) : ℂ)) k l := by
      rw [← dft2_const_mul]
      unfold dft2
      symm
      rw [sum_comm]
      apply sum_congr rfl; intro x _
      rw [sum_comm]
      apply sum_congr rfl; intro y _
      rw [← sum_mul]
      congr 1
      show _ = (r : ℂ) * (((blockVals (fullCube a) f q x y).sum / (blockVals (fullCube a) f q x y).length : ℝ) : ℂ)
      rw [block_some a f q x y hqf, hr, List.length_map, List.length_range, list_sum]
      have hfc : (r : ℂ) ≠ 0 := by exact_mod_cast (by omega : r ≠ 0)
      push_cast
      field_simp
    have hnorm : (r : ℝ) ^ 2 * power2 (channel (thickCube (fullCube a) f) q) k l =
        ‖∑ t ∈ range r, dft2 a.m a.p (fun i j => ((a.get (q * f + t) i j : ℝ) : ℂ)) k l‖ ^ 2 := by
      rw [← hd, norm_mul, mul_pow, Complex.norm_natCast]
      rfl
    have hle : (r : ℝ) ^ 2 * power2 (channel (thickCube (fullCube a) f) q) k l ≤ r * ∑ t ∈ range r, power2 (channel a (q * f + t)) k l := by
      rw [hnorm]
      calc ‖∑ t ∈ range r, dft2 a.m a.p (fun i j => ((a.get (q * f + t) i j : ℝ) : ℂ)) k l‖ ^ 2
          ≤ (∑ t ∈ range r, ‖dft2 a.m a.p (fun i j => ((a.get (q * f + t) i j : ℝ) : ℂ)) k l‖) ^ 2 :=
            pow_le_pow_left₀ (norm_nonneg _) (norm_sum_le _ _) 2
        _ ≤ (range r).card * ∑ t ∈ range r, ‖dft2 a.m a.p (fun i j => ((a.get (q * f + t) i j : ℝ) : ℂ)) k l‖ ^ 2 :=
            sq_sum_le_card_mul_sum_sq
        _ = r * ∑ t ∈ range r, power2 (channel a (q * f + t)) k l := by rw [card_range]; rfl
    have hp0 : 0 ≤ power2 (channel (thickCube (fullCube a) f) q) k l := by unfold power2; positivity
    have h4 : (r : ℝ) * power2 (channel (thickCube (fullCube a) f) q) k l ≤ ∑ t ∈ range r, power2 (channel a (q * f + t)) k l := by
      refine le_of_mul_le_mul_left ?_ (by linarith : (0 : ℝ) < r)
      calc (r : ℝ) * (r * power2 (channel (thickCube (fullCube a) f) q) k l)
          = (r : ℝ) ^ 2 * power2 (channel (thickCube (fullCube a) f) q) k l := by ring
        _ ≤ _ := hle
    nlinarith
  have hsum := sum_le_sum hblock
  rw [sum_parts (fun c => power2 (channel a c) k l) a.n f _ (by omega), Nat.min_eq_left hcov] at hsum
  have hS : 0 ≤ ∑ c ∈ range a.n, power2 (channel a c) k l := sum_nonneg fun c _ => by unfold power2; positivity
  calc (((a.n + f - 1) / f : ℕ) : ℝ) * ∑ c ∈ range ((a.n + f - 1) / f), power2 (channel (thickCube (fullCube a) f) c) k l
      ≤ (((a.n + f - 1) / f : ℕ) : ℝ) * ∑ c ∈ range a.n, power2 (channel a c) k l := mul_le_mul_of_nonneg_left hsum (Nat.cast_nonneg _)
    _ ≤ (a.n : ℝ) * ∑ c ∈ range a.n, power2 (channel a c) k l := mul_le_mul_of_nonneg_right (by exact_mod_cast hble) hS

/-- Non-vacuity: five channels in widths of two (the last is alone). -/
example : ProperCube (fullCube ⟨5, 2, 3, fun c i j => (c * i : ℕ) - (j : ℝ)⟩) ∧ 1 ≤ 2 ∧ 2 < 5 := by
  simp [ProperCube, fullCube]

/-- A cube with one missing value: two pixels that cancel in every channel. -/
private def cancelling : Arr3 (Option ℝ) :=
  ⟨4, 2, 2, fun c i j => if c = 0 ∧ i = 0 ∧ j = 0 then some 1 else if c = 0 ∧ i = 0 ∧ j = 1 then some (-1)
    else if c = 1 ∧ i = 0 ∧ j = 0 then none else some 0⟩

/-- VIOLATION: with missing values wider channels can have more power: here nothing at zero frequency in the cube, and something at a
width of two channels, since each pixel is averaged over its own number of channels. -/
theorem C105_missing_more_power_violated (smooth : Arr1 ℝ → Arr3 (Option ℝ) → Arr3 (Option ℝ)) (ax : SpecAxis) (kw : RegridKw)
    (est : List (Option ℝ) → Option ℝ) :
    ∃ (cube : Arr3 (Option ℝ)) (d d' : NdArr ℝ) (ps ps' : Arr2 ℝ), ProperCube cube ∧ 2 < cube.n ∧
      vcaNew smooth ax kw cube none = .ok d ∧ vcaPspecNd d = .ok (.two ps) ∧
      vcaNew smooth ax ⟨.downsample, est⟩ cube (some (.int 2)) = .ok d' ∧ vcaPspecNd d' = .ok (.two ps') ∧
      ps.get (cube.m / 2) (cube.p / 2) = 0 ∧ 0 < ps'.get (cube.m / 2) (cube.p / 2) := by
  have hc : ProperCube cancelling := by simp [ProperCube, cancelling]
  obtain ⟨d, ps, h1, ⟨hn, hm, hp⟩, hg, h2, h3⟩ := C105_no_width smooth ax kw cancelling hc
  obtain ⟨d', ps', h1', h2', h3'⟩ := C105_width_partial smooth ax est cancelling hc 2 (by norm_num) (by simp [cancelling])
  refine ⟨cancelling, _, d', ps, ps', hc, by simp [cancelling], h1, h2, h1', h2', ?_, ?_⟩
  · have hn' : d.n = 4 := hn
    have hm' : d.m = 2 := hm
    have hp' : d.p = 2 := hp
    have hget : ∀ c i j, d.get c i j = (cancelling.get c i j).getD 0 := by
      intro c i j
      cases hv : cancelling.get c i j with
      | none => exact (hg c i j).2 hv
      | some v => exact (hg c i j).1 v hv
    have := h3.2.2 1 (by omega) 1 (by omega)
    rw [hm', hp', hn'] at this
    show ps.get 1 1 = 0
    rw [this]
    have hz : ∀ c < 4, power2 (channel d c) ((1 : ℕ) - ((2 / 2 : ℕ) : ℤ)) ((1 : ℕ) - ((2 / 2 : ℕ) : ℤ)) = 0 := by
      intro c hc4
      unfold power2 channel dft2
      simp only [hm', hp', sum_range_succ, sum_range_zero, hget, cancelling]
      rcases (by omega : c = 0 ∨ c = 1 ∨ c = 2 ∨ c = 3) with rfl | rfl | rfl | rfl <;> simp
    rw [sum_eq_zero fun c hc4 => hz c (mem_range.1 hc4), mul_zero]
  · have := h3'.2.2 1 (by show 1 < 2; norm_num) 1 (by show 1 < 2; norm_num)
    show 0 < ps'.get 1 1
    rw [this]
    have hN : (thickCube cancelling 2).n = 2 := rfl
    have hM : (thickCube cancelling 2).m = 2 := rfl
    have hP : (thickCube cancelling 2).p = 2 := rfl
    rw [hN, hM, hP]
    have h0 : 0 < power2 (channel (thickCube cancelling 2) 0) ((1 : ℕ) - ((2 / 2 : ℕ) : ℤ)) ((1 : ℕ) - ((2 / 2 : ℕ) : ℤ)) := by
      unfold power2 channel dft2
      simp only [hM, hP, sum_range_succ, sum_range_zero, thickCube, blockVals, cancelling]
      have hom : om 2 0 = 1 := by simp [om]
      simp [List.range_succ, hom]
      norm_num
    have h1 : 0 ≤ power2 (channel (thickCube cancelling 2) 1) ((1 : ℕ) - ((2 / 2 : ℕ) : ℤ)) ((1 : ℕ) - ((2 / 2 : ℕ) : ℤ)) := by
      unfold power2; positivity
    rw [sum_range_succ, sum_range_one]
    push_cast
    push_cast at h0 h1
    linarith

/-- VIOLATION: a width of all the channels or more, the thickest slice, leaves one channel, and the spectrum of VCA then has one axis
instead of two: it is not the power spectrum of the averaged image, and the radial profile raises IndexError. -/
theorem C105_thickest_violated (smooth : Arr1 ℝ → Arr3 (Option ℝ) → Arr3 (Option ℝ)) (ax : SpecAxis)
    (est : List (Option ℝ) → Option ℝ) (cube : Arr3 (Option ℝ)) (h : ProperCube cube) (f : ℕ) (hge : cube.n ≤ f) :
    ∃ d ps, vcaNew smooth ax ⟨.downsample, est⟩ cube (some (.int f)) = .ok d ∧ vcaPspecNd d = .ok (.one ps) ∧ ps.n = cube.p ∧
      vcaRadialInput (.one ps) = .error .indexError := by
  obtain ⟨h1, h2, h3⟩ := h
  have hn1 : (cube.n + f - 1) / f = 1 := by
    rw [Nat.div_eq_iff (by omega)]; omega
  have hk : ¬ ((f : ℤ) < 1) := by omega
  obtain ⟨ps, hps, hpn⟩ := one_axis (fillNan 0 ⟨cube.m, cube.p, fun i j =>
    downsampleSpectrum est cube.n (fun c => cube.get c i j) f 0⟩) (by show 0 < cube.m; omega) (by show 0 < cube.p; omega)
  refine ⟨_, ps, ?_, hps, hpn, rfl⟩
  have hs : ∀ g, squeeze3 (⟨(cube.n + f - 1) / f, cube.m, cube.p, g⟩ : Arr3 (Option ℝ)) =
      .d2 ⟨cube.m, cube.p, fun i j => g 0 i j⟩ := by
    intro g
    unfold squeeze3
    rw [if_pos hn1, if_neg (by show cube.m ≠ 1; omega), if_neg (by show cube.p ≠ 1; omega)]
  simp only [vcaNew, squeeze_proper ⟨h1, h2, h3⟩, vcaRegrid, spectralRegrid, downsampleFactor, downsampleCube, if_neg hk, bind,
    Except.bind, pure, Except.pure, Int.toNat_natCast, hs, fillNd, Bool.true_eq_false, if_false]

/-- VIOLATION: a cube with a single channel.  VCA's spectrum has one axis, VCS and SCF raise IndexError. -/
theorem C105_single_channel_violated (smooth : Arr1 ℝ → Arr3 (Option ℝ) → Arr3 (Option ℝ)) (ax : SpecAxis) (kw : RegridKw)
    (cube : Arr3 (Option ℝ)) (h1 : cube.n = 1) (h2 : 2 ≤ cube.m) (h3 : 2 ≤ cube.p) (lags : Arr1 ℝ) (hl : 0 < lags.n) (boundary : String)
    (hb : boundary = "continuous" ∨ boundary = "cut") :
    (∃ d ps, vcaNew smooth ax kw cube none = .ok d ∧ vcaPspecNd d = .ok (.one ps) ∧ ps.n = cube.p ∧
      vcaRadialInput (.one ps) = .error .indexError) ∧
    vcsPspecNd (squeeze3 cube) = .error .indexError ∧
    scfSurfaceNd boundary lags (squeeze3 cube) = .error .indexError := by
  have hs : squeeze3 cube = .d2 ⟨cube.m, cube.p, fun i j => cube.get 0 i j⟩ := by
    unfold squeeze3
    rw [if_pos h1, if_neg (by omega), if_neg (by omega)]
  refine ⟨?_, ?_, ?_⟩
  · obtain ⟨ps, hps, hpn⟩ := one_axis (fillNan 0 ⟨cube.m, cube.p, fun i j => cube.get 0 i j⟩) (by show 0 < cube.m; omega)
      (by show 0 < cube.p; omega)
    refine ⟨_, ps, ?_, hps, hpn, rfl⟩
    simp only [vcaNew, hs, bind, Except.bind, pure, Except.pure, fillNd]
  · rw [hs]
    show (if cube.m = 0 ∨ cube.p = 0 then _ else _) = _
    exact if_neg (by omega)
  · rw [hs]
    unfold scfSurfaceNd
    rw [if_neg (by rcases hb with rfl | rfl <;> simp), if_neg (by omega)]

/-- A proper cube reaches VCS and SCF as it is. -/
theorem C105_proper (cube : Arr3 (Option ℝ)) (h : ProperCube cube) (lags : Arr1 ℝ) (boundary : String) :
    vcsPspecNd (squeeze3 cube) = vcsComputePspec cube ∧
    scfSurfaceNd boundary lags (squeeze3 cube) = scfSurface boundary cube lags := by
  rw [squeeze_proper h]
  exact ⟨rfl, rfl⟩

/-- An image with more than one row and column reaches the power spectrum as it is; one with a single row or column raises
TypeError. -/
theorem C105_image (img : Arr2 (Option ℝ)) (hn : 0 < img.n) (hm : 0 < img.m) :
    ((2 ≤ img.n ∧ 2 ≤ img.m) → ∃ ps, pspecNd (squeeze2 img) = .ok ps ∧ IsCentredPower ps (fillNan 0 img)) ∧
    ((img.n = 1 ∨ img.m = 1) → pspecNd (squeeze2 img) = .error .typeError) := by
  constructor
  · rintro ⟨h1, h2⟩
    obtain ⟨ps, hps, hc⟩ := computePspec_none (fillNan 0 img) (by show 0 < img.n; omega) (by show 0 < img.m; omega)
    refine ⟨ps, ?_, hc⟩
    unfold squeeze2
    rw [if_neg (by omega), if_neg (by omega)]
    exact hps
  · rintro h
    unfold squeeze2
    by_cases h1 : img.n = 1
    · rw [if_pos h1]; rfl
    · rw [if_neg h1, if_pos (by omega)]; rfl

/-- VIOLATION: in a cube with a single row the channels are transformed together with the pixels along the row, and the spectrum
is summed over channels: one axis again. -/
theorem C105_single_row_violated (smooth : Arr1 ℝ → Arr3 (Option ℝ) → Arr3 (Option ℝ)) (ax : SpecAxis) (kw : RegridKw)
    (cube : Arr3 (Option ℝ)) (h1 : 2 ≤ cube.n) (h2 : cube.m = 1) (h3 : 2 ≤ cube.p) :
    ∃ d ps, vcaNew smooth ax kw cube none = .ok d ∧ vcaPspecNd d = .ok (.one ps) ∧ ps.n = cube.p ∧
      vcaRadialInput (.one ps) = .error .indexError := by
  obtain ⟨ps, hps, hpn⟩ := one_axis (fillNan 0 ⟨cube.n, cube.p, fun c j => cube.get c 0 j⟩) (by show 0 < cube.n; omega)
    (by show 0 < cube.p; omega)
  refine ⟨_, ps, ?_, hps, hpn, rfl⟩
  have hs : squeeze3 cube = .d2 ⟨cube.n, cube.p, fun c j => cube.get c 0 j⟩ := by
    unfold squeeze3
    rw [if_neg (by omega), if_pos h2, if_neg (by omega)]
  simp only [vcaNew, hs, bind, Except.bind, pure, Except.pure, fillNd]

/-- Non-vacuity: five channels of 2×3 pixels with a missing value, averaged in pairs; the last run has one channel. -/
example : ∃ cube : Arr3 (Option ℝ), ProperCube cube ∧ (1 ≤ 2 ∧ 2 < cube.n) ∧ (thickCube cube 2).n = 3 ∧
    (thickCube cube 2).get 0 0 0 = 1 / 2 ∧ (thickCube cube 2).get 1 1 1 = 3 ∧ (thickCube cube 2).get 2 0 0 = 4 := by
  refine ⟨⟨5, 2, 3, fun c i _ => if c = 2 ∧ i = 1 then none else some c⟩, ⟨by norm_num, by norm_num, by norm_num⟩,
    ⟨by norm_num, by norm_num⟩, rfl, ?_, ?_, ?_⟩ <;>
  · simp [thickCube, blockVals, List.range_succ]
    try norm_num

end TS
