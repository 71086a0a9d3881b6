import Verif.Model.Regrid
import Mathlib.Tactic.Linarith
import Mathlib.Tactic.FieldSimp
import Mathlib.Tactic.NormNum
import Mathlib.Tactic.Positivity

/-!
C60 — spectral regridding factor.
-/

namespace TS

namespace Spec

/-- The channel width of a cube in base units. -/
def chanWidth (ax : SpecAxis) : ℝ := |ax.d| * ax.unit

end Spec

private theorem get_diff (ax : SpecAxis) : ax.get 1 - ax.get 0 = ax.d := by
  unfold SpecAxis.get; push_cast; ring

private theorem step_ok (ax : SpecAxis) (h : 2 ≤ ax.n) : chanStep ax = .ok ax.d := by
  unfold chanStep; rw [if_neg (by omega), get_diff]

/-- Only cubes and the two documented methods are accepted. -/
theorem C60_checked (ax : SpecAxis) (h2 : 2 ≤ ax.n) (w : WidthArg) (m : RegridMethod) :
    spectralRegrid false ax w m = .error .typeError ∧ spectralRegrid true ax w .unknown = .error .valueError ∧
    spectralRegrid true ax .other .downsample = .error .typeError ∧ spectralRegrid true ax .other .regrid = .error .typeError ∧
    spectralRegrid true ax .otherUnit .downsample = .error .unitsError ∧
    spectralRegrid true ax .otherUnit .regrid = .error .unitConversionError := by
  refine ⟨rfl, rfl, rfl, rfl, ?_, ?_⟩
  · simp [spectralRegrid, downsampleFactor, step_ok ax h2, bind, Except.bind]
  · simp [spectralRegrid, regridBy, diffFactor, step_ok ax h2, bind, Except.bind]

/-- VIOLATION: a cube of one channel is refused with an IndexError whatever quantity is asked for, even one pixel, which is its own
channel width. -/
theorem C60_one_channel_violated (ax : SpecAxis) (h1 : ax.n < 2) (x u : ℝ) :
    spectralRegrid true ax (.pix x) .downsample = .error .indexError ∧ spectralRegrid true ax (.pix x) .regrid = .error .indexError ∧
    spectralRegrid true ax (.spec x u) .downsample = .error .indexError ∧
    spectralRegrid true ax (.spec x u) .regrid = .error .indexError ∧
    spectralRegrid true ax (.int 1) .downsample = .ok (.factor 1) := by
  simp [spectralRegrid, regridBy, diffFactor, downsampleFactor, chanStep, h1, bind, Except.bind, pure, Except.pure]

/-- A cube with one channel. -/
example : spectralRegrid true ⟨1, 0, 1, 1⟩ (.pix 1) .downsample = .error .indexError :=
  (C60_one_channel_violated ⟨1, 0, 1, 1⟩ (by norm_num) 1 1).1

/-- Downsampling to a width given in pixels or in the cube's own unit uses the least number of channels at least that wide. Missing:
widths in other units (`C60_downsample_units_violated`) and widths finer than a channel (`C60_downsample_finer_violated`). -/
theorem C60_downsample_partial (ax : SpecAxis) (h2 : 2 ≤ ax.n) (hd : ax.d ≠ 0) (x : ℝ) :
    (∃ k, spectralRegrid true ax (.pix x) .downsample = .ok (.factor k) ∧ x ≤ k ∧ ∀ j : ℤ, x ≤ j → k ≤ j) ∧
    (∃ k, spectralRegrid true ax (.spec x ax.unit) .downsample = .ok (.factor k) ∧ x ≤ k * |ax.d| ∧
      ∀ j : ℤ, x ≤ j * |ax.d| → k ≤ j) := by
  have hp := abs_pos.2 hd
  refine ⟨⟨⌈x⌉, ?_, Int.le_ceil x, fun j hj => Int.ceil_le.2 hj⟩, ⟨⌈x / |ax.d|⌉, ?_, ?_, fun j hj => ?_⟩⟩
  · simp [spectralRegrid, downsampleFactor, step_ok ax h2, bind, Except.bind, pure, Except.pure]
  · simp [spectralRegrid, downsampleFactor, step_ok ax h2, bind, Except.bind, pure, Except.pure]
  · have := Int.le_ceil (x / |ax.d|)
    rwa [div_le_iff₀ hp] at this
  · exact Int.ceil_le.2 (by rwa [div_le_iff₀ hp])

/-- 0.5 km/s on 0.2 km/s channels: three channels. -/
example : ∃ k, spectralRegrid true ⟨10, 0, 1 / 5, 1000⟩ (.spec (1 / 2) 1000) .downsample = .ok (.factor k) ∧ k = 3 := by
  refine ⟨⌈(1 / 2 : ℝ) / |1 / 5|⌉, ?_, ?_⟩
  · simp only [spectralRegrid, downsampleFactor, step_ok ⟨10, 0, 1 / 5, 1000⟩ (by norm_num), bind, Except.bind, pure, Except.pure]
    rfl
  · rw [Int.ceil_eq_iff]
    norm_num [abs_of_pos]

/-- VIOLATION: the unit of the ratio is dropped, so a width given in another unit than the cube's is taken for the wrong number of
channels: any width of at most one kilometre per second on channels of one metre per second or more is "one channel", i.e. the cube
is not downsampled at all. -/
theorem C60_downsample_units_violated (n : ℕ) (hn : 2 ≤ n) (s0 d x : ℝ) (hd : 1 ≤ d) (hx0 : 0 < x) (hx1 : x ≤ 1) :
    spectralRegrid true ⟨n, s0, d, 1⟩ (.spec x 1000) .downsample = .ok (.factor 1) := by
  have : ⌈x / |d|⌉ = 1 := by
    rw [abs_of_pos (by linarith), Int.ceil_eq_iff]
    push_cast
    constructor
    · have : 0 < x / d := div_pos hx0 (by linarith)
      linarith
    · rw [div_le_one (by linarith)]; linarith
  unfold spectralRegrid downsampleFactor
  simp [step_ok ⟨n, s0, d, 1⟩ hn, bind, Except.bind, pure, Except.pure, this]

/-- 1 km/s on 500 m/s channels should be two channels. -/
example : spectralRegrid true ⟨100, 0, 500, 1⟩ (.spec 1 1000) .downsample = .ok (.factor 1) ∧
    1 * 1000 = (2 : ℝ) * Spec.chanWidth ⟨100, 0, 500, 1⟩ := by
  refine ⟨C60_downsample_units_violated 100 (by norm_num) 0 500 1 (by norm_num) one_pos le_rfl, ?_⟩
  unfold Spec.chanWidth; norm_num

/-- VIOLATION: downsampling does not refuse channels finer than the present ones; it leaves the cube as it is. -/
theorem C60_downsample_finer_violated (ax : SpecAxis) (h2 : 2 ≤ ax.n) (hd : ax.d ≠ 0) (x : ℝ) (h0 : 0 < x) (h1 : x < |ax.d|) :
    spectralRegrid true ax (.spec x ax.unit) .downsample = .ok (.factor 1) := by
  have hp := abs_pos.2 hd
  have : ⌈x / |ax.d|⌉ = 1 := by
    rw [Int.ceil_eq_iff]
    push_cast
    constructor
    · have := div_pos h0 hp; linarith
    · rw [div_le_one hp]; exact h1.le
  unfold spectralRegrid downsampleFactor
  simp [step_ok ax h2, bind, Except.bind, pure, Except.pure, this]

example : spectralRegrid true ⟨10, 0, -2, 1⟩ (.spec 1 1) .downsample = .ok (.factor 1) :=
  C60_downsample_finer_violated ⟨10, 0, -2, 1⟩ (by norm_num) (by norm_num) 1 one_pos (by norm_num)

/-- VIOLATION: the caller's downsampling function is ignored: asking for sums gives means. -/
theorem C60_function_violated (n f : ℕ) (x : ℕ → Option ℝ) (k : ℕ) (g h : List (Option ℝ) → Option ℝ) :
    downsampleSpectrum g n x f k = downsampleSpectrum h n x f k ∧
    ∃ (y : ℕ → Option ℝ), downsampleSpectrum (fun l => some (nansum l)) 2 y 2 0 = some 2 ∧
      nansum ((List.range 2).map y) = 4 := by
  refine ⟨rfl, fun k => some (1 + 2 * k), ?_, ?_⟩
  · have : downsampleSpectrum (fun l => some (nansum l)) 2 (fun k => some (1 + 2 * (k : ℝ))) 2 0 = nanmean [some 1, some 3] := by
      norm_num [downsampleSpectrum, List.range_succ]
    rw [this]
    change some _ = some _
    have : validVals [some (1 : ℝ), some 3] = [1, 3] := rfl
    rw [this]
    norm_num
  · norm_num [nansum, validVals, List.range_succ]

/-! ### The 'regrid' method -/

/-- The requested width, in channels. -/
private theorem factor_pix (ax : SpecAxis) (h2 : 2 ≤ ax.n) (hd : ax.d ≠ 0) (x : ℝ) : diffFactor ax (.pix x) = .ok |x| := by
  unfold diffFactor
  simp only [step_ok ax h2, bind, Except.bind, pure, Except.pure]
  rw [mul_div_assoc, div_self hd, mul_one]

private theorem factor_spec (ax : SpecAxis) (h2 : 2 ≤ ax.n) (hd : ax.d ≠ 0) (hu : 0 < ax.unit) (x u : ℝ) :
    diffFactor ax (.spec x u) = .ok (|x * u| / Spec.chanWidth ax) := by
  unfold diffFactor Spec.chanWidth
  simp only [step_ok ax h2, bind, Except.bind, pure, Except.pure]
  rw [div_div, abs_div, abs_mul ax.unit, abs_of_pos hu, mul_comm ax.unit]

/-- Whatever the units: a width equal to the present one returns the cube unchanged, a finer one is refused, a wider one gives a new
axis of `floor(n / ratio)` channels. -/
theorem C60_regrid (ax : SpecAxis) (h2 : 2 ≤ ax.n) (hd : ax.d ≠ 0) (hu : 0 < ax.unit) (x u : ℝ) :
    (|x * u| = Spec.chanWidth ax → spectralRegrid true ax (.spec x u) .regrid = .ok .same) ∧
    (|x * u| < Spec.chanWidth ax → spectralRegrid true ax (.spec x u) .regrid = .error .valueError) ∧
    (Spec.chanWidth ax < |x * u| → ∃ a, spectralRegrid true ax (.spec x u) .regrid = .ok (.axis a) ∧
      a = regridAxis ax (|x * u| / Spec.chanWidth ax) ∧ a.n = ⌊(ax.n : ℝ) / (|x * u| / Spec.chanWidth ax)⌋₊) ∧
    (|x| = 1 → spectralRegrid true ax (.pix x) .regrid = .ok .same) ∧
    (|x| < 1 → spectralRegrid true ax (.pix x) .regrid = .error .valueError) ∧
    (1 < |x| → ∃ a, spectralRegrid true ax (.pix x) .regrid = .ok (.axis a) ∧ a = regridAxis ax |x| ∧
      a.n = ⌊(ax.n : ℝ) / |x|⌋₊) := by
  have hw : 0 < Spec.chanWidth ax := mul_pos (abs_pos.2 hd) hu
  have key : ∀ (w : WidthArg) (f : ℝ), diffFactor ax w = .ok f →
      (f = 1 → spectralRegrid true ax w .regrid = .ok .same) ∧
      (f < 1 → spectralRegrid true ax w .regrid = .error .valueError) ∧
      (1 < f → ∃ a, spectralRegrid true ax w .regrid = .ok (.axis a) ∧ a = regridAxis ax f ∧ a.n = ⌊(ax.n : ℝ) / f⌋₊) := by
    intro w f hf
    unfold spectralRegrid regridBy
    simp only [hf, bind, Except.bind, pure, Except.pure, Bool.true_eq_false, if_false]
    refine ⟨fun h => by rw [if_pos h], fun h => by rw [if_neg (by linarith), if_pos h]; rfl, fun h => ?_⟩
    refine ⟨regridAxis ax f, by rw [if_neg (by linarith), if_neg (by linarith)], rfl, ?_⟩
    unfold regridAxis
    simp only
    split <;> rfl
  have ks := key _ _ (factor_spec ax h2 hd hu x u)
  have kp := key _ _ (factor_pix ax h2 hd x)
  refine ⟨fun h => ks.1 ?_, fun h => ks.2.1 ?_, fun h => ks.2.2 ?_, kp.1, kp.2.1, kp.2.2⟩
  · rw [h, div_self hw.ne']
  · rwa [div_lt_one hw]
  · rwa [one_lt_div hw]

private theorem axis_min (ax : SpecAxis) (hn : 0 < ax.n) :
    minO ax.toList = some (if ax.d < 0 then ax.get (ax.n - 1) else ax.get 0) ∧
    maxO ax.toList = some (if ax.d < 0 then ax.get 0 else ax.get (ax.n - 1)) := by
  have hm : ∀ k < ax.n, ax.get k ∈ ax.toList := by
    intro k hk
    exact List.mem_map.2 ⟨k, List.mem_range.2 hk, rfl⟩
  have hle : ∀ k < ax.n, (k : ℝ) ≤ ((ax.n - 1 : ℕ) : ℝ) := by
    intro k hk
    exact_mod_cast Nat.le_sub_one_of_lt hk
  constructor
  · rw [minO_eq_some]
    constructor
    · split
      · exact hm _ (by omega)
      · exact hm _ hn
    · intro t ht
      obtain ⟨k, hk, rfl⟩ := List.mem_map.1 ht
      rw [List.mem_range] at hk
      have h1 := hle k hk
      have h0 : (0 : ℝ) ≤ k := Nat.cast_nonneg k
      unfold SpecAxis.get
      split
      · nlinarith
      · push_cast; nlinarith
  · rw [maxO_eq_some]
    constructor
    · split
      · exact hm _ hn
      · exact hm _ (by omega)
    · intro t ht
      obtain ⟨k, hk, rfl⟩ := List.mem_map.1 ht
      rw [List.mem_range] at hk
      have h1 := hle k hk
      have h0 : (0 : ℝ) ≤ k := Nat.cast_nonneg k
      unfold SpecAxis.get
      split
      · push_cast; nlinarith
      · nlinarith

private theorem linspace_val (a b : ℝ) (num k : ℕ) : (linspace a b num).get k = a + k * ((b - a) / ((num : ℝ) - 1)) := rfl

/-- The new axis with at least two channels starts and ends where the old one does, in the same order, and is evenly spaced. -/
theorem C60_axis (ax : SpecAxis) (f : ℝ) (hn : 0 < ax.n) (hnum : 2 ≤ ⌊(ax.n : ℝ) / f⌋₊) :
    (regridAxis ax f).n = ⌊(ax.n : ℝ) / f⌋₊ ∧
    (∀ k, k < (regridAxis ax f).n → (regridAxis ax f).get k =
      ax.get 0 + k * ((((ax.n : ℝ) - 1) * ax.d) / ((((regridAxis ax f).n : ℕ) : ℝ) - 1))) ∧
    (regridAxis ax f).get 0 = ax.get 0 ∧ (regridAxis ax f).get ((regridAxis ax f).n - 1) = ax.get (ax.n - 1) := by
  have hN : (regridAxis ax f).n = ⌊(ax.n : ℝ) / f⌋₊ := by
    unfold regridAxis
    simp only
    split <;> rfl
  have hcast : ((ax.n - 1 : ℕ) : ℝ) = (ax.n : ℝ) - 1 := by
    rw [Nat.cast_sub (by omega)]; simp
  have hmain : ∀ k, k < (regridAxis ax f).n → (regridAxis ax f).get k =
      ax.get 0 + k * ((((ax.n : ℝ) - 1) * ax.d) / ((((regridAxis ax f).n : ℕ) : ℝ) - 1)) := by
    intro k hk
    rw [hN] at hk ⊢
    generalize hM : ⌊(ax.n : ℝ) / f⌋₊ = M at hk hnum
    have hM1 : ((M : ℝ) - 1) ≠ 0 := by
      have : (2 : ℝ) ≤ M := by exact_mod_cast hnum
      linarith
    unfold regridAxis
    simp only [hM]
    rw [get_diff, (axis_min ax hn).1, (axis_min ax hn).2]
    by_cases hd : ax.d < 0
    · simp only [if_pos hd, Option.getD_some]
      rw [linspace_val, Nat.cast_sub (by omega), Nat.cast_sub (by omega)]
      unfold SpecAxis.get
      rw [hcast]
      push_cast
      field_simp
      ring
    · simp only [if_neg hd, Option.getD_some]
      rw [linspace_val]
      unfold SpecAxis.get
      rw [hcast]
      push_cast
      field_simp
      ring
  refine ⟨hN, hmain, ?_, ?_⟩
  · rw [hmain 0 (by omega)]; simp
  · rw [hmain _ (by omega)]
    have h2 : ((((regridAxis ax f).n : ℕ) : ℝ) - 1) ≠ 0 := by
      rw [hN]
      have : (2 : ℝ) ≤ (⌊(ax.n : ℝ) / f⌋₊ : ℝ) := by exact_mod_cast hnum
      linarith
    rw [Nat.cast_sub (by omega)]
    unfold SpecAxis.get
    rw [hcast]
    push_cast
    field_simp
    ring

/-- The new channels are never finer than asked for, and not wider than rounding the number of channels down allows. Missing: the width
should be the one asked for (`C60_width_violated`, `C60_wide_violated`). -/
theorem C60_width_partial (ax : SpecAxis) (f : ℝ) (hf : 1 < f) (hd : ax.d ≠ 0) (hnum : 2 ≤ ⌊(ax.n : ℝ) / f⌋₊) (k : ℕ)
    (hk : k + 1 < (regridAxis ax f).n) :
    f * |ax.d| ≤ |(regridAxis ax f).get (k + 1) - (regridAxis ax f).get k| ∧
    (2 * f < ax.n → |(regridAxis ax f).get (k + 1) - (regridAxis ax f).get k| < (ax.n - 1) * |ax.d| / (ax.n / f - 2)) := by
  have hn : 0 < ax.n := by
    rcases Nat.eq_zero_or_pos ax.n with h | h
    · rw [h] at hnum; simp at hnum
    · exact h
  obtain ⟨hN, hmain, _, _⟩ := C60_axis ax f hn hnum
  rw [hmain (k + 1) hk, hmain k (by omega), hN]
  have hfl := Nat.floor_le (a := (ax.n : ℝ) / f) (by positivity)
  have hlt := Nat.lt_floor_add_one ((ax.n : ℝ) / f)
  generalize ⌊(ax.n : ℝ) / f⌋₊ = M at hnum hfl hlt
  have hM : (2 : ℝ) ≤ M := by exact_mod_cast hnum
  have hM1 : (0 : ℝ) < (M : ℝ) - 1 := by linarith
  have hp := abs_pos.2 hd
  have hf0 : 0 < f := by linarith
  have hfl' : (M : ℝ) * f ≤ ax.n := by rwa [le_div_iff₀ hf0] at hfl
  have hnM : (1 : ℝ) ≤ ax.n := by exact_mod_cast hn
  have e : |ax.get 0 + ((k + 1 : ℕ) : ℝ) * (((ax.n : ℝ) - 1) * ax.d / ((M : ℝ) - 1)) -
      (ax.get 0 + (k : ℝ) * (((ax.n : ℝ) - 1) * ax.d / ((M : ℝ) - 1)))| = ((ax.n : ℝ) - 1) * |ax.d| / ((M : ℝ) - 1) := by
    have : ax.get 0 + ((k + 1 : ℕ) : ℝ) * (((ax.n : ℝ) - 1) * ax.d / ((M : ℝ) - 1)) -
      (ax.get 0 + (k : ℝ) * (((ax.n : ℝ) - 1) * ax.d / ((M : ℝ) - 1))) = ((ax.n : ℝ) - 1) * ax.d / ((M : ℝ) - 1) := by
      push_cast; ring
    rw [this, abs_div, abs_mul, abs_of_nonneg (by linarith : (0 : ℝ) ≤ (ax.n : ℝ) - 1), abs_of_pos hM1]
  rw [e]
  constructor
  · rw [le_div_iff₀ hM1]
    nlinarith
  · intro h2
    have hpos : 0 < (ax.n : ℝ) / f - 2 := by
      rw [sub_pos, lt_div_iff₀ hf0]; exact h2
    apply div_lt_div_of_pos_left _ hpos (by linarith)
    apply mul_pos _ hp
    nlinarith

/-- VIOLATION: the new channels are always strictly wider than asked for. -/
theorem C60_width_violated (ax : SpecAxis) (f : ℝ) (hf : 1 < f) (hd : ax.d ≠ 0) (hnum : 2 ≤ ⌊(ax.n : ℝ) / f⌋₊) (k : ℕ)
    (hk : k + 1 < (regridAxis ax f).n) :
    f * |ax.d| < |(regridAxis ax f).get (k + 1) - (regridAxis ax f).get k| := by
  have hn : 0 < ax.n := by
    rcases Nat.eq_zero_or_pos ax.n with h | h
    · rw [h] at hnum; simp at hnum
    · exact h
  obtain ⟨hN, hmain, _, _⟩ := C60_axis ax f hn hnum
  rw [hmain (k + 1) hk, hmain k (by omega), hN]
  have hfl := Nat.floor_le (a := (ax.n : ℝ) / f) (by positivity)
  generalize ⌊(ax.n : ℝ) / f⌋₊ = M at hnum hfl
  have hM : (2 : ℝ) ≤ M := by exact_mod_cast hnum
  have hM1 : (0 : ℝ) < (M : ℝ) - 1 := by linarith
  have hp := abs_pos.2 hd
  have hf0 : 0 < f := by linarith
  have hfl' : (M : ℝ) * f ≤ ax.n := by rwa [le_div_iff₀ hf0] at hfl
  have hnM : (1 : ℝ) ≤ ax.n := by exact_mod_cast hn
  have : ax.get 0 + ((k + 1 : ℕ) : ℝ) * (((ax.n : ℝ) - 1) * ax.d / ((M : ℝ) - 1)) -
      (ax.get 0 + (k : ℝ) * (((ax.n : ℝ) - 1) * ax.d / ((M : ℝ) - 1))) = ((ax.n : ℝ) - 1) * ax.d / ((M : ℝ) - 1) := by
    push_cast; ring
  rw [this, abs_div, abs_mul, abs_of_nonneg (by linarith : (0 : ℝ) ≤ (ax.n : ℝ) - 1), abs_of_pos hM1, lt_div_iff₀ hM1]
  nlinarith

/-- Ten channels of width 1 regridded to width 2 become five channels of width 9/4. -/
example : (regridAxis ⟨10, 0, 1, 1⟩ 2).n = 5 ∧ (regridAxis ⟨10, 0, 1, 1⟩ 2).get 1 - (regridAxis ⟨10, 0, 1, 1⟩ 2).get 0 = 9 / 4 := by
  have h5 : ⌊(((⟨10, 0, 1, 1⟩ : SpecAxis).n : ℕ) : ℝ) / 2⌋₊ = 5 := by norm_num
  obtain ⟨hN, hm, _, _⟩ := C60_axis ⟨10, 0, 1, 1⟩ 2 (by norm_num) (by rw [h5]; norm_num)
  rw [h5] at hN
  refine ⟨hN, ?_⟩
  rw [hm 1 (by omega), hm 0 (by omega), hN]
  norm_num

/-- VIOLATION: a width of more than half the bandwidth leaves a single channel at the lowest velocity, which does not cover the
original range; wider than the bandwidth leaves none. -/
theorem C60_wide_violated (ax : SpecAxis) (hn : 0 < ax.n) (f : ℝ) (hf : 0 < f) :
    ((ax.n : ℝ) / 2 < f → f ≤ ax.n → (regridAxis ax f).n = 1 ∧
      (regridAxis ax f).get 0 = if ax.d < 0 then ax.get (ax.n - 1) else ax.get 0) ∧
    ((ax.n : ℝ) < f → (regridAxis ax f).n = 0) := by
  constructor
  · intro h1 h2
    have h : ⌊(ax.n : ℝ) / f⌋₊ = 1 := by
      rw [Nat.floor_eq_iff (by positivity)]
      constructor
      · rw [le_div_iff₀ hf]; simpa using h2
      · rw [div_lt_iff₀ hf]; push_cast; linarith
    unfold regridAxis
    simp only [h]
    rw [get_diff, (axis_min ax hn).1]
    by_cases hd : ax.d < 0
    · rw [if_pos hd, if_pos hd]
      refine ⟨rfl, ?_⟩
      simp only
      rw [linspace_val]; simp
    · rw [if_neg hd, if_neg hd]
      refine ⟨rfl, ?_⟩
      rw [linspace_val]; simp
  · intro h1
    have h : ⌊(ax.n : ℝ) / f⌋₊ = 0 := by
      rw [Nat.floor_eq_zero, div_lt_one hf]; exact h1
    unfold regridAxis
    simp only [h]
    split <;> rfl

example : (regridAxis ⟨10, 0, -1, 1⟩ 6).n = 1 ∧ (regridAxis ⟨10, 0, -1, 1⟩ 6).get 0 = -9 := by
  obtain ⟨h1, h2⟩ := (C60_wide_violated ⟨10, 0, -1, 1⟩ (by norm_num) 6 (by norm_num)).1 (by norm_num) (by norm_num)
  refine ⟨h1, ?_⟩
  rw [h2]
  norm_num [SpecAxis.get]

end TS
